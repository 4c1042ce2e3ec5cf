import Verif.FwImage.Frame
import Verif.Flash.Props
/-! Resources, the headers of firmware images, copies; and what does not hold. -/
namespace Verif.FwImage
open Verif.Flash (Mem bytesAt u32 u32_id bytesAt_add)

/-- The calls that read or verify a component or an application image. -/
inductive Call
  | verification (c : Comp) (expected : Option Bytes) (room : Option Nat)
  | load (c : Comp) (max : Nat)
  | loadAndVerify (c : Comp) (max : Nat) (header : Option Hdr) (expected : Option Bytes) (room : Option Nat)
  | loadToMemory (c : Comp) (iv : Bytes) (header : Option Hdr) (expected : Option Bytes) (room : Option Nat)
  | signature (c : Comp) (n : Nat)
  | digest (c : Comp) (n : Nat)
  | appVerification (a headerLength : Nat) (room : Option Nat)
  | appLoad (a max : Nat)
  | appLoadAndVerify (a headerLength max : Nat) (room : Option Nat)

/-- The call, without what it returns. -/
def Call.run (env : Env) : Call → M Unit
  | .verification c e r => do let _ ← FwImage.verification env c e r
  | .load c n => do let _ ← FwImage.load env c n
  | .loadAndVerify c n h e r => do let _ ← FwImage.loadAndVerify env c n h e r
  | .loadToMemory c iv h e r => do let _ ← loadToMemoryAndVerify env c iv h e r
  | .signature c n => do let _ ← getSignature env c n
  | .digest c n => do let _ ← getHash env c n
  | .appVerification a h r => do let _ ← FwImage.appVerification env a h r
  | .appLoad a n => do let _ ← FwImage.appLoad env a n
  | .appLoadAndVerify a h n r => do let _ ← FwImage.appLoadAndVerify env a h n r

/-- The call is for a component that was set up, and the buffer is as long as said. -/
def Call.Ok (B : Nat) : Call → Prop
  | .verification c _ _ => ∃ mk, CompHdr c.hdr mk
  | .load c n => (∃ mk, CompHdr c.hdr mk) ∧ n ≤ B
  | .loadAndVerify c n _ _ _ => (∃ mk, CompHdr c.hdr mk) ∧ n ≤ B
  | .loadToMemory c _ _ _ _ => ∃ mk, CompHdr c.hdr mk
  | .signature c _ => ∃ mk, CompHdr c.hdr mk
  | .digest c _ => ∃ mk, CompHdr c.hdr mk
  | .appVerification _ _ _ => True
  | .appLoad _ n => n ≤ B
  | .appLoadAndVerify _ _ n _ => n ≤ B

/-- Whatever the flash contains, however it changes and whatever fails: no call leaves the hash engine active, loses memory or reads or writes outside of a buffer. -/
theorem calls_release {env : Env} {x : Call} {s : St} (hx : x.Ok s.buf.length) (hs : s.hash = none) :
    Released s (x.run env s).2 ∧ (x.run env s).2.buf.length = s.buf.length ∧ ∀ e, (x.run env s).1 = .error e → e ≠ .oob := by
  refine Tri.released (fun L B hB => ?_) hs
  subst hB
  unfold Call.run
  unfold Call.Ok at hx
  cases x with
  | verification c e r => obtain ⟨mk, hc⟩ := hx; exact Tri.bind (tri_verification hc) fun _ => Tri.ret fun s h => h
  | load c n => obtain ⟨⟨mk, hc⟩, hn⟩ := hx; exact Tri.bind (tri_load hc hn) fun _ => Tri.ret fun s h => h
  | loadAndVerify c n h e r => obtain ⟨⟨mk, hc⟩, hn⟩ := hx; exact Tri.bind (tri_loadAndVerify hc hn) fun _ => Tri.ret fun s h => h
  | loadToMemory c iv h e r => obtain ⟨mk, hc⟩ := hx; exact Tri.bind (tri_loadToMemory hc) fun _ => Tri.ret fun s h => h
  | signature c n => obtain ⟨mk, hc⟩ := hx; exact Tri.bind (tri_getSignature hc) fun _ => Tri.ret fun s h => h
  | digest c n => obtain ⟨mk, hc⟩ := hx; exact Tri.bind (tri_getHash hc) fun _ => Tri.ret fun s h => h
  | appVerification a h r => exact Tri.bind tri_appVerification fun _ => Tri.ret fun s h => h
  | appLoad a n => exact Tri.bind (tri_appLoad hx) fun _ => Tri.ret fun s h => h
  | appLoadAndVerify a h n r => exact Tri.bind (tri_appLoadAndVerify hx) fun _ => Tri.ret fun s h => h

/-- Set up takes one allocation if it succeeds, and none if it fails; it does not use the hash engine. -/
theorem init_release {env : Env} {a mk : Nat} {s : St} :
    (∀ c r, compInit env a mk s = (.ok c, r) → r.live = s.live + 1 ∧ r.hash.isSome = s.hash.isSome) ∧
    (∀ e r, compInit env a mk s = (.error e, r) → e ≠ .oob ∧ r.live = s.live ∧ r.hash.isSome = s.hash.isSome) := by
  have := tri_compInit (env := env) (a := a) (mk := mk) s ⟨rfl, rfl, rfl⟩
  constructor
  · intro c r h; rw [h] at this; exact ⟨this.2.1, this.1⟩
  · intro e r h; rw [h] at this; exact ⟨this.1, this.2.2.1, this.2.1⟩

/-! ### Headers of firmware images -/

/-- A header of a firmware image that was set up has a length that fits its format. -/
theorem fwHeaderInit_ok {env : Env} {a : Nat} {s r : St} {h : Hdr} (e : fwHeaderInit env a s = (.ok h, r)) : FwHdr h := by
  unfold fwHeaderInit headerInit headerLoad at e
  simp only [bind_ok, read_ok, check_ok, alloc_ok, onError_ok, pure_ok, decide_eq_true_eq] at e
  obtain ⟨h0, _, ⟨_, _, ⟨_, rfl, rfl⟩, _, _, ⟨h1, rfl⟩, _, _, ⟨h2, rfl⟩, _, _, ⟨h3, rfl⟩, rfl, rfl⟩, _, _, ⟨h4, rfl⟩, _, _, ⟨_, rfl⟩, _, _, ⟨_, rfl, rfl⟩, rfl, rfl⟩ := e
  have hl : (bytesAt (env.mem s.k) a 8).length = 8 := bytesAt_length _ _ _
  rw [marker_eq _ hl] at h2
  simp only [len_eq] at h1 h3 h4
  rw [format_eq] at h4
  have hd : ∀ d, formatOf ⟨bytesAt (env.mem s.k) a 8, d⟩ = formatOf ⟨bytesAt (env.mem s.k) a 8, []⟩ := fun _ => rfl
  have hd' : ∀ d, totalLength ⟨bytesAt (env.mem s.k) a 8, d⟩ = totalLength ⟨bytesAt (env.mem s.k) a 8, []⟩ := fun _ => rfl
  constructor
  · exact hl
  · exact h2
  · simp only [bytesAt_length, len_eq, hd']; omega
  · intro h0; simp only [hd] at h0; simp only [bytesAt_length, len_eq]; rw [h0] at h4; exact of_decide_eq_true h4
  · intro h0; simp only [hd] at h0; simp only [bytesAt_length, len_eq]; rw [h0] at h4; exact of_decide_eq_true h4
  · intro h0; simp only [hd] at h0; simp only [bytesAt_length, len_eq]; rw [h0] at h4; exact of_decide_eq_true h4
  · intro h0; simp only [hd] at h0; simp only [bytesAt_length, len_eq]; rw [h0] at h4; exact of_decide_eq_true h4
  · intro h0; simp only [hd] at h0; simp only [bytesAt_length, len_eq]
    revert h4
    split
    · omega
    · omega
    · omega
    · omega
    · intro h4; exact of_decide_eq_true h4

theorem FwHdr.room {h : Hdr} (hf : FwHdr h) : 2 ≤ h.data.length ∧ (1 ≤ formatOf h → 3 ≤ h.data.length) ∧ (2 ≤ formatOf h → 5 ≤ h.data.length) ∧
    (3 ≤ formatOf h → 11 ≤ h.data.length) := by
  have := hf.format0
  have := hf.format1
  have := hf.format2
  have := hf.format3
  have := hf.others
  omega

/-- The fields of the header by format: each is there from the format on that introduced it, and refused before; all reads are inside of the header. -/
theorem fw_header_fields {h : Hdr} (hf : FwHdr h) (s : St) :
    recoveryRevision h s = (.ok (leNat (h.data.take 2)), s) ∧
    extraImages h s = (if formatOf h = 0 then .error .notAvailable else .ok (leNat ((h.data.drop 2).take 1)), s) ∧
    earliestRevision h s = (if formatOf h < 2 then .error .notAvailable else .ok (leNat ((h.data.drop 3).take 2)), s) ∧
    signatureInfo h s = (if formatOf h < 3 then .error .notAvailable else .ok (leNat ((h.data.drop 5).take 4), leNat ((h.data.drop 9).take 2)), s) := by
  have hr := hf.room
  refine ⟨?_, ?_, ?_, ?_⟩
  · refine bind_ok.mpr ⟨_, _, field_eq (by omega) s, ?_⟩
    rw [pure_def]; simp [window]
  · unfold extraImages
    rw [format_eq]
    by_cases h0 : formatOf h = 0
    · rw [if_pos h0, decide_eq_false (by omega)]; rfl
    · rw [if_neg h0, decide_eq_true (by omega)]
      refine bind_ok.mpr ⟨(), s, rfl, bind_ok.mpr ⟨_, _, field_eq (by omega) s, ?_⟩⟩
      rw [pure_def]; simp [window]
  · unfold earliestRevision
    rw [format_eq]
    by_cases h0 : formatOf h < 2
    · rw [if_pos h0, decide_eq_false (by omega)]; rfl
    · rw [if_neg h0, decide_eq_true (by omega)]
      refine bind_ok.mpr ⟨(), s, rfl, bind_ok.mpr ⟨_, _, field_eq (by omega) s, ?_⟩⟩
      rw [pure_def]; simp [window]
  · unfold signatureInfo
    rw [format_eq]
    by_cases h0 : formatOf h < 3
    · rw [if_pos h0, decide_eq_false (by omega)]; rfl
    · rw [if_neg h0, decide_eq_true (by omega)]
      refine bind_ok.mpr ⟨(), s, rfl, bind_ok.mpr ⟨_, _, field_eq (by omega) s, bind_ok.mpr ⟨_, _, field_eq (by omega) s, ?_⟩⟩⟩
      rw [pure_def]; simp [window]

/-! ### Copies -/

/-- A copy of a component that is reported as done is exact, on any device; nothing outside of the blocks of the destination is changed, in any case. A forced copy leaves
the rest of the destination erased. -/
theorem copy_component_exact {dv : Flash.Dev} {m : Mem} {c : Comp} {s : Flash.FS} {dest max : Nat} {force : Bool}
    (hsz : 0 < dv.block ∧ 0 < dv.sector ∧ 0 < dv.page) (hd : dest + max ≤ 2 ^ 32) (hsrc : c.start + c.offset + totalLength c.hdr + imageLenOf c.hdr ≤ 2 ^ 32)
    (hsrc' : c.start + c.offset + totalLength c.hdr < 2 ^ 32) :
    (∀ i, ¬ Flash.Touched dv.block dest max i → (copyTo dv m c s dest max force).2.mem i = s.mem i) ∧
    (∀ n, (copyTo dv m c s dest max force).1 = .ok n → n = imageLenOf c.hdr ∧ n ≤ max ∧
      bytesAt (copyTo dv m c s dest max force).2.mem dest n = bytesAt m (c.start + c.offset + totalLength c.hdr) n ∧
      (force = true → ∀ i, dest + n ≤ i → i < dest + max → (copyTo dv m c s dest max force).2.mem i = 0xff)) ∧
    (imageLenOf c.hdr > max → copyTo dv m c s dest max force = (.tooLarge, s)) := by
  have hn : leNat (window c.hdr.data 0 4) = imageLenOf c.hdr := by simp [window, imageLenOf]
  have hda : c.dataAddr = c.start + c.offset + totalLength c.hdr := by unfold Comp.dataAddr; rw [len_eq, u32_id hsrc']
  have key : ∀ s, imageLenOf c.hdr ≤ max →
      (∀ i, ¬ Flash.Touched dv.block dest max i → (eraseAndCopy dv m s dest c.dataAddr max (imageLenOf c.hdr)).2.mem i = s.mem i) ∧
      (∀ n, (eraseAndCopy dv m s dest c.dataAddr max (imageLenOf c.hdr)).1 = .ok n → n = imageLenOf c.hdr ∧
        bytesAt (eraseAndCopy dv m s dest c.dataAddr max (imageLenOf c.hdr)).2.mem dest n = bytesAt m c.dataAddr n ∧
        ∀ i, dest + n ≤ i → i < dest + max → (eraseAndCopy dv m s dest c.dataAddr max (imageLenOf c.hdr)).2.mem i = 0xff) := by
    intro s hmax
    obtain ⟨e1, e2⟩ := Flash.eraseRegion_spec dv dv.block hsz.1 s dest max hd
    unfold eraseAndCopy
    cases he : Flash.eraseRegion dv dv.block s dest max with
    | mk st s1 =>
      rw [he] at e1 e2
      have bad : ∀ st, (∀ i, ¬ Flash.Touched dv.block dest max i → ((CopyRes.flash st, s1) : CopyRes × Flash.FS).2.mem i = s.mem i) ∧
          (∀ n, ((CopyRes.flash st, s1) : CopyRes × Flash.FS).1 = .ok n → n = imageLenOf c.hdr ∧
            bytesAt s1.mem dest n = bytesAt m c.dataAddr n ∧ ∀ i, dest + n ≤ i → i < dest + max → s1.mem i = 0xff) :=
        fun st => ⟨e1, fun n h => nomatch h⟩
      cases st with
      | ok =>
        obtain ⟨c1, c2⟩ := Flash.copy_exact dv .none (.other m) true s1 dest c.dataAddr (imageLenOf c.hdr) hsz (by omega) (by omega)
        have hout : ∀ i, ¬ Flash.Touched 1 dest (imageLenOf c.hdr) i ↔ ¬ (dest ≤ i ∧ i < dest + imageLenOf c.hdr) := by
          intro i
          refine not_congr ⟨?_, fun h => Flash.Touched.of_mem h.1 h.2⟩
          rintro ⟨j, h1, h2, h3⟩
          rw [Nat.div_one, Nat.div_one] at h3
          omega
        have hc1 : ∀ i, ¬ (dest ≤ i ∧ i < dest + imageLenOf c.hdr) →
            (Flash.copyRegion dv .none (.other m) true s1 dest c.dataAddr (imageLenOf c.hdr)).2.mem i = s1.mem i := fun i hi => c1 i ((hout i).mpr hi)
        have hfar : ∀ i, ¬ Flash.Touched dv.block dest max i → ¬ (dest ≤ i ∧ i < dest + imageLenOf c.hdr) :=
          fun i hi h => hi (Flash.Touched.of_mem h.1 (by omega))
        simp only
        cases hcp : Flash.copyRegion dv .none (.other m) true s1 dest c.dataAddr (imageLenOf c.hdr) with
        | mk st2 s2 =>
          rw [hcp] at hc1 c2
          have hmem : ∀ i, ¬ Flash.Touched dv.block dest max i → s2.mem i = s.mem i := fun i hi => (hc1 i (hfar i hi)).trans (e1 i hi)
          cases st2 with
          | ok =>
            refine ⟨hmem, fun n h => ?_⟩
            injection h with h
            subst h
            refine ⟨rfl, ?_, fun i h1 h2 => ?_⟩
            · exact List.map_congr_left fun i hi => c2 rfl (.inr (.inl rfl)) i (List.mem_range.mp hi)
            · exact (hc1 i (by omega)).trans (e2 rfl i (Flash.Touched.of_mem (by omega) h2))
          | _ => exact ⟨hmem, fun n h => nomatch h⟩
      | _ => exact bad _
  unfold copyTo
  simp only [hn]
  by_cases hmax : imageLenOf c.hdr > max
  · simp only [if_pos hmax]
    exact ⟨fun _ _ => trivial, fun n h => (nomatch h), fun _ => trivial⟩
  · have hle : imageLenOf c.hdr ≤ max := by omega
    simp only [if_neg hmax]
    cases force with
    | true =>
      obtain ⟨k1, k2⟩ := key s hle
      simp only [if_true]
      refine ⟨k1, fun n h => ?_, fun h => absurd h hmax⟩
      obtain ⟨a1, a2, a3⟩ := k2 n h
      exact ⟨a1, by omega, by rw [a2, hda], fun _ => a3⟩
    | false =>
      simp only [Bool.false_eq_true, if_false]
      obtain ⟨v1, v2, _, _⟩ := Flash.verify_copy_exact dv (.other m) _ (imageLenOf c.hdr) (Nat.le_refl _) s c.dataAddr dest (by omega) (by omega)
      cases hv : Flash.verifyCopy dv (.other m) s c.dataAddr dest (imageLenOf c.hdr) with
      | mk st s1 =>
        rw [hv] at v1 v2
        simp only at v1 v2
        cases st with
        | ok =>
          refine ⟨fun i _ => by simp only; rw [v1], fun n h => ?_, fun h => absurd h hmax⟩
          injection h with h
          subst h
          refine ⟨rfl, hle, ?_, fun h => (nomatch h)⟩
          simp only
          rw [v1, ← hda]; exact (v2 rfl).symm
        | mismatch =>
          obtain ⟨k1, k2⟩ := key s1 hle
          refine ⟨fun i hi => by simp only; rw [k1 i hi, v1], fun n h => ?_, fun h => absurd h hmax⟩
          obtain ⟨a1, a2, a3⟩ := k2 n h
          exact ⟨a1, by omega, by rw [← hda]; exact a2, fun h => (nomatch h)⟩
        | _ => exact ⟨fun i _ => by simp only; rw [v1], fun n h => (nomatch h), fun h => absurd h hmax⟩

/-! ### A concrete component, and what does not hold -/
namespace Example

/-- A component of format 1 behind a header of two bytes: marker 7, three bytes, signature of two bytes, SHA-256, address 0x10, version "v1". -/
def good : Bytes := [0xa0, 0xa1] ++ [31, 0, 1, 0, 7, 0, 0, 0] ++ [3, 0, 0, 0, 2, 0, 1, 0x10, 0, 0, 0, 0, 0, 0, 0, 0x76, 0x31, 0, 0, 0, 0, 0, 0] ++ [1, 2, 3] ++ [0x51, 0x52]

/-- The flash with the component at 0. -/
def flashOf (d : Bytes) : Mem := fun i => d.getD i 0xff

/-- The signature of the example fits what is in front of it only. -/
def env (mem : Nat → Mem) (fault : Nat → Bool) : Env where
  w := 64
  mem := mem
  fault := fault
  digest := fun t x => UInt8.ofNat t :: x
  builtIn := fun t => t = 1 || t = 2
  sigOk := fun d sig => d = 1 :: good.take 36 && sig = [0x51, 0x52]
  maxSig := 512
  dec := fun _ x => x

def s0 : St := ⟨0, List.replicate 8 0, [], none, 0⟩

def version : Bytes := [0x76, 0x31, 0, 0, 0, 0, 0, 0]

/-- Set up and load. -/
def run (env : Env) : Except Err (Nat × Nat × Bytes) × St := (do
  let c ← compInitWithHeader env 0 7 2
  loadAndVerify env c 8 none (some version) none) s0

/-- The component is accepted and loaded. -/
example : (run (env (fun _ => flashOf good) (fun _ => false))).1.toOption = some (3, 1, 1 :: good.take 36) ∧
    (run (env (fun _ => flashOf good) (fun _ => false))).2.buf = [1, 2, 3, 0, 0, 0, 0, 0] := by decide_cbv

/-- The header that is set up has the right form. -/
theorem good_hdr : CompHdr ⟨(good.drop 2).take 8, (good.drop 10).take 23⟩ 7 := by
  constructor <;> decide_cbv

example : Fits ⟨0, 2, ⟨(good.drop 2).take 8, (good.drop 10).take 23⟩⟩ := by
  show (_ : Nat) < _
  decide_cbv

example : OnFlash (flashOf good) ⟨0, 2, ⟨(good.drop 2).take 8, (good.drop 10).take 23⟩⟩ := by
  show (_ : Bytes) = _
  decide_cbv

example : Calm (env (fun _ => flashOf good) (fun _ => false)) (flashOf good) := ⟨fun _ => rfl, fun _ => rfl⟩

/-- One byte changed: refused, with the engine and the heap as before but for the header. -/
example : (run (env (fun _ => flashOf (good.set 34 9)) (fun _ => false))).1.toOption = none ∧
    (run (env (fun _ => flashOf (good.set 34 9)) (fun _ => false))).2.live = 1 ∧
    (run (env (fun _ => flashOf (good.set 34 9)) (fun _ => false))).2.hash = none := by decide_cbv

/-- Changed after the image was read: what is in memory is still the image that was signed. -/
example : (run (env (fun k => if k < 12 then flashOf good else flashOf (good.set 34 9)) (fun _ => false))).2.buf = [1, 2, 3, 0, 0, 0, 0, 0] := by decide_cbv

set_option maxRecDepth 100000 in
/-- An application image: length and image in front of the signature. -/
example : (appLoadAndVerify { env (fun _ => flashOf ([0xa0] ++ [3, 0, 0, 0] ++ [1, 2, 3])) (fun _ => false) with sigOk := fun d _ => d = [1, 0xa0, 3, 0, 0, 0, 1, 2, 3] }
    0 1 8 none s0).1.toOption = some (3, [1, 0xa0, 3, 0, 0, 0, 1, 2, 3]) := by decide_cbv

/-- Header of a firmware image of format 3. -/
example : FwHdr ⟨[19, 0, 3, 0, 0x47, 0x4d, 0x49, 0x43], [1, 0, 2, 3, 0, 0, 1, 0, 0, 0, 1]⟩ := by
  constructor <;> decide_cbv

/-- Verify in place and load afterwards. -/
def verifyThenLoad (env : Env) : M Nat := do
  let c ← compInitWithHeader env 0 7 2
  let _ ← verification env c (some version) none
  load env c 8

/-- **Verification in place followed by a load is no protection against a flash that changes**: both succeed, and what is in memory was never signed. (Therefore
`firmware_component_load_and_verify`.) -/
theorem verify_then_load_unsafe :
    (verifyThenLoad (env (fun k => if k < 11 then flashOf good else flashOf (good.set 34 9)) (fun _ => false)) s0).1.toOption = some 3 ∧
    (verifyThenLoad (env (fun k => if k < 11 then flashOf good else flashOf (good.set 34 9)) (fun _ => false)) s0).2.buf = [1, 9, 3, 0, 0, 0, 0, 0] ∧
    (env (fun _ => flashOf good) (fun _ => false)).sigOk (1 :: (good.take 33 ++ [1, 9, 3])) [0x51, 0x52] = false := by decide_cbv

/-- A header of format 0 with a length of almost 2^32. -/
def huge : Bytes := [14, 0, 0, 0, 7, 0, 0, 0] ++ [0xf6, 0xff, 0xff, 0xff, 1, 0]

/-- **With a `size_t` of 32 bits the length of a whole component may be less than that of its header**: the signature that is checked is then over the first bytes of the
header only (here four), and the verification succeeds for an image of 2^32 - 10 bytes. -/
theorem verification_wraps :
    ((do
      let c ← compInit { env (fun _ => flashOf huge) (fun _ => false) with w := 32, sigOk := fun d _ => d = [1, 14, 0, 0, 0] } 0 7
      let n ← c.imageLen
      let r ← verification { env (fun _ => flashOf huge) (fun _ => false) with w := 32, sigOk := fun d _ => d = [1, 14, 0, 0, 0] } c none none
      return (n, r) : M (Nat × Nat × Bytes)) s0).1.toOption = some (2 ^ 32 - 10, 1, [1, 14, 0, 0, 0]) := by decide_cbv

end Example

end Verif.FwImage
