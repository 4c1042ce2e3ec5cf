import Verif.Recovery.Lemmas
/-! C81 and C82: recovery images. -/
namespace Verif.Recovery
open Flash (Mem bytesAt u32)

/-- C81: an image that verifies, in a device of at most 1 GiB and for any pattern of failures of the environment, is authentic, made for the platform of the active PFM, and lies in the device. Its sections
follow each other without gaps from the header to the signature and go to host addresses in increasing order without overlap, unless one of the sections has a length above 1 GiB or reaches the
end of the host address space. The digest kept is that of the image. -/
theorem verify_ok_partial {env : Env} {m : Mem} {fuel a : Nat} {c : Option Bytes} (hw : 32 ≤ env.w) (hsz : env.size ≤ 2 ^ 30) (h : verify env m fuel a = (.ok (), c)) :
    ∃ hlen imgLen sigLen, IsHeader m a hlen imgLen sigLen ∧ Bounds env.size a hlen imgLen sigLen ∧ Authentic env.sha env.sigOk m a imgLen sigLen ∧
      (∀ id, env.pfm = some id → ForPlatform m a id) ∧ c = some (digest env.sha m a imgLen sigLen) ∧
      ((∃ l, WellFormed m env.size a hlen imgLen sigLen l) ∨
       ∃ l b s, Tiled m (a + hlen) b l ∧ b < a + imgLen - sigLen ∧ IsSection m b s ∧ ¬ Sane s) := by
  unfold verify at h
  cases ha : authenticate env m a with
  | mk r c' =>
    rw [ha] at h
    cases r with
    | error e => cases h
    | ok g =>
      obtain ⟨h1, h2, h3, h30, rfl, h5⟩ := authenticate_ok hw hsz ha
      obtain ⟨h6, h7, h8⟩ := recHeader_ok hw hsz h1
      simp only at h
      cases hp : checkPlatform env g with
      | error e => rw [hp] at h; cases h
      | ok u =>
        rw [hp] at h
        simp only [Prod.mk.injEq] at h
        obtain ⟨h, rfl⟩ := h
        unfold checkSections at h
        split at h
        · rename_i hpos
          obtain ⟨r1, r2⟩ := remLen_eq (by omega) (by omega) h6.range.2 (by omega) hpos
          rw [Flash.u32_id (by omega), r2] at h
          have hb : Bounds env.size a g.len g.imageLen g.sigLen := ⟨h2, r1, h30⟩
          refine ⟨g.len, g.imageLen, g.sigLen, h6, hb, h5, ?_, rfl, ?_⟩
          · intro id hid
            unfold checkPlatform at hp
            rw [hid] at hp
            simp only at hp
            split at hp
            · cases hp
            split at hp
            · cases hp
            rename_i x hx
            cases x
            · cases hp
            obtain ⟨q1, q2⟩ := strcmpEq_true hx
            have h49 := h6.range.1
            rw [h8, bytesAt_drop _ _ _ _ (by omega)] at q1 q2
            rw [bytesAt_length] at q2
            rw [bytesAt_take _ _ _ _ (by omega)] at q1
            exact q1
          · rcases sections_ok hsz (e := a + g.imageLen - g.sigLen) (by omega) (by omega) (by omega) h with ⟨l, l1, l2, l3, _⟩ | ⟨l, b, s, l1, l2, _, l4, l5⟩
            · exact .inl ⟨l, h6, hb, l1, l2, l3⟩
            · exact .inr ⟨l, b, s, l1, l2, l4, l5⟩
        · cases h

/-- C81, the converse: an authentic well-formed image for the platform verifies if nothing fails. -/
theorem verify_complete {env : Env} {m : Mem} {fuel a hlen imgLen sigLen : Nat} {l : List (Nat × Sec)} (hw : 32 ≤ env.w) (hsz : env.size ≤ 2 ^ 30) (hf : ∀ k, env.fault k = false)
    (h : WellFormed m env.size a hlen imgLen sigLen l) (hs : Authentic env.sha env.sigOk m a imgLen sigLen)
    (hid : ∀ id, env.pfm = some id → ForPlatform m a id ∧ 50 + id.length ≤ hlen) (hl : l.length < fuel) :
    verify env m fuel a = (.ok (), some (digest env.sha m a imgLen sigLen)) := by
  obtain ⟨h1, h2, h3, h4, h5⟩ := h
  have h49 := h1.range
  obtain ⟨b1, b2, b3⟩ := h2
  unfold verify
  rw [authenticate_of hw hsz hf h1 ⟨b1, b2, b3⟩ hs]
  simp only
  have hp : checkPlatform env ⟨hlen, u16At m (a + 2), bytesAt m (a + 8) (hlen - 8)⟩ = .ok () := by
    unfold checkPlatform
    cases hid' : env.pfm with
    | none => rfl
    | some id =>
      obtain ⟨i1, i2⟩ := hid id hid'
      simp only
      rw [hf, if_neg nofun, strcmpEq_of (by
        rw [bytesAt_drop _ _ _ _ (by omega), bytesAt_take _ _ _ _ (by omega)]
        exact i1)]
      rfl
  rw [hp]
  simp only [Prod.mk.injEq, and_true]
  unfold checkSections
  have e : remLen ⟨hlen, u16At m (a + 2), bytesAt m (a + 8) (hlen - 8)⟩ = a + imgLen - sigLen - (a + hlen) := by
    unfold remLen
    rw [hdr_imageLen h49.1, hdr_sigLen h49.1, h1.imgAt, h1.sigAt]
    simp only
    rw [show imgLen + 2 ^ 33 - hlen - sigLen = imgLen - sigLen - hlen + 2 ^ 32 + 2 ^ 32 by omega, Nat.add_mod_right, Nat.add_mod_right, Nat.mod_eq_of_lt (by omega)]
    omega
  rw [e, if_pos (by simp [positive]; omega), Flash.u32_id (by simp only; omega)]
  exact sections_of hsz hf (by omega) h3 h4 h5 (fun _ _ => Nat.zero_le _) hl

/-! ### Applying an image -/

/-- The section with header at `x.1` covers the host address `i`. -/
def Covers (x : Nat × Sec) (i : Nat) : Prop := x.2.host ≤ i ∧ i < x.2.host + x.2.len

theorem applyLoop_spec {env : Env} {dv : Flash.Dev} {m : Mem} (hsz : env.size ≤ 2 ^ 30) (hdv : 0 < dv.block ∧ 0 < dv.sector ∧ 0 < dv.page) :
    ∀ {l : List (Nat × Sec)} {next e fuel i : Nat} {fs fs' : Flash.FS} {r : Except Err Unit}, e ≤ env.size → Tiled m next e l → InOrder l → (∀ x ∈ l, Sane x.2) →
    applyLoop env dv m fuel i (e - next) next fs = (r, fs') →
    (∀ j, (∀ x ∈ l, ¬ Covers x j) → fs'.mem j = fs.mem j) ∧
    (r = .ok () → ∀ x ∈ l, ∀ j, j < x.2.len → fs'.mem (x.2.host + j) = m (x.1 + x.2.hlen + j))
  | l, next, e, 0, i, fs, fs', r, he, ht, ho, hs, h => by
    cases h
    exact ⟨fun _ _ => rfl, nofun⟩
  | [], next, e, fuel + 1, i, fs, fs', r, he, ht, _, _, h => by
    cases ht
    unfold applyLoop at h
    rw [Nat.sub_self, if_neg nofun, if_pos rfl] at h
    cases h
    exact ⟨fun _ _ => rfl, nofun⟩
  | (a, s) :: l, next, e, fuel + 1, i, fs, fs', r, he, ht, ho, hs, h => by
    cases ht with
    | cons _ _ _ _ hsec ht =>
      have hle := ht.le
      have hr := hsec.range
      obtain ⟨hs1, hs2⟩ : Sane s := hs (a, s) List.mem_cons_self
      have ho1 := (List.pairwise_cons.1 ho).1
      unfold applyLoop at h
      rw [if_pos (by simp [positive]; omega)] at h
      cases hh : secHeader env m (8 + 3 * i) a with
      | error x =>
        rw [hh] at h
        cases h
        exact ⟨fun _ _ => rfl, nofun⟩
      | ok s' =>
        have hs' := (secHeader_ok hsz hh).1
        have : s' = s := by
          cases s; cases s'
          have a1 := hs'.hlen; have a2 := hs'.host; have a3 := hs'.len
          have b1 := hsec.hlen; have b2 := hsec.host; have b3 := hsec.len
          simp only at a1 a2 a3 b1 b2 b3
          simp only [Sec.mk.injEq]
          exact ⟨by omega, by omega, by omega⟩
        subst this
        rw [hh] at h
        simp only at h
        rw [Flash.u32_id (by omega)] at h
        obtain ⟨c1, c2⟩ := Flash.copy_exact dv .none (.other m) true fs s'.host (a + s'.hlen) s'.len hdv (by omega) (by omega)
        have hfr : ∀ j, ¬ Covers (a, s') j → (Flash.copyRegion dv .none (.other m) true fs s'.host (a + s'.hlen) s'.len).2.mem j = fs.mem j :=
          fun j hj => c1 j fun hc => hj (Flash.touched_one.1 hc)
        cases hc : Flash.copyRegion dv .none (.other m) true fs s'.host (a + s'.hlen) s'.len with
        | mk st fs1 =>
          rw [hc] at h hfr c2
          simp only at hfr c2
          by_cases hst : st = .ok
          · subst hst
            simp only at h
            rw [remNext_le (by omega) (by omega), Flash.u32_id (by omega), show e - a - (s'.hlen + s'.len) = e - (a + (s'.hlen + s'.len)) by omega] at h
            rw [Nat.add_assoc] at ht
            obtain ⟨i1, i2⟩ := applyLoop_spec hsz hdv he ht (List.Pairwise.of_cons ho) (fun x hx => hs x (List.mem_cons_of_mem _ hx)) h
            refine ⟨fun j hj => ?_, fun hok x hx j hj => ?_⟩
            · rw [i1 j (fun x hx => hj x (List.mem_cons_of_mem _ hx)), hfr j (hj _ List.mem_cons_self)]
            · rcases List.mem_cons.1 hx with rfl | hx
              · simp only at hj ⊢
                rw [i1 _ (fun y hy hc => by have := ho1 y hy; simp only [Covers] at *; omega)]
                exact c2 rfl (.inr (.inl trivial)) j hj
              · exact i2 hok x hx j hj
          · have h2 : (Except.error Err.flash, fs1) = (r, fs') := by
              rw [← h]
              cases st <;> first | rfl | exact (hst rfl).elim
            cases h2
            exact ⟨fun j hj => hfr j (hj _ List.mem_cons_self), nofun⟩

/-- C81: applying a well-formed image to a host flash, whatever fails, changes only host addresses that belong to a section. If it succeeds, the host flash holds the data of every section at
its address. -/
theorem apply_exact {env : Env} {dv : Flash.Dev} {m : Mem} {fuel a hlen imgLen sigLen : Nat} {l : List (Nat × Sec)} {fs fs' : Flash.FS} {r : Except Err Unit} (hw : 32 ≤ env.w)
    (hsz : env.size ≤ 2 ^ 30) (hdv : 0 < dv.block ∧ 0 < dv.sector ∧ 0 < dv.page) (hwf : WellFormed m env.size a hlen imgLen sigLen l)
    (h : apply env dv m fuel a fs = (r, fs')) :
    (∀ j, (∀ x ∈ l, ¬ Covers x j) → fs'.mem j = fs.mem j) ∧
    (r = .ok () → ∀ x ∈ l, ∀ j, j < x.2.len → fs'.mem (x.2.host + j) = m (x.1 + x.2.hlen + j)) := by
  obtain ⟨h1, ⟨b1, b2, _⟩, h3, h4, h5⟩ := hwf
  unfold apply at h
  cases hh : recHeader env m a with
  | error e => rw [hh] at h; cases h; exact ⟨fun _ _ => rfl, nofun⟩
  | ok g =>
    rw [hh] at h
    simp only at h
    obtain ⟨g1, g2, _⟩ := recHeader_ok hw hsz hh
    have e1 : g.len = hlen := by have := g1.lenAt; have := h1.lenAt; omega
    have e2 : g.imageLen = imgLen := by have := g1.imgAt; have := h1.imgAt; omega
    have e3 : g.sigLen = sigLen := by have := g1.sigAt; have := h1.sigAt; omega
    have hr := h1.range
    have e : remLen g = a + imgLen - sigLen - (a + hlen) := by
      unfold remLen
      rw [e1, e2, e3]
      rw [show imgLen + 2 ^ 33 - hlen - sigLen = imgLen - sigLen - hlen + 2 ^ 32 + 2 ^ 32 by omega, Nat.add_mod_right, Nat.add_mod_right, Nat.mod_eq_of_lt (by omega)]
      omega
    rw [e, e1, Flash.u32_id (by omega)] at h
    exact applyLoop_spec hsz hdv (by omega) h3 h4 h5 h

/-! ### A concrete image -/

/-- Flash contents that start with the given bytes. -/
def memOf (l : Bytes) : Mem := fun i => l.getD i 0xff

/-- A header of format 0 with version "1", an empty platform identifier and a signature of 4 bytes. -/
def demoHeader (imgLen : UInt8) : Bytes :=
  [50, 0, 0, 0, 0x29, 0x7c, 0x14, 0x8a] ++ (0x31 :: List.replicate 31 0) ++ [imgLen, 0, 0, 0] ++ [4, 0, 0, 0] ++ [1, 0]

/-- A section header. -/
def demoSection (host len : Bytes) : Bytes := [16, 0, 0, 0, 0x31, 0x2f, 0x17, 0x4b] ++ host ++ len

/-- Two sections: 3 bytes for the host address 2 and 1 byte for 0x10. -/
def demoImage : Bytes := demoHeader 90 ++ demoSection [2, 0, 0, 0] [3, 0, 0, 0] ++ [0xa, 0xb, 0xc] ++ demoSection [0x10, 0, 0, 0] [1, 0, 0, 0] ++ [0xd] ++ [1, 2, 3, 4]

/-- An environment without failures where a signature is good if it is `1, 2, 3, 4`. -/
def demoEnv : Env := ⟨64, 4096, fun _ => false, fun b => b.take 32, fun _ s => s = [1, 2, 3, 4], some []⟩

def okIs : Except Err Unit → Bool
  | .ok _ => true
  | .error _ => false

def errIs (e : Err) : Except Err Unit → Bool
  | .ok _ => false
  | .error x => x = e

theorem demo_verifies : okIs (verify demoEnv (memOf demoImage) 5 0).1 = true := by decide_cbv

theorem demo_section1 : IsSection (memOf demoImage) 50 ⟨16, 2, 3⟩ := ⟨by decide_cbv, by decide_cbv, by decide, by decide_cbv, by decide_cbv, by decide_cbv⟩
theorem demo_section2 : IsSection (memOf demoImage) 69 ⟨16, 0x10, 1⟩ := ⟨by decide_cbv, by decide_cbv, by decide, by decide_cbv, by decide_cbv, by decide_cbv⟩

theorem demo_wellFormed : WellFormed (memOf demoImage) 4096 0 50 90 4 [(50, ⟨16, 2, 3⟩), (69, ⟨16, 0x10, 1⟩)] where
  header := ⟨by decide_cbv, by decide_cbv, by decide, by decide_cbv, by decide_cbv, fun _ => ⟨⟨[0x31], by decide, by decide, by decide, by decide_cbv⟩,
    ⟨[], by decide, by decide, by decide_cbv, by decide_cbv⟩⟩⟩
  bounds := ⟨by decide, by decide, by decide⟩
  tiled := .cons _ _ _ _ demo_section1 (.cons _ _ _ _ demo_section2 (.nil _))
  order := by simp [InOrder]
  sane := by simp [Sane]

/-- The hypotheses of `verify_complete` hold for it. -/
example : verify demoEnv (memOf demoImage) 3 0 = (.ok (), some (digest demoEnv.sha (memOf demoImage) 0 90 4)) :=
  verify_complete (by decide) (by decide) (fun _ => rfl) demo_wellFormed (show demoEnv.sigOk _ _ = true by decide_cbv) (fun id h => by cases h; exact ⟨by unfold ForPlatform; decide_cbv, by decide⟩) (by decide)

/-- Applying it to blank flash. -/
example : (match apply demoEnv ⟨64, 16, 8, fun _ => .ok⟩ (memOf demoImage) 5 0 ⟨fun _ => 0xff, 0⟩ with
    | (r, fs) => (okIs r, bytesAt fs.mem 0 18)) = (true, [255, 255, 0xa, 0xb, 0xc] ++ List.replicate 11 255 ++ [0xd, 255]) := by decide_cbv

/-- It does not verify with a wrong signature, for another platform, with the sections out of order, if the last section is too long, or if a header cannot be read. -/
example : errIs .badSignature (verify demoEnv (memOf (demoImage.set 89 0)) 5 0).1 = true ∧
    errIs .incompatible (verify { demoEnv with pfm := some [0x41] } (memOf demoImage) 5 0).1 = true ∧
    errIs .sectionAddress (verify demoEnv (memOf (demoImage.set 77 4)) 5 0).1 = true ∧
    errIs .malformed (verify demoEnv (memOf (demoImage.set 81 2)) 5 0).1 = true ∧
    errIs .malformed (verify { demoEnv with fault := fun k => k = 11 } (memOf demoImage) 5 0).1 = true := by decide_cbv

/-! ### The length of a section is not limited -/

/-- One section for host address 0x100 of length 2^32 - 16. -/
def hangImage : Bytes := demoHeader 70 ++ demoSection [0, 1, 0, 0] [0xf0, 0xff, 0xff, 0xff] ++ [1, 2, 3, 4]

theorem hang_section : IsSection (memOf hangImage) 50 ⟨16, 0x100, 0xfffffff0⟩ := ⟨by decide_cbv, by decide_cbv, by decide, by decide_cbv, by decide_cbv, by decide_cbv⟩

theorem hang_loop {env : Env} (hs : env.size = 4096) (hf : ∀ k, env.fault k = false) : ∀ (fuel i min : Nat), min ≤ 0x100 →
    sections env (memOf hangImage) fuel i 16 50 min = .error .diverge
  | 0, _, _, _ => rfl
  | fuel + 1, i, min, hm => by
    unfold sections
    rw [if_pos (by decide), secHeader_of (by rw [hs]; decide) hf hang_section (by rw [hs]; decide)]
    simp only
    rw [if_neg (by omega)]
    exact hang_loop hs hf fuel (i + 1) _ (by decide)

/-- C81, what is missing: for a correctly signed image with this section, whatever the hash and the signature scheme, the loop over the sections never ends: header and section length add up to 0, so the same
header is read again and again. -/
theorem verify_hangs (sha : Bytes → Bytes) (sigOk : Bytes → Bytes → Bool) (hsig : Authentic sha sigOk (memOf hangImage) 0 70 4) (fuel : Nat) :
    (verify ⟨64, 4096, fun _ => false, sha, sigOk, none⟩ (memOf hangImage) fuel 0).1 = .error .diverge := by
  have hh : IsHeader (memOf hangImage) 0 50 70 4 := ⟨by decide_cbv, by decide_cbv, by decide, by decide_cbv, by decide_cbv, fun _ => ⟨⟨[0x31], by decide, by decide, by decide, by decide_cbv⟩,
    ⟨[], by decide, by decide, by decide_cbv, by decide_cbv⟩⟩⟩
  unfold verify
  rw [authenticate_of (by simp only; decide) (by simp only; decide) (fun _ => rfl) hh ⟨by simp only; decide, by decide, by decide⟩ hsig]
  simp only [checkPlatform]
  unfold checkSections
  have e : remLen ⟨50, u16At (memOf hangImage) (0 + 2), bytesAt (memOf hangImage) (0 + 8) (50 - 8)⟩ = 16 := by
    unfold remLen
    rw [hdr_imageLen (by decide), hdr_sigLen (by decide), hh.imgAt, hh.sigAt]
    rfl
  rw [e, if_pos (by decide)]
  exact hang_loop rfl (fun _ => rfl) fuel 0 0 (by decide)

/-- The hypothesis is met by the signature scheme of the example. -/
example : Authentic demoEnv.sha demoEnv.sigOk (memOf hangImage) 0 70 4 := by unfold Authentic; decide_cbv

/-! ### C82: reading the headers -/

theorem rd_error {env : Env} {m : Mem} {k a n : Nat} {e : Err} (h : rd env m k a n = .error e) : e = .flash := by
  unfold rd at h
  split at h
  · cases h; rfl
  · split at h <;> cases h
    rfl

theorem imageHeader_safe {env : Env} {m : Mem} {k a marker max : Nat} : imageHeader env m k a marker max ≠ .error .oob := by
  unfold imageHeader
  split
  · rename_i hr
    rw [rd_error hr]; nofun
  · split
    · nofun
    split
    · nofun
    split <;> nofun

theorem loadData_safe {env : Env} {m : Mem} {k a len : Nat} : loadData env m k a len ≠ .error .oob := by
  unfold loadData
  split
  · nofun
  · intro h; cases rd_error h

/-- C82: reading a section header never reads outside of the buffer allocated for it. -/
theorem section_header_safe (env : Env) (m : Mem) (k a : Nat) : secHeader env m k a ≠ .error .oob := by
  unfold secHeader
  split
  · rename_i h
    intro hc; cases hc
    exact imageHeader_safe h
  · split
    · nofun
    · split
      · rename_i h
        intro hc; cases hc
        exact loadData_safe h
      · nofun

/-- C82: reading the image header leaves the buffer only if the header is of format 0 and shorter than its fixed fields. -/
theorem header_safe_partial {env : Env} {m : Mem} {a : Nat} (hw : 32 ≤ env.w) (h : recHeader env m a = .error .oob) : u16At m (a + 2) = 0 ∧ u16At m a < 49 := by
  unfold recHeader at h
  cases hi : imageHeader env m 0 a imageMarker 1024 with
  | error e => rw [hi] at h; cases h; exact (imageHeader_safe hi).elim
  | ok lf =>
    obtain ⟨len, fmt⟩ := lf
    obtain ⟨h1, h2, h3, h4, h5, h6⟩ := imageHeader_ok hi
    rw [hi] at h
    simp only at h
    cases hd : loadData env m 1 a len with
    | error e => rw [hd] at h; cases h; exact (loadData_safe hd).elim
    | ok d =>
      rw [hd] at h
      obtain ⟨rfl, _⟩ := loadData_ok hd
      simp only at h
      cases hc : checkHeader env.w ⟨len, fmt, bytesAt m (u32 (a + 8)) (len - 8)⟩ with
      | ok _ => rw [hc] at h; cases h
      | error e =>
        rw [hc] at h
        cases h
        refine ⟨?_, ?_⟩
        · rw [h6]
          apply Classical.byContradiction
          intro hf
          unfold checkHeader at hc
          simp only at hc
          rw [if_neg hf] at hc
          split at hc <;> cases hc
        · apply Classical.byContradiction
          intro hl
          exact checkHeader_safe (by simp only [bytesAt_length]; omega) (by simp only [bytesAt_length]; omega) hw hc

/-- C82: all of verification leaves a buffer only for such a header, or for an authentic image with a header of another format (whose platform identifier need not be terminated). -/
theorem verify_safe_partial {env : Env} {m : Mem} {fuel a : Nat} {c : Option Bytes} (hw : 32 ≤ env.w) (hsz : env.size ≤ 2 ^ 30) (hid : ∀ id, env.pfm = some id → 0 ∉ id)
    (h : verify env m fuel a = (.error .oob, c)) :
    (u16At m (a + 2) = 0 ∧ u16At m a < 49) ∨
    (u16At m (a + 2) ≠ 0 ∧ ∃ imgLen sigLen, Authentic env.sha env.sigOk m a imgLen sigLen) := by
  unfold verify at h
  cases ha : authenticate env m a with
  | mk r c' =>
    rw [ha] at h
    cases r with
    | error e =>
      cases h
      left
      unfold authenticate at ha
      cases hr : recHeader env m a with
      | error e => rw [hr] at ha; cases ha; exact header_safe_partial hw hr
      | ok g =>
        rw [hr] at ha
        simp only at ha
        split at ha
        · cases ha
        split at ha
        · rename_i hs
          cases ha
          cases rd_error hs
        · unfold contentsVerification at ha
          rename_i sig _
          by_cases h0 : (g.imageLen + 2 ^ env.w - g.sigLen) % 2 ^ env.w = 0 ∨ sig = []
          · rw [if_pos h0] at ha; cases ha
          rw [if_neg h0] at ha
          cases hb : rd env m 5 a ((g.imageLen + 2 ^ env.w - g.sigLen) % 2 ^ env.w) with
          | error e => rw [hb] at ha; cases ha
          | ok b =>
            rw [hb] at ha
            simp only at ha
            by_cases h6 : env.fault 6 = true
            · rw [if_pos h6] at ha; cases ha
            rw [if_neg h6] at ha
            by_cases hv : env.sigOk (env.sha b) sig = true
            · rw [if_pos hv] at ha; cases ha
            · rw [if_neg hv] at ha; cases ha
    | ok g =>
      obtain ⟨h1, h2, h3, h30, rfl, h5⟩ := authenticate_ok hw hsz ha
      obtain ⟨h6, h7, h8⟩ := recHeader_ok hw hsz h1
      simp only at h
      cases hp : checkPlatform env g with
      | error e =>
        rw [hp] at h
        cases h
        right
        refine ⟨fun hf => ?_, _, _, h5⟩
        obtain ⟨_, p, p1, p2, p3, p4⟩ := h6.fields hf
        unfold checkPlatform at hp
        split at hp
        · cases hp
        rename_i id hpfm
        split at hp
        · cases hp
        have hne : strcmpEq id (g.data.drop 41) ≠ none := by
          rw [h8, bytesAt_drop _ _ _ _ (by omega), show g.len - 8 - 41 = p.length + 1 by omega, show a + 8 + 41 = a + 49 by omega, p4]
          exact strcmpEq_terminated id p (hid id hpfm)
        split at hp
        · rename_i hn
          exact hne hn
        · split at hp <;> cases hp
      | ok u =>
        rw [hp] at h
        simp only [Prod.mk.injEq] at h
        obtain ⟨h, rfl⟩ := h
        unfold checkSections at h
        split at h
        · exact (sections_safe h).elim
        · cases h

/-- C82, what is missing: for a header that is shorter than its fixed fields, bytes after the end of the buffer are read. This is before any signature is checked. -/
theorem header_reads_outside (sha : Bytes → Bytes) (sigOk : Bytes → Bytes → Bool) :
    errIs .oob (verify ⟨64, 4096, fun _ => false, sha, sigOk, none⟩ (memOf [8, 0, 0, 0, 0x29, 0x7c, 0x14, 0x8a]) 1 0).1 = true := by decide_cbv

/-- C82: for a header of format 0, the version handed out is 32 bytes with a terminator and not empty. -/
theorem version_terminated_partial {env : Env} {m : Mem} {a : Nat} {v : Bytes} (hw : 32 ≤ env.w) (hsz : env.size ≤ 2 ^ 30) (hf : u16At m (a + 2) = 0) (h : getVersion env m a = .ok v) :
    ∃ s, s ≠ [] ∧ 0 ∉ s ∧ s.length < 32 ∧ bytesAt m (a + 8) (s.length + 1) = s ++ [0] ∧ v = s ++ List.replicate (32 - s.length) 0 := by
  unfold getVersion at h
  cases hr : recHeader env m a with
  | error e => rw [hr] at h; cases h
  | ok g =>
    rw [hr] at h
    obtain ⟨h6, h7, h8⟩ := recHeader_ok hw hsz hr
    simp only [Except.ok.injEq] at h
    obtain ⟨⟨s, s1, s2, s3, s4⟩, _⟩ := h6.fields hf
    have hrange := h6.range
    have : (g.data.take 32).takeWhile (· ≠ 0) = s := by
      rw [h8, bytesAt_take _ _ _ _ (by omega), show 32 = (s.length + 1) + (31 - s.length) by omega, Flash.bytesAt_add, s4, List.append_assoc, List.takeWhile_append_of_pos]
      · simp
      · intro x hx
        simp only [ne_eq, decide_not, Bool.not_eq_true', decide_eq_false_iff_not]
        exact fun h0 => s2 (h0 ▸ hx)
    rw [this] at h
    exact ⟨s, s1, s2, s3, s4, h.symm⟩

/-- C82, what is missing: for another format the version need not have a terminator. -/
theorem version_unterminated : ∃ b : Bytes, (match getVersion demoEnv (memOf b) 0 with
    | .ok v => v.length = 32 && !v.contains 0
    | .error _ => false) = true :=
  ⟨[50, 0, 1, 0, 0x29, 0x7c, 0x14, 0x8a] ++ List.replicate 32 0x31 ++ [90, 0, 0, 0] ++ [4, 0, 0, 0] ++ [1, 0], by decide_cbv⟩

end Verif.Recovery
