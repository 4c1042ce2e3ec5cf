import Verif.HostFw.Data
/-! Properties C65-C69: what a successful check of a host flash says, what the host may write, which version is found, which manifests
count as the same, and what migrating and restoring data leave behind. -/
namespace Verif.HostFw
open Verif.Flash

/-- A small device on which every call works. -/
def goodDev : Dev := ⟨4, 2, 2, fun _ => .ok⟩

/-- Engines that never fail: the digest is the first byte, a signature is good if it is the digest. -/
def toyEngine : Engine := ⟨fun ty d => if ty = 1 then some (d.take 1) else none, fun _ sig d => sig == d, fun _ => false⟩

/-- A flash: an image at 2..5, data at 8..9, all other bytes blank. -/
def demoMem : Mem := fun a => if 2 ≤ a ∧ a < 5 then 7 else if 8 ≤ a ∧ a < 10 then 9 else 0xff

/-! ### C65: verifying a flash -/

/-- C65: if the verification of a whole flash succeeds, after any number of rounds of its loop and with every behaviour of the drivers,
every image of every firmware is authentic, every byte that is neither in an image nor in a read/write region is blank, and the flash
is as it was before. -/
theorem full_verification_sound (dv : Dev) (eg : Engine) (stack : Bytes) (fws : List ImageList) (rws : List (List Region)) (size : Nat)
    (v : UInt8) (fuel : Nat) (s s' : FS) (hg : ∀ l ∈ fws, l.Good eg 0) (hs : size < 2 ^ 32)
    (hfit : ∀ r ∈ imageRegions fws ++ rws.flatten, r.Fits)
    (h : fullVerify dv eg stack fws rws size v fuel s = some (.ok (), s')) :
    s'.mem = s.mem ∧ (∀ l ∈ fws, l.AllAuthentic eg s.mem 0) ∧
    ∀ a, a < size → Covered (imageRegions fws) a ∨ Covered rws.flatten a ∨ s.mem a = v := by
  have key : ∀ s1 : FS, s1.mem = s.mem →
      (match eachUntil (verifyOnFlash dv eg stack true 0) fws s1 with
        | (.ok (), s) => unusedLoop dv (fws.flatMap (·.regions)) rws size v fuel 0 s
        | r => some r) = some (.ok (), s') →
      s'.mem = s.mem ∧ (∀ l ∈ fws, l.AllAuthentic eg s.mem 0) ∧
      ∀ a, a < size → Covered (imageRegions fws) a ∨ Covered rws.flatten a ∨ s.mem a = v := by
    intro s1 h1 h
    have hm := eachUntil_mem (f := verifyOnFlash dv eg stack true 0) (l := fws)
      (fun l hl s => verifyOnFlash_mem dv eg stack true 0 l s (hg l hl)) s1
    cases he : eachUntil (verifyOnFlash dv eg stack true 0) fws s1 with
    | mk r s2 =>
      rw [he] at h hm
      cases r with
      | error e => simp at h
      | ok u =>
        dsimp only at h hm
        have ha := eachUntil_ok (P := fun m (l : ImageList) => l.AllAuthentic eg m 0)
          (fun l hl s => verifyOnFlash_mem dv eg stack true 0 l s (hg l hl))
          (fun l hl s s' h => verifyOnFlash_all dv eg stack 0 l s s' (hg l hl) h) s1 s2 he
        rw [h1] at ha hm
        have hu := unusedLoop_ok dv _ rws size v hs hfit fuel 0 s2 s' (by intro a h; omega) h
        refine ⟨by rw [unusedLoop_mem dv _ rws size v fuel 0 s2 _ s' h, hm], ha, fun a ha => ?_⟩
        rcases hu a ha with ⟨r, hr, hra⟩ | h2
        · rcases List.mem_append.1 hr with hr | hr
          · exact .inl ⟨r, hr, hra⟩
          · exact .inr (.inl ⟨r, hr, hra⟩)
        · rw [hm] at h2; exact .inr (.inr h2)
  unfold fullVerify at h
  cases ho : dv.out s.calls with
  | err m => rw [ho] at h; simp at h
  | ok => rw [ho] at h; exact key ⟨s.mem, s.calls + 1⟩ rfl h
  | short k _ => rw [ho] at h; exact key ⟨s.mem, s.calls + 1⟩ rfl h

/-- C65: an error leaves the flash alone too. -/
theorem full_verification_reads_only (dv : Dev) (eg : Engine) (stack : Bytes) (fws : List ImageList) (rws : List (List Region)) (size : Nat)
    (v : UInt8) (fuel : Nat) (s s' : FS) (r : Except Err Unit) (hg : ∀ l ∈ fws, l.Good eg 0)
    (h : fullVerify dv eg stack fws rws size v fuel s = some (r, s')) : s'.mem = s.mem := by
  have key : ∀ s1 : FS, s1.mem = s.mem →
      (match eachUntil (verifyOnFlash dv eg stack true 0) fws s1 with
        | (.ok (), s) => unusedLoop dv (fws.flatMap (·.regions)) rws size v fuel 0 s
        | r => some r) = some (r, s') → s'.mem = s.mem := by
    intro s1 h1 h
    have hm := eachUntil_mem (f := verifyOnFlash dv eg stack true 0) (l := fws)
      (fun l hl s => verifyOnFlash_mem dv eg stack true 0 l s (hg l hl)) s1
    cases he : eachUntil (verifyOnFlash dv eg stack true 0) fws s1 with
    | mk r' s2 =>
      rw [he] at h hm
      cases r' with
      | error e =>
        simp only [Option.some.injEq, Prod.mk.injEq] at h
        rw [← h.2]; exact hm.trans h1
      | ok u =>
        rw [unusedLoop_mem dv _ rws size v fuel 0 s2 _ s' h]
        exact hm.trans h1
  unfold fullVerify at h
  cases ho : dv.out s.calls with
  | err m => rw [ho] at h; simp only [Option.some.injEq, Prod.mk.injEq] at h; rw [← h.2]
  | ok => rw [ho] at h; exact key ⟨s.mem, s.calls + 1⟩ rfl h
  | short k _ => rw [ho] at h; exact key ⟨s.mem, s.calls + 1⟩ rfl h

/-- C65: the verification ends if no region is empty or reaches the end of the address space: one round for each region, and one more. -/
theorem full_verification_ends_partial (dv : Dev) (eg : Engine) (stack : Bytes) (fws : List ImageList) (rws : List (List Region)) (size : Nat)
    (v : UInt8) (fuel : Nat) (s : FS) (hp : ∀ r ∈ imageRegions fws ++ rws.flatten, r.Proper)
    (hf : (imageRegions fws ++ rws.flatten).length < fuel) : fullVerify dv eg stack fws rws size v fuel s ≠ none := by
  have key : ∀ s1 : FS, (match eachUntil (verifyOnFlash dv eg stack true 0) fws s1 with
        | (.ok (), s) => unusedLoop dv (fws.flatMap (·.regions)) rws size v fuel 0 s
        | r => some r) ≠ none := by
    intro s1
    cases he : eachUntil (verifyOnFlash dv eg stack true 0) fws s1 with
    | mk r' s2 =>
      cases r' with
      | error e => simp
      | ok u => exact unusedLoop_ends dv _ rws size v hp fuel 0 s2 (Nat.lt_of_le_of_lt (remaining_le _ _) hf)
  unfold fullVerify
  cases ho : dv.out s.calls with
  | err m => simp
  | ok => exact key _
  | short k _ => exact key _

/-- C65: a good flash is accepted, if the regions of the manifests do not overlap and the drivers work. -/
theorem full_verification_accepts_partial (dv : Dev) (eg : Engine) (stack : Bytes) (fws : List ImageList) (rws : List (List Region))
    (size : Nat) (v : UInt8) (fuel : Nat) (s : FS) (hd : Dev.Sound dv) (he : eg.Sound) (hg : ∀ l ∈ fws, l.Good eg 0)
    (hc : ∀ l ∈ fws, l.Complete) (hs : size < 2 ^ 32) (hdis : Disjoint (imageRegions fws ++ rws.flatten))
    (hin : ∀ r ∈ imageRegions fws ++ rws.flatten, r.start + r.len ≤ size) (ha : ∀ l ∈ fws, l.AllAuthentic eg s.mem 0)
    (hu : ∀ a, a < size → Covered (imageRegions fws) a ∨ Covered rws.flatten a ∨ s.mem a = v)
    (hf : (imageRegions fws ++ rws.flatten).length < fuel) :
    ∃ s', fullVerify dv eg stack fws rws size v fuel s = some (.ok (), s') := by
  have hm : ∀ a, a < size → Covered (imageRegions fws ++ rws.flatten) a ∨ s.mem a = v := by
    intro a h
    rcases hu a h with ⟨r, hr, hra⟩ | ⟨r, hr, hra⟩ | h
    · exact .inl ⟨r, List.mem_append.2 (.inl hr), hra⟩
    · exact .inl ⟨r, List.mem_append.2 (.inr hr), hra⟩
    · exact .inr h
  have h1 : ∀ l ∈ fws, ∀ s1 : FS, s1.mem = s.mem → ∃ s', verifyOnFlash dv eg stack true 0 l s1 = (.ok (), s') ∧ s'.mem = s.mem := by
    intro l hl s1 h1
    refine verifyOnFlash_accepts hd he stack true (hg l hl) (hc l hl) ?_ s1 h1
    have := ha l hl
    cases l with
    | sig l => exact fun i hi _ => this i hi
    | hash l => exact fun i hi _ => this i hi
  obtain ⟨s2, h2, h3⟩ := eachUntil_accepts h1 ⟨s.mem, s.calls + 1⟩ rfl
  obtain ⟨s3, h4⟩ := unusedLoop_accepts hd (fws.flatMap (fun l : ImageList => l.regions)) rws size v hs hdis hin s.mem hm fuel 0 s2 h3
    (Nat.lt_of_le_of_lt (remaining_le _ _) hf) (Nat.zero_le _) (by intro r hr h; omega)
  refine ⟨s3, ?_⟩
  unfold fullVerify
  rw [hd s.calls]
  dsimp only
  rw [h2]
  exact h4

/-- Checked on a flash with one signed image, one read/write region and blank bytes: accepted. With a byte changed in the image or in the
unused part: rejected. With a byte changed in the read/write region: accepted. -/
example :
    let fw := ImageList.sig [⟨[⟨2, 3⟩], ⟨[1], 1, 3⟩, [7], 1, 0⟩]
    let run := fun m => (fullVerify goodDev toyEngine [] [fw] [[⟨8, 2⟩]] 16 0xff 5 ⟨m, 0⟩).map (fun r => match r.1 with | .ok _ => true | _ => false)
    run demoMem = some true ∧ run (fun a => if a = 2 then 8 else demoMem a) = some false ∧
    run (fun a => if a = 6 then 8 else demoMem a) = some false ∧ run (fun a => if a = 8 then 8 else demoMem a) = some true ∧
    run (fun a => if a = 15 then 8 else demoMem a) = some false := by decide +kernel

example : (ImageList.sig [⟨[⟨2, 3⟩], ⟨[1], 1, 3⟩, [7], 1, 0⟩]).Good toyEngine 0 ∧ Disjoint [⟨2, 3⟩, ⟨8, 2⟩] ∧
    (ImageList.sig [⟨[⟨2, 3⟩], ⟨[1], 1, 3⟩, [7], 1, 0⟩]).AllAuthentic toyEngine demoMem 0 := by
  refine ⟨by simp [ImageList.Good, RegionsFit], by simp [Disjoint, Region.Proper, Region.Apart], ?_⟩
  simp [ImageList.AllAuthentic, SigImage.Authentic, toyEngine, sha256]
  decide

/-- C65: of a flash that is accepted at boot, the images that are marked for validation at every boot are authentic. -/
theorem boot_verification_sound (dv : Dev) (eg : Engine) (stack : Bytes) (off : Nat) (fws : List ImageList) (s s' : FS)
    (hg : ∀ l ∈ fws, l.Good eg off) (h : verifyImages dv eg stack off fws s = (.ok (), s')) :
    s'.mem = s.mem ∧ ∀ l ∈ fws, l.BootAuthentic eg s.mem off := by
  have hm := eachUntil_mem (f := verifyOnFlash dv eg stack false off) (l := fws)
      (fun l hl s => verifyOnFlash_mem dv eg stack false off l s (hg l hl)) s
  unfold verifyImages at h
  rw [h] at hm
  exact ⟨hm, eachUntil_ok (P := fun m (l : ImageList) => l.BootAuthentic eg m off)
          (fun l hl s => verifyOnFlash_mem dv eg stack false off l s (hg l hl))
          (fun l hl s s' h => verifyOnFlash_boot dv eg stack off l s s' (hg l hl) h) s s' h⟩

/-- C65: and it is accepted if they are, with working drivers. -/
theorem boot_verification_accepts (dv : Dev) (eg : Engine) (stack : Bytes) (off : Nat) (fws : List ImageList) (s : FS) (hd : Dev.Sound dv)
    (he : eg.Sound) (hg : ∀ l ∈ fws, l.Good eg off) (hc : ∀ l ∈ fws, l.Complete) (ha : ∀ l ∈ fws, l.BootAuthentic eg s.mem off) :
    ∃ s', verifyImages dv eg stack off fws s = (.ok (), s') := by
  have h1 : ∀ l ∈ fws, ∀ s1 : FS, s1.mem = s.mem → ∃ s', verifyOnFlash dv eg stack false off l s1 = (.ok (), s') ∧ s'.mem = s.mem := by
    intro l hl s1 h1
    refine verifyOnFlash_accepts hd he stack false (hg l hl) (hc l hl) ?_ s1 h1
    have := ha l hl
    cases l with
    | sig l => exact fun i hi h => this i hi (by simpa using h)
    | hash l => exact fun i hi h => this i hi (by simpa using h)
  obtain ⟨s2, h2, _⟩ := eachUntil_accepts h1 s rfl
  exact ⟨s2, h2⟩

/-- A bad image that is not marked is not found at boot. -/
example :
    let img := fun a => SigImage.mk [⟨2, 3⟩] ⟨[1], 1, 3⟩ [6] 1 a
    let run := fun a => match (verifyImages goodDev toyEngine [] 0 [.sig [img a]] ⟨demoMem, 0⟩).1 with | .ok _ => true | _ => false
    run 0 = true ∧ run 1 = false := by decide +kernel

/-- C65, disagreement: with a region that starts inside another one, a flash is rejected although each of its bytes is covered or blank:
after the first region the second one is skipped, and its remaining bytes count as unused. -/
theorem full_verification_rejects_overlap :
    let rws := [[(⟨0, 4⟩ : Region), ⟨2, 4⟩]]
    let m : Mem := fun a => if a < 6 then 1 else 0xff
    (∀ a, a < 8 → Covered rws.flatten a ∨ m a = 0xff) ∧
    (fullVerify goodDev toyEngine [] [] rws 8 0xff 9 ⟨m, 0⟩).map (fun r => match r.1 with | .ok _ => true | _ => false) = some false := by
  refine ⟨?_, by decide +kernel⟩
  intro a h
  by_cases h1 : a < 4
  · exact .inl ⟨⟨0, 4⟩, by simp, by simp [Region.has]; exact h1⟩
  · by_cases h2 : a < 6
    · exact .inl ⟨⟨2, 4⟩, by simp, by simp [Region.has]; omega⟩
    · right; simp [h2]

/-- C65, disagreement: with an empty region the verification never ends, however long it runs and although no driver fails. The manifest
parser of version 1 manifests does not exclude one (pfm_flash.c:980-981). -/
theorem full_verification_hangs_empty_region (m : Mem) (fuel : Nat) :
    ∀ s : FS, s.mem = m → fullVerify goodDev toyEngine [] [] [[⟨0, 0⟩]] 8 0xff fuel s = none := by
  have h : ∀ (fuel : Nat) (s : FS), unusedLoop goodDev [] [[⟨0, 0⟩]] 8 0xff fuel 0 s = none := by
    intro fuel
    induction fuel with
    | zero => intro s; rfl
    | succ fuel ih =>
      intro s
      obtain ⟨s', h1, _⟩ := checkGap_accepts (dv := goodDev) (fun _ => rfl) 0 0 0xff s (by decide) (by decide) (by intro a h1 h2; omega)
      have h2 : findFlash 0 [] [[⟨0, 0⟩]] = some ⟨0, 0⟩ := by decide
      unfold unusedLoop
      rw [h2]
      dsimp only
      rw [h1]
      exact ih s'
  intro s _
  exact h fuel _

/-- C65, disagreement: the same for a region that reaches the end of the address space, which the parsers accept (pfm_flash.c:1224,
1638): its end, as a 32-bit number, is 0. -/
theorem full_verification_hangs_end_of_space (fuel : Nat) :
    ∀ s : FS, s.mem = (fun _ => 0xff) → fullVerify goodDev toyEngine [] [] [[⟨16, 2 ^ 32 - 16⟩]] 32 0xff fuel s = none := by
  have h : ∀ (fuel : Nat) (s : FS), s.mem = (fun _ => 0xff) → unusedLoop goodDev [] [[⟨16, 2 ^ 32 - 16⟩]] 32 0xff fuel 0 s = none := by
    intro fuel
    induction fuel with
    | zero => intro s _; rfl
    | succ fuel ih =>
      intro s hs
      obtain ⟨s', h1, h3⟩ := checkGap_accepts (dv := goodDev) (fun _ => rfl) 0 16 0xff s (by decide) (by decide)
        (by intro a h1 h2; rw [hs])
      have h2 : findFlash 0 [] [[⟨16, 2 ^ 32 - 16⟩]] = some ⟨16, 2 ^ 32 - 16⟩ := by decide
      unfold unusedLoop
      rw [h2]
      dsimp only
      rw [h1]
      exact ih s' (h3.trans hs)
  intro s hs
  exact h fuel _ hs

/-! ### C66: what the host may write -/

/-- C66: after the read/write regions of one manifest were configured, and also after any failure, the host can write only addresses in
these regions - or nothing changed because clearing the old ones failed. -/
theorem filter_sound (fail : Nat → Bool) (rs : List Region) (f f' : Filter) (r : Except Err Unit) (h : configFilter fail rs f = (r, f')) :
    (∀ a, f'.Allows a → Covered rs a) ∨ (r ≠ .ok () ∧ f'.rw = f.rw) := by
  unfold configFilter at h
  cases hc : clearRw fail f with
  | mk r1 f1 =>
    rw [hc] at h
    cases r1 with
    | error e =>
      simp only [Prod.mk.injEq] at h
      right
      rw [← h.1, ← h.2]
      exact ⟨by simp, clearRw_error hc⟩
    | ok u =>
      left
      refine configLoop_sound fail rs rs 0 f1 f' r (fun _ h => h) ?_ h
      rintro a ⟨id, x, y, h1, _⟩
      rw [clearRw_ok hc] at h1
      simp at h1

/-- C66: the same for the regions of several firmware components, in which neighbouring regions are joined. -/
theorem filter_all_sound (fail : Nat → Bool) (gs : List (List Region)) (fuel : Nat) (f f' : Filter) (r : Except Err Unit)
    (h : configFilterAll fail gs fuel f = some (r, f')) :
    (∀ a, f'.Allows a → Covered gs.flatten a) ∨ (r ≠ .ok () ∧ f'.rw = f.rw) := by
  unfold configFilterAll at h
  cases hc : clearRw fail f with
  | mk r1 f1 =>
    rw [hc] at h
    cases r1 with
    | error e =>
      simp only [Option.some.injEq, Prod.mk.injEq] at h
      right
      rw [← h.1, ← h.2]
      exact ⟨by simp, clearRw_error hc⟩
    | ok u =>
      left
      refine configAllLoop_sound fail gs fuel none none 0 0 0 f1 f' r ?_ (by simp) h
      rintro a ⟨id, x, y, h1, _⟩
      rw [clearRw_ok hc] at h1
      simp at h1

/-- C66: if it succeeds, with proper regions and at most 255 of them, the host can write exactly the addresses in the regions. -/
theorem filter_exact_partial (fail : Nat → Bool) (rs : List Region) (f f' : Filter) (hp : ∀ r ∈ rs, r.Proper) (hl : rs.length < 256)
    (h : configFilter fail rs f = (.ok (), f')) (a : Nat) : f'.Allows a ↔ Covered rs a := by
  constructor
  · rcases filter_sound fail rs f f' _ h with h | h
    · exact h a
    · exact absurd rfl h.1
  · intro ha
    unfold configFilter at h
    cases hc : clearRw fail f with
    | mk r1 f1 =>
      rw [hc] at h
      cases r1 with
      | error e => simp at h
      | ok u => exact configLoop_exact fail rs 0 f1 f' (by omega) hp (fun j _ => clearRw_ok hc j) h a (.inr ha)

/-- C66: the same for several firmware components, if no regions overlap. -/
theorem filter_all_exact_partial (fail : Nat → Bool) (gs : List (List Region)) (fuel : Nat) (f f' : Filter) (hd : Disjoint gs.flatten)
    (hl : gs.flatten.length < 256) (h : configFilterAll fail gs fuel f = some (.ok (), f')) (a : Nat) :
    f'.Allows a ↔ Covered gs.flatten a := by
  constructor
  · rcases filter_all_sound fail gs fuel f f' _ h with h | h
    · exact h a
    · exact absurd rfl h.1
  · rintro ⟨r, hr, hra⟩
    unfold configFilterAll at h
    cases hc : clearRw fail f with
    | mk r1 f1 =>
      rw [hc] at h
      cases r1 with
      | error e => simp at h
      | ok u =>
        refine configAllLoop_exact fail gs hd fuel none none 0 0 0 f1 f' (fun j _ => clearRw_ok hc j) ?_ (by simp) h a
          (.inr (.inl ⟨r, hr, hra, Nat.zero_le _⟩))
        have := remaining_le gs.flatten 0
        simp
        omega

/-- C66: configuring the regions of several components ends if the regions are proper. -/
theorem filter_all_ends_partial (fail : Nat → Bool) (gs : List (List Region)) (fuel : Nat) (f : Filter) (hp : ∀ r ∈ gs.flatten, r.Proper)
    (hf : gs.flatten.length < fuel) : configFilterAll fail gs fuel f ≠ none := by
  unfold configFilterAll
  cases hc : clearRw fail f with
  | mk r1 f1 =>
    cases r1 with
    | error e => simp
    | ok u => exact configAllLoop_ends fail gs hp fuel none none 0 0 0 f1 (Nat.lt_of_le_of_lt (remaining_le _ _) hf)

/-- Two components: three regions, two of which are neighbours and are joined into one. -/
example : let f := (configFilterAll (fun _ => false) [[⟨16, 16⟩, ⟨64, 8⟩], [⟨32, 8⟩]] 4 ⟨fun _ => some (0, 100), 0⟩).map (·.2)
    (f.map (·.rw 1)) = some (some (16, 40)) ∧ (f.map (·.rw 2)) = some (some (64, 72)) ∧ (f.map (·.rw 3)) = some none := by decide +kernel

example : Disjoint [⟨16, 16⟩, ⟨64, 8⟩, ⟨32, 8⟩] := by simp [Disjoint, Region.Proper, Region.Apart]

/-- C66, disagreement: with an empty region the configuration of several components never ends. -/
theorem filter_all_hangs_empty_region (fuel : Nat) (f : Filter) : configFilterAll (fun _ => false) [[⟨0, 0⟩]] fuel f = none := by
  have h2 : findGroup 0 [[⟨0, 0⟩]] = some ⟨0, 0⟩ := by decide
  have h : ∀ (fuel : Nat) (prev next : Option Region) (total : Nat) (f : Filter), configAllLoop (fun _ => false) [[⟨0, 0⟩]] fuel prev next 0 total 0 f = none := by
    intro fuel
    induction fuel with
    | zero => intro p n t f; rfl
    | succ fuel ih =>
      intro p n t f
      unfold configAllLoop
      rw [h2]
      cases p.or n with
      | none => exact ih _ _ _ _
      | some p => exact ih _ _ _ _
  exact h fuel none none 0 _

/-- C66, disagreement: with a region that starts inside another, the rest of it is not writable although the configuration succeeds. -/
theorem filter_all_overlap_incomplete :
    ∃ f', configFilterAll (fun _ => false) [[⟨0, 4⟩, ⟨2, 4⟩]] 4 ⟨fun _ => none, 0⟩ = some (.ok (), f') ∧
      Covered [⟨0, 4⟩, ⟨2, 4⟩] 5 ∧ ¬ f'.Allows 5 := by
  refine ⟨⟨fun i => if i = 1 then some (0, 4) else none, 2⟩, by rfl, ⟨⟨2, 4⟩, by simp, by simp [Region.has]⟩, ?_⟩
  rintro ⟨id, x, y, h1, h2, h3⟩
  dsimp only at h1
  split at h1
  · simp only [Option.some.injEq, Prod.mk.injEq] at h1
    omega
  · simp at h1

/-! ### C67: the version of the firmware -/

/-- C67: the version that is found is the last one of the list whose identifier is on the flash; if the version is reported as
unsupported, none of the identifiers is. Nothing on the flash changes. -/
theorem version_exact (dv : Dev) (off : Nat) (allowed : List Version) (s : FS)
    (hfit : ∀ v ∈ allowed, v.addr + off + v.id.length ≤ 2 ^ 32 ∧ v.addr + off < 2 ^ 32) :
    (determineVersion dv off allowed s).2.mem = s.mem ∧
    (∀ v, (determineVersion dv off allowed s).1 = .ok v →
      ∃ pre post, allowed = pre ++ v :: post ∧ v.On s.mem off ∧ ∀ w ∈ post, ¬ w.On s.mem off) ∧
    ((determineVersion dv off allowed s).1 = .error .unsupported → ∀ v ∈ allowed, ¬ v.On s.mem off) := by
  unfold determineVersion
  obtain ⟨h1, h2, h3⟩ := versionLoop_spec dv off allowed.reverse none s (fun v hv => hfit v (List.mem_reverse.1 hv)) (by simp)
  refine ⟨h1, fun v hv => ?_, fun h v hv => h3 h v (List.mem_reverse.2 hv)⟩
  obtain ⟨pre, post, e, ho, hn⟩ := h2 v hv
  refine ⟨post.reverse, pre.reverse, ?_, ho, fun w hw => hn w (List.mem_reverse.1 hw)⟩
  have := congrArg List.reverse e
  simpa using this

/-- C67: with a working flash driver, an error means that the version is not supported. -/
theorem version_error (dv : Dev) (hd : Dev.Sound dv) (off : Nat) (allowed : List Version) (s : FS) (e : Err)
    (h : (determineVersion dv off allowed s).1 = .error e) : e = .unsupported :=
  versionLoop_no_error hd off _ none s e h

/-- Three versions, two of them at the same address and one a prefix of the other. -/
example :
    let m : Mem := fun a => [0x31, 0x2e, 0x31, 0x30].getD a 0
    let v := fun id => (⟨id, 0, 0xff⟩ : Version)
    let run := fun l => match (determineVersion goodDev 0 l ⟨m, 0⟩).1 with | .ok v => some v.id | _ => none
    run [v [0x31, 0x2e, 0x31, 0x30], v [0x31, 0x2e, 0x31], v [0x32]] = some [0x31, 0x2e, 0x31] ∧
    run [v [0x31, 0x2e, 0x31], v [0x31, 0x2e, 0x31, 0x30], v [0x32]] = some [0x31, 0x2e, 0x31, 0x30] ∧
    run [v [0x31, 0x2e, 0x32]] = none := by decide +kernel

/-! ### C68: differences between manifests -/

/-- C68: two lists of regions without overlaps are reported as the same exactly if they have the same regions, in any order. -/
theorem regions_different_exact_partial (fuel : Nat) (rs1 rs2 : List Region) (h1 : Disjoint rs1) (h2 : Disjoint rs2) (hf : rs1.length < fuel) :
    regionsDifferent fuel rs1 rs2 = some (! decide (∀ r, r ∈ rs1 ++ rs2 → (r ∈ rs1 ∧ r ∈ rs2))) := by
  have h3 := regionsDifferent_iff h1 h2 hf
  have h4 := regionsDifferent_ends (rs2 := rs2) h1.1 hf
  have h5 : (∀ r, r ∈ rs1 ↔ r ∈ rs2) ↔ ∀ r, r ∈ rs1 ++ rs2 → (r ∈ rs1 ∧ r ∈ rs2) := by
    simp only [List.mem_append]
    constructor
    · intro h r hr
      rcases hr with hr | hr
      · exact ⟨hr, (h r).1 hr⟩
      · exact ⟨(h r).2 hr, hr⟩
    · exact fun h r => ⟨fun hr => (h r (.inl hr)).2, fun hr => (h r (.inr hr)).1⟩
  rw [h5] at h3
  by_cases hx : ∀ r, r ∈ rs1 ++ rs2 → (r ∈ rs1 ∧ r ∈ rs2)
  · rw [h3.2 hx, decide_eq_true hx]; rfl
  · rw [decide_eq_false hx]
    cases h : regionsDifferent fuel rs1 rs2 with
    | none => exact absurd h h4
    | some b =>
      cases b with
      | true => rfl
      | false => exact absurd (h3.1 h) hx

theorem sameKey_iff (a b : RsaKey) : sameKey a b = true ↔ a.exponent = b.exponent ∧ a.modulus.take a.modLen = b.modulus.take b.modLen ∧
    a.modLen = b.modLen := by
  unfold sameKey
  split
  · rename_i h
    constructor
    · intro h; simp at h
    · rintro ⟨h1, _, h2⟩; exact absurd h (by simp [h1, h2])
  · rename_i h
    have h1 : a.exponent = b.exponent := by apply Classical.byContradiction; intro hc; exact h (.inl hc)
    have h2 : a.modLen = b.modLen := by apply Classical.byContradiction; intro hc; exact h (.inr hc)
    rw [beq_iff_eq, h2]
    exact ⟨fun h => ⟨h1, h, rfl⟩, fun h => h.2.1⟩

/-- C68: two lists of signed images are reported as the same exactly if they have the same number of images and each is the same as the one
at its position - if the signatures of a list all have one length and no image has regions that overlap. -/
theorem sig_images_different_exact_partial (fuel len : Nat) (l1 l2 : List SigImage) (hl : ∀ i ∈ l1, i.sigLen = len)
    (h1 : ∀ i ∈ l1, Disjoint i.regions ∧ i.regions.length < fuel) (h2 : ∀ i ∈ l2, Disjoint i.regions) :
    imagesDifferent fuel (.sig l1) (.sig l2) = some false ↔ Matching SigImage.Same l1 l2 := by
  rw [imagesDifferent]
  split
  · rename_i h
    refine ⟨fun h => by simp at h, fun hm => absurd hm.length h⟩
  · rename_i h
    have hlen : l1.length = l2.length := by omega
    refine differentLoop_iff l1 l2 hlen ?_
    intro a ha b hb
    have hhead : (l1.head?.map (·.sigLen)).getD 0 = len := by
      cases l1 with
      | nil => simp at ha
      | cons x xs => simpa using hl x (by simp)
    rw [hhead]
    unfold sigDifferent SigImage.Same
    have hr := regionsDifferent_iff (h1 a ha).1 (h2 b hb) (h1 a ha).2
    have hk := sameKey_iff a.key b.key
    have hal := hl a ha
    split
    · rename_i hx
      refine ⟨fun h => by simp at h, fun h => ?_⟩
      rw [hk.2 ⟨h.1, h.2.1, h.2.2.1⟩] at hx
      simp at hx
    · rename_i hx
      have hx' : sameKey a.key b.key = true := by simpa using hx
      obtain ⟨k1, k2, k3⟩ := hk.1 hx'
      split
      · rename_i hy
        refine ⟨fun h => by simp at h, fun h => absurd hy ?_⟩
        simp [h.2.2.2.1, h.2.2.2.2.2.1]
      · rename_i hy
        have y1 : a.sigLen = b.sigLen := by apply Classical.byContradiction; intro hc; exact hy (.inl hc)
        have y2 : a.always = b.always := by apply Classical.byContradiction; intro hc; exact hy (.inr hc)
        split
        · rename_i hz
          refine ⟨fun h => by simp at h, fun h => absurd h.2.2.2.2.1 ?_⟩
          rw [← y1, hal]; exact hz
        · rename_i hz
          have hz' : a.signature.take len = b.signature.take len := by simpa using hz
          rw [hr]
          refine ⟨fun h => ⟨k1, k2, k3, y1, ?_, y2, h⟩, fun h => h.2.2.2.2.2.2⟩
          rw [← y1, hal]; exact hz'

/-- C68: the same for images with hashes. -/
theorem hash_images_different_exact_partial (fuel len : Nat) (l1 l2 : List HashImage) (hl : ∀ i ∈ l1, i.hashLen = len)
    (h1 : ∀ i ∈ l1, Disjoint i.regions ∧ i.regions.length < fuel) (h2 : ∀ i ∈ l2, Disjoint i.regions) :
    imagesDifferent fuel (.hash l1) (.hash l2) = some false ↔ Matching HashImage.Same l1 l2 := by
  rw [imagesDifferent]
  split
  · rename_i h
    refine ⟨fun h => by simp at h, fun hm => absurd hm.length h⟩
  · rename_i h
    have hlen : l1.length = l2.length := by omega
    refine differentLoop_iff l1 l2 hlen ?_
    intro a ha b hb
    have hhead : (l1.head?.map (·.hashLen)).getD 0 = len := by
      cases l1 with
      | nil => simp at ha
      | cons x xs => simpa using hl x (by simp)
    rw [hhead]
    unfold hashDifferent HashImage.Same
    have hr := regionsDifferent_iff (h1 a ha).1 (h2 b hb) (h1 a ha).2
    have hal := hl a ha
    split
    · rename_i hy
      refine ⟨fun h => by simp at h, fun h => absurd hy ?_⟩
      simp [h.1, h.2.1, h.2.2.2.1]
    · rename_i hy
      have y1 : a.hashLen = b.hashLen := by apply Classical.byContradiction; intro hc; exact hy (.inl hc)
      have y2 : a.hashType = b.hashType := by apply Classical.byContradiction; intro hc; exact hy (.inr (.inl hc))
      have y3 : a.always = b.always := by apply Classical.byContradiction; intro hc; exact hy (.inr (.inr hc))
      split
      · rename_i hz
        refine ⟨fun h => by simp at h, fun h => absurd h.2.2.1 ?_⟩
        rw [← y1, hal]; exact hz
      · rename_i hz
        have hz' : a.hash.take len = b.hash.take len := by simpa using hz
        rw [hr]
        refine ⟨fun h => ⟨y2, y1, ?_, y3, h⟩, fun h => h.2.2.2.2⟩
        rw [← y1, hal]; exact hz'

/-- A list with signatures is never the same as one with hashes. -/
theorem images_kinds_differ (fuel : Nat) (l1 : List SigImage) (l2 : List HashImage) :
    imagesDifferent fuel (.sig l1) (.hash l2) = some true ∧ imagesDifferent fuel (.hash l2) (.sig l1) = some true := ⟨rfl, rfl⟩

/-- Regions in another order are the same; another hash is not. -/
example : imagesDifferent 9 (.hash [⟨[⟨0, 4⟩, ⟨8, 4⟩], [1, 2], 2, 1, 1⟩]) (.hash [⟨[⟨8, 4⟩, ⟨0, 4⟩], [1, 2], 2, 1, 1⟩]) = some false ∧
    imagesDifferent 9 (.hash [⟨[⟨0, 4⟩, ⟨8, 4⟩], [1, 2], 2, 1, 1⟩]) (.hash [⟨[⟨8, 4⟩, ⟨0, 4⟩], [1, 3], 2, 1, 1⟩]) = some true ∧
    Disjoint [⟨0, 4⟩, ⟨8, 4⟩] := by
  refine ⟨by decide, by decide, by simp [Disjoint, Region.Proper, Region.Apart]⟩

/-- C68, disagreement: regions that differ are reported as the same if they start inside another region. -/
theorem regions_different_misses_overlap :
    regionsDifferent 9 [⟨0, 100⟩, ⟨50, 10⟩] [⟨0, 100⟩, ⟨60, 20⟩] = some false ∧ (⟨60, 20⟩ : Region) ∉ [(⟨0, 100⟩ : Region), ⟨50, 10⟩] := by
  decide

/-- C68, disagreement: the hashes of all images are compared over the length of the *first* hash of the list (host_fw_util.c:307). A SHA-512
hash behind a SHA-256 one is compared only in its first half: two lists that require different images are reported as the same. -/
theorem images_different_misses_long_hash (fuel : Nat) (h0 : Bytes) (pre x y : Bytes) (hp : pre.length = 32) (hx : x.length = 32)
    (hy : y.length = 32) (hxy : x ≠ y) :
    let l := fun t => [HashImage.mk [] h0 32 1 1, HashImage.mk [] (pre ++ t) 64 3 1]
    imagesDifferent (fuel + 1) (.hash (l x)) (.hash (l y)) = some false ∧ ¬ Matching HashImage.Same (l x) (l y) := by
  have hn : ∀ q : List Region, regionsDifferent (fuel + 1) [] [] = some false := fun _ => rfl
  refine ⟨?_, ?_⟩
  · have e : (pre ++ x).take 32 = (pre ++ y).take 32 := by
      rw [← hp, List.take_left, List.take_left]
    simp [imagesDifferent, differentLoop, hashDifferent, hn [], e]
  · intro h
    obtain ⟨_, ⟨_, _, h, _⟩, _⟩ := h
    rw [List.take_of_length_le (by simp [hp, hx]), List.take_of_length_le (by simp [hp, hy])] at h
    exact hxy (List.append_cancel_left h)

/-- C68, disagreement: the other way round, equal lists are reported as different because of what follows a short hash in its array. -/
theorem images_different_compares_junk :
    let l := fun t => [HashImage.mk [] [1, 2, 3, 4] 4 3 1, HashImage.mk [] [5, 6, t, 0] 2 1 1]
    imagesDifferent 9 (.hash (l 0)) (.hash (l 7)) = some true ∧ Matching HashImage.Same (l 0) (l 7) := by
  simp [imagesDifferent, differentLoop, hashDifferent, regionsDifferent, regionsLoop, findNext, findLoop, Matching, HashImage.Same]

/-! ### C69: migrating and restoring data -/

/-- C69: whatever happens, migrating read/write data to another flash changes nothing there outside of the erase blocks of the regions. -/
theorem migrate_frame (dv : Dev) (hd : Dev.Sized dv) (dst : List Region) (hp : ∀ r ∈ dst, r.Proper) (m : Mem) (src : Option (List Region))
    (fuel : Nat) (s s' : FS) (r : Except Err Unit) (h : migrate dv dst m src fuel s = some (r, s')) :
    ∀ i, (∀ q ∈ dst, ¬ Touched dv.block q.start q.len i) → s'.mem i = s.mem i := by
  unfold migrate at h
  intro i hi
  generalize countCheck dst src = mf at h
  cases he : eraseRwLoop dv dst src fuel 0 mf s with
  | none => rw [he] at h; simp at h
  | some x =>
    obtain ⟨r1, s1⟩ := x
    rw [he] at h
    have h1 := eraseRwLoop_frame hd.1 hp src fuel 0 mf s r1 s1 he i hi
    cases r1 with
    | error e =>
      simp only [Option.some.injEq, Prod.mk.injEq] at h
      rw [← h.2]; exact h1
    | ok u =>
      rw [copyRwLoop_frame hd hp m fuel 0 s1 r s' h i (fun q hq _ hqi => hi q hq (Touched.of_mem hqi.1 hqi.2))]
      exact h1

/-- C69: if it succeeds, each read/write region holds what the source held; and if the regions of the source were given, they are the same
regions. -/
theorem migrate_exact_partial (dv : Dev) (hd : Dev.Sized dv) (dst : List Region) (hdis : Disjoint dst) (m : Mem) (src : Option (List Region))
    (hsrc : ∀ rs, src = some rs → Disjoint rs) (fuel : Nat) (s s' : FS) (h : migrate dv dst m src fuel s = some (.ok (), s')) :
    (∀ i, Covered dst i → s'.mem i = m i) ∧ (∀ rs, src = some rs → ∀ r, r ∈ rs ↔ r ∈ dst) := by
  unfold migrate at h
  cases src with
  | none =>
    simp only [countCheck] at h
    refine ⟨?_, by simp⟩
    cases he : eraseRwLoop dv dst none fuel 0 none s with
    | none => rw [he] at h; simp at h
    | some x =>
      obtain ⟨r1, s1⟩ := x
      rw [he] at h
      cases r1 with
      | error e => simp at h
      | ok u => exact fun i ⟨q, hq, hqi⟩ => copyRwLoop_ok hd hdis m fuel 0 s1 s' h q hq (Nat.zero_le _) i hqi
  | some rs =>
    simp only [countCheck] at h
    by_cases hlen : rs.length = dst.length
    · rw [if_neg (by omega)] at h
      cases he : eraseRwLoop dv dst (some rs) fuel 0 none s with
      | none => rw [he] at h; simp at h
      | some x =>
        obtain ⟨r1, s1⟩ := x
        rw [he] at h
        cases r1 with
        | error e => simp at h
        | ok u =>
          refine ⟨fun i ⟨q, hq, hqi⟩ => copyRwLoop_ok hd hdis m fuel 0 s1 s' h q hq (Nat.zero_le _) i hqi, ?_⟩
          intro rs' e
          cases e
          have h1 := eraseRwLoop_match hdis (hsrc rs rfl) hlen fuel 0 s s1 (by intro q hq h; omega) (by intro q hq h; omega) he
          exact fun r => ⟨mem_of_subset_length dst rs hdis.nodup (hsrc rs rfl).nodup hlen.symm h1 r, h1 r⟩
    · rw [if_pos hlen] at h
      cases he : eraseRwLoop dv dst (some rs) fuel 0 (some .diffCount) s with
      | none => rw [he] at h; simp at h
      | some x =>
        obtain ⟨r1, s1⟩ := x
        rw [he] at h
        cases r1 with
        | error e => simp at h
        | ok u => exact absurd he (eraseRwLoop_failed _ _ _ _)

/-- C69: and it ends, for proper regions. -/
theorem migrate_ends_partial (dv : Dev) (dst : List Region) (hp : ∀ r ∈ dst, r.Proper) (m : Mem) (src : Option (List Region)) (fuel : Nat)
    (s : FS) (hf : dst.length < fuel) : migrate dv dst m src fuel s ≠ none := by
  unfold migrate
  have hr : remaining 0 dst < fuel := Nat.lt_of_le_of_lt (remaining_le _ _) hf
  generalize countCheck dst src = mf
  cases he : eraseRwLoop dv dst src fuel 0 mf s with
  | none => exact absurd he (eraseRwLoop_ends dv hp src fuel 0 mf s hr)
  | some x =>
    obtain ⟨r1, s1⟩ := x
    cases r1 with
    | error e => simp
    | ok u => exact copyRwLoop_ends dv hp m fuel 0 s1 hr

example :
    let run := fun src => (migrate goodDev [⟨4, 4⟩, ⟨12, 4⟩] (fun a => UInt8.ofNat a) src 3 ⟨fun _ => 0, 0⟩).map
      (fun r => (match r.1 with | .ok _ => true | _ => false, bytesAt r.2.mem 0 18))
    run (some [⟨12, 4⟩, ⟨4, 4⟩]) = some (true, [0, 0, 0, 0, 4, 5, 6, 7, 0, 0, 0, 0, 12, 13, 14, 15, 0, 0]) ∧
    run (some [⟨12, 4⟩, ⟨4, 3⟩]) = some (false, [0, 0, 0, 0, 0xff, 0xff, 0xff, 0xff, 0, 0, 0, 0, 0xff, 0xff, 0xff, 0xff, 0, 0]) := by
  decide +kernel

theorem migrateLoop_frame (dv : Dev) (hd : Dev.Sized dv) (m : Mem) (fuel : Nat) (l : List (List Region × Option (List Region))) :
    ∀ (mf : Option Err) (s s' : FS) (r : Except Err Unit), (∀ x ∈ l, ∀ q ∈ x.1, q.Proper) → migrateLoop dv m fuel l mf s = some (r, s') →
    ∀ i, (∀ x ∈ l, ∀ q ∈ x.1, ¬ Touched dv.block q.start q.len i) → s'.mem i = s.mem i := by
  induction l with
  | nil => intro mf s s' r _ h; simp only [migrateLoop, Option.some.injEq, Prod.mk.injEq] at h; intro i _; rw [← h.2]
  | cons x xs ih =>
    obtain ⟨d, src⟩ := x
    intro mf s s' r hp h i hi
    unfold migrateLoop at h
    cases hm : migrate dv d m src fuel s with
    | none => rw [hm] at h; simp at h
    | some y =>
      obtain ⟨r1, s1⟩ := y
      rw [hm] at h
      have h1 := migrate_frame dv hd d (hp (d, src) (by simp)) m src fuel s s1 r1 hm i (hi (d, src) (by simp))
      have hp' : ∀ x ∈ xs, ∀ q ∈ x.1, q.Proper := fun x hx => hp x (by simp [hx])
      have hi' : ∀ x ∈ xs, ∀ q ∈ x.1, ¬ Touched dv.block q.start q.len i := fun x hx => hi x (by simp [hx])
      cases r1 with
      | ok u => rw [ih _ _ _ _ hp' h i hi']; exact h1
      | error e =>
        dsimp only at h
        split at h
        · rw [ih _ _ _ _ hp' h i hi']; exact h1
        · simp only [Option.some.injEq, Prod.mk.injEq] at h
          rw [← h.2]; exact h1

theorem migrateLoop_failed (dv : Dev) (m : Mem) (fuel : Nat) (l : List (List Region × Option (List Region))) :
    ∀ (e : Err) (s s' : FS), migrateLoop dv m fuel l (some e) s ≠ some (.ok (), s') := by
  induction l with
  | nil => intro e s s' h; simp [migrateLoop] at h
  | cons x xs ih =>
    obtain ⟨d, src⟩ := x
    intro e s s' h
    unfold migrateLoop at h
    cases hm : migrate dv d m src fuel s with
    | none => rw [hm] at h; simp at h
    | some y =>
      obtain ⟨r1, s1⟩ := y
      rw [hm] at h
      cases r1 with
      | ok u => exact ih _ _ _ h
      | error e =>
        dsimp only at h
        split at h
        · exact ih _ _ _ h
        · simp at h

theorem Disjoint.append {l1 l2 : List Region} (h : Disjoint (l1 ++ l2)) :
    Disjoint l1 ∧ Disjoint l2 ∧ ∀ r ∈ l1, ∀ q ∈ l2, r.Apart q := by
  obtain ⟨h1, h2⟩ := h
  rw [List.pairwise_append] at h2
  exact ⟨⟨fun r hr => h1 r (by simp [hr]), h2.1⟩, ⟨fun r hr => h1 r (by simp [hr]), h2.2.1⟩, h2.2.2⟩

theorem migrateLoop_ok (dv : Dev) (hd : Dev.Sized dv) (m : Mem) (fuel : Nat) (l : List (List Region × Option (List Region))) :
    ∀ (s s' : FS), Disjoint (l.map (·.1)).flatten → (∀ q ∈ (l.map (·.1)).flatten, q.Aligned dv.block) →
    (∀ x ∈ l, ∀ rs, x.2 = some rs → Disjoint rs) → migrateLoop dv m fuel l none s = some (.ok (), s') →
    (∀ i, Covered (l.map (·.1)).flatten i → s'.mem i = m i) ∧ (∀ x ∈ l, ∀ rs, x.2 = some rs → ∀ r, r ∈ rs ↔ r ∈ x.1) := by
  induction l with
  | nil => intro s s' _ _ _ h; exact ⟨fun i ⟨q, hq, _⟩ => by simp at hq, fun x hx => by simp at hx⟩
  | cons x xs ih =>
    obtain ⟨d, src⟩ := x
    intro s s' hdis hal hsrc h
    simp only [List.map_cons, List.flatten_cons] at hdis hal ⊢
    obtain ⟨hd1, hd2, hap⟩ := hdis.append
    unfold migrateLoop at h
    cases hm : migrate dv d m src fuel s with
    | none => rw [hm] at h; simp at h
    | some y =>
      obtain ⟨r1, s1⟩ := y
      rw [hm] at h
      cases r1 with
      | error e =>
        dsimp only at h
        split at h
        · exact absurd h (migrateLoop_failed dv m fuel xs _ _ _)
        · simp at h
      | ok u =>
        obtain ⟨e1, e2⟩ := migrate_exact_partial dv hd d hd1 m src (hsrc (d, src) (by simp)) fuel s s1 hm
        obtain ⟨e3, e4⟩ := ih s1 s' hd2 (fun q hq => hal q (by simp only [List.mem_append]; exact .inr hq))
          (fun x hx => hsrc x (by simp [hx])) h
        refine ⟨?_, ?_⟩
        · rintro i ⟨q, hq, hqi⟩
          rcases List.mem_append.1 hq with hq | hq
          · rw [migrateLoop_frame dv hd m fuel xs none s1 s' (.ok ()) ?_ h i ?_]
            · exact e1 i ⟨q, hq, hqi⟩
            · exact fun x hx p hp => hd2.1 p (List.mem_flatten.2 ⟨x.1, List.mem_map.2 ⟨x, hx, rfl⟩, hp⟩)
            · intro x hx p hp
              have hpm : p ∈ (xs.map (·.1)).flatten := List.mem_flatten.2 ⟨x.1, List.mem_map.2 ⟨x, hx, rfl⟩, hp⟩
              rw [touched_aligned hd.1 (hal p (by simp only [List.mem_append]; exact .inr hpm))]
              intro hpi
              have := hap q hq p hpm
              simp only [Region.Apart] at this
              have := hqi.1; have := hqi.2; have := hpi.1; have := hpi.2
              omega
          · exact e3 i ⟨q, hq, hqi⟩
        · intro x hx rs hrs
          rcases List.mem_cons.1 hx with rfl | hx
          · exact e2 rs hrs
          · exact e4 x hx rs hrs

/-- C69: migrating the data of several firmware components changes nothing outside the erase blocks of their regions, whatever happens. -/
theorem migrate_all_frame (dv : Dev) (hd : Dev.Sized dv) (dst : List (List Region)) (hp : ∀ q ∈ dst.flatten, q.Proper) (m : Mem)
    (src : Option (List (List Region))) (fuel : Nat) (s s' : FS) (r : Except Err Unit)
    (h : migrateAll dv dst m src fuel s = some (r, s')) :
    ∀ i, (∀ q ∈ dst.flatten, ¬ Touched dv.block q.start q.len i) → s'.mem i = s.mem i := by
  intro i hi
  unfold migrateAll at h
  cases src with
  | none =>
    dsimp only at h
    refine migrateLoop_frame dv hd m fuel _ none s s' r ?_ h i ?_
    · intro x hx q hq
      obtain ⟨d, hd', rfl⟩ := List.mem_map.1 hx
      exact hp q (List.mem_flatten.2 ⟨d, hd', hq⟩)
    · intro x hx q hq
      obtain ⟨d, hd', rfl⟩ := List.mem_map.1 hx
      exact hi q (List.mem_flatten.2 ⟨d, hd', hq⟩)
  | some l =>
    dsimp only at h
    split at h
    · simp only [Option.some.injEq, Prod.mk.injEq] at h; rw [← h.2]
    · refine migrateLoop_frame dv hd m fuel _ none s s' r ?_ h i ?_
      · intro x hx q hq
        exact hp q (List.mem_flatten.2 ⟨x.1, (List.of_mem_zip hx).1, hq⟩)
      · intro x hx q hq
        exact hi q (List.mem_flatten.2 ⟨x.1, (List.of_mem_zip hx).1, hq⟩)

/-- C69: if migrating the data of several components succeeds, all of their read/write regions (whole erase blocks that do not overlap)
hold what the source held; if the source's regions were given, there are as many components, each with the same regions. -/
theorem migrate_all_exact_partial (dv : Dev) (hd : Dev.Sized dv) (dst : List (List Region)) (hdis : Disjoint dst.flatten)
    (hal : ∀ q ∈ dst.flatten, q.Aligned dv.block) (m : Mem) (src : Option (List (List Region)))
    (hsrc : ∀ l, src = some l → ∀ rs ∈ l, Disjoint rs) (fuel : Nat) (s s' : FS)
    (h : migrateAll dv dst m src fuel s = some (.ok (), s')) :
    (∀ i, Covered dst.flatten i → s'.mem i = m i) ∧
    (∀ l, src = some l → l.length = dst.length ∧ ∀ x ∈ dst.zip l, ∀ r, r ∈ x.1 ↔ r ∈ x.2) := by
  unfold migrateAll at h
  cases src with
  | none =>
    dsimp only at h
    have e : ((dst.map (fun d => (d, (none : Option (List Region))))).map (·.1)) = dst := by
      rw [List.map_map]; exact List.map_id' _
    refine ⟨?_, by simp⟩
    have := migrateLoop_ok dv hd m fuel _ s s' (by rw [e]; exact hdis) (by rw [e]; exact hal) (by
      intro x hx rs hrs
      obtain ⟨d, _, rfl⟩ := List.mem_map.1 hx
      simp at hrs) h
    rw [e] at this
    exact this.1
  | some l =>
    dsimp only at h
    split at h
    · simp at h
    · rename_i hl
      have hl' : dst.length = l.length := by simpa using hl
      have e : ((dst.zip (l.map some)).map (·.1)) = dst := List.map_fst_zip (by simp [hl'])
      have := migrateLoop_ok dv hd m fuel _ s s' (by rw [e]; exact hdis) (by rw [e]; exact hal) (by
        intro x hx rs hrs
        have := (List.of_mem_zip (a := x.1) (b := x.2) hx).2
        rw [hrs] at this
        simp at this
        exact hsrc l rfl rs this) h
      rw [e] at this
      refine ⟨this.1, fun l' e => ?_⟩
      cases e
      refine ⟨hl'.symm, fun x hx r => ?_⟩
      have hx' : (x.1, some x.2) ∈ dst.zip (l.map some) := by
        rw [List.zip_map_right]
        exact List.mem_map.2 ⟨x, hx, rfl⟩
      exact (this.2 _ hx' x.2 rfl r).symm

example :
    let run := fun src => (migrateAll goodDev [[⟨4, 4⟩], [⟨12, 4⟩]] (fun a => UInt8.ofNat a) src 3 ⟨fun _ => 0, 0⟩).map
      (fun r => (match r.1 with | .ok _ => true | _ => false, bytesAt r.2.mem 0 18))
    run (some [[⟨4, 4⟩], [⟨12, 4⟩]]) = some (true, [0, 0, 0, 0, 4, 5, 6, 7, 0, 0, 0, 0, 12, 13, 14, 15, 0, 0]) ∧
    run (some [[⟨4, 4⟩]]) = some (false, List.replicate 18 0) := by
  decide +kernel

/-- C69: restoring a flash from the other one. Whatever happens, an address that shares no erase block with the read-only part and is in no
image is unchanged. If it succeeds, the read-only part is as on the other flash inside the images and blank elsewhere. -/
theorem restore_exact_partial (dv : Dev) (hd : Dev.Sized dv) (m : Mem) (imgs : ImageList) (rw : List Region) (size fuel : Nat) (s s' : FS)
    (r : Except Err Unit) (hdis : Disjoint rw) (hs : size < 2 ^ 32) (hin : ∀ q ∈ rw, q.start + q.len ≤ size)
    (hfit : ∀ q ∈ imgs.regions.flatten, q.start + q.len ≤ 2 ^ 32) (h : restore dv m imgs rw size fuel s = some (r, s')) :
    (∀ i, ¬ RoBlock dv.block rw size i → ¬ Covered imgs.regions.flatten i → s'.mem i = s.mem i) ∧
    (r = .ok () → ∀ a, a < size → ¬ Covered rw a →
      (Covered imgs.regions.flatten a → s'.mem a = m a) ∧ (¬ Covered imgs.regions.flatten a → s'.mem a = 0xff)) := by
  have key : ∀ s0 : FS, s0.mem = s.mem →
      (match eraseRoLoop dv rw size fuel 0 s0 with
        | some (.ok (), s) => some (eachUntil (copyBlank dv m) imgs.regions.flatten s)
        | r => r) = some (r, s') →
      (∀ i, ¬ RoBlock dv.block rw size i → ¬ Covered imgs.regions.flatten i → s'.mem i = s.mem i) ∧
      (r = .ok () → ∀ a, a < size → ¬ Covered rw a →
        (Covered imgs.regions.flatten a → s'.mem a = m a) ∧ (¬ Covered imgs.regions.flatten a → s'.mem a = 0xff)) := by
    intro s0 hs0 h
    cases he : eraseRoLoop dv rw size fuel 0 s0 with
    | none => rw [he] at h; simp at h
    | some x =>
      obtain ⟨r1, s1⟩ := x
      rw [he] at h
      obtain ⟨e1, e2⟩ := eraseRoLoop_spec hd.1 hdis hs hin fuel 0 s0 r1 s1 (Nat.zero_le _) (by intro q hq h; omega) he
      rw [hs0] at e1
      cases r1 with
      | error e =>
        simp only [Option.some.injEq, Prod.mk.injEq] at h
        rw [← h.1, ← h.2]
        exact ⟨fun i hi _ => e1 i hi, fun h => by simp at h⟩
      | ok u =>
        simp only [Option.some.injEq] at h
        obtain ⟨c1, c2⟩ := copyAll_spec hd m imgs.regions.flatten s1 hfit
        rw [h] at c1
        obtain ⟨_, e3⟩ := e2 rfl
        refine ⟨fun i h1 h2 => (c1 i h2).trans (e1 i h1), fun hr a h1 h2 => ?_⟩
        subst hr
        have h3 := e3 a (Nat.zero_le _) h1 h2
        exact ⟨fun h4 => (c2 s' h a (.inl h3)).2 h4, fun h4 => (c1 a h4).trans h3⟩
  unfold restore at h
  cases ho : dv.out s.calls with
  | err x =>
    rw [ho] at h
    simp only [Option.some.injEq, Prod.mk.injEq] at h
    rw [← h.1, ← h.2]
    exact ⟨fun i _ _ => rfl, fun h => by simp at h⟩
  | ok => rw [ho] at h; exact key ⟨s.mem, s.calls + 1⟩ rfl h
  | short k _ => rw [ho] at h; exact key ⟨s.mem, s.calls + 1⟩ rfl h

/-- C69: restoring a flash ends, for proper regions. -/
theorem restore_ends_partial (dv : Dev) (m : Mem) (imgs : ImageList) (rw : List Region) (size fuel : Nat) (s : FS)
    (hp : ∀ r ∈ rw, r.Proper) (hf : rw.length < fuel) : restore dv m imgs rw size fuel s ≠ none := by
  have hr : remaining 0 rw < fuel := Nat.lt_of_le_of_lt (remaining_le _ _) hf
  have key : ∀ s0 : FS, (match eraseRoLoop dv rw size fuel 0 s0 with
        | some (.ok (), s) => some (eachUntil (copyBlank dv m) imgs.regions.flatten s)
        | r => r) ≠ none := by
    intro s0
    cases he : eraseRoLoop dv rw size fuel 0 s0 with
    | none => exact absurd he (eraseRoLoop_ends dv hp size fuel 0 s0 hr)
    | some x =>
      obtain ⟨r1, s1⟩ := x
      cases r1 <;> simp
  unfold restore
  cases ho : dv.out s.calls with
  | err x => simp
  | ok => exact key _
  | short k _ => exact key _

example :
    (restore goodDev (fun a => UInt8.ofNat a) (.sig [⟨[⟨1, 3⟩], ⟨[1], 1, 3⟩, [7], 1, 0⟩]) [⟨8, 4⟩] 16 3 ⟨fun _ => 0x55, 0⟩).map
      (fun r => (match r.1 with | .ok _ => true | _ => false, bytesAt r.2.mem 0 18)) =
    some (true, [0xff, 1, 2, 3, 0xff, 0xff, 0xff, 0xff, 0x55, 0x55, 0x55, 0x55, 0xff, 0xff, 0xff, 0xff, 0x55, 0x55]) := by decide +kernel

/-- C69, disagreement: without whole erase blocks, restoring the read-only part of a flash erases read/write data next to it: here a byte at
address 8, in a read/write region that starts in the middle of a block, is lost. -/
theorem restore_erases_neighbour :
    (restore goodDev (fun _ => 0) (.sig []) [⟨6, 6⟩] 16 3 ⟨fun _ => 0x55, 0⟩).map
      (fun r => (match r.1 with | .ok _ => true | _ => false, r.2.mem 6)) = some (true, 0xff) := by decide +kernel

/-- C69: restoring the read/write data of a flash that was found bad. If the regions consist of whole erase blocks, nothing outside them
changes, whatever happens; if it succeeds, the regions to be erased are blank, those to be restored are as on the other flash (or as they
were, if there is none), and the others are as they were. -/
theorem restore_read_write_exact_partial (dv : Dev) (hd : Dev.Sized dv) (m : Option Mem) (rs : List (Region × OnFailure)) :
    ∀ (s s' : FS) (r : Except Err Unit), Disjoint (rs.map (·.1)) → (∀ q ∈ rs, q.1.Aligned dv.block) → restoreRw dv m rs s = (r, s') →
    (∀ i, ¬ Covered (rs.map (·.1)) i → s'.mem i = s.mem i) ∧
    (r = .ok () → ∀ q ∈ rs, ∀ i, q.1.has i →
      (q.2 = .erase → s'.mem i = 0xff) ∧
      (∀ m', q.2 = .restore → m = some m' → s'.mem i = m' i) ∧
      (q.2 = .nothing ∨ (q.2 = .restore ∧ m = none) → s'.mem i = s.mem i)) := by
  unfold restoreRw
  induction rs with
  | nil =>
    intro s s' r _ _ h
    simp only [eachUntil, Prod.mk.injEq] at h
    rw [← h.2]
    exact ⟨fun _ _ => rfl, fun _ q hq => by simp at hq⟩
  | cons x xs ih =>
    intro s s' r hdis hal h
    have hp : x.1.Proper := hdis.1 x.1 (by simp)
    have hdis' : Disjoint (xs.map (·.1)) := ⟨fun r hr => hdis.1 r (by simp at hr ⊢; exact .inr hr), (List.pairwise_cons.1 hdis.2).2⟩
    have hap := (List.pairwise_cons.1 hdis.2).1
    obtain ⟨o1, o2⟩ := restoreRwOne_spec hd m hp (hal x (by simp)) s
    unfold eachUntil at h
    cases hv : restoreRwOne dv m x s with
    | mk r1 s1 =>
      rw [hv] at h o1 o2
      cases r1 with
      | error e =>
        simp only [Prod.mk.injEq] at h
        rw [← h.1, ← h.2]
        exact ⟨fun i hi => o1 i (fun hx => hi ⟨x.1, by simp, hx⟩), fun h => by simp at h⟩
      | ok u =>
        obtain ⟨i1, i2⟩ := ih s1 s' r hdis' (fun q hq => hal q (by simp [hq])) h
        refine ⟨fun i hi => (i1 i (fun ⟨q, hq, hqi⟩ => hi ⟨q, by simp at hq ⊢; exact .inr hq, hqi⟩)).trans
          (o1 i (fun hx => hi ⟨x.1, by simp, hx⟩)), fun hr q hq i hqi => ?_⟩
        rcases List.mem_cons.1 hq with rfl | hq
        · have h1 : s'.mem i = s1.mem i := i1 i (by
            rintro ⟨p, hp, hpi⟩
            have := hap p hp
            simp only [Region.Apart] at this
            have := hqi.1; have := hqi.2; have := hpi.1; have := hpi.2
            omega)
          have h2 := o2 s1 rfl i hqi
          rw [h1, h2]
          refine ⟨fun e => by rw [e], fun m' e1 e2 => by rw [e1, e2], ?_⟩
          rintro (e | ⟨e1, e2⟩)
          · rw [e]
          · rw [e1, e2]
        · have h1 : ¬ x.1.has i := by
            intro hxi
            have := hap q.1 (List.mem_map.2 ⟨q, hq, rfl⟩)
            simp only [Region.Apart] at this
            have := hqi.1; have := hqi.2; have := hxi.1; have := hxi.2
            omega
          obtain ⟨a1, a2, a3⟩ := i2 hr q hq i hqi
          exact ⟨a1, a2, fun e => (a3 e).trans (o1 i h1)⟩

example :
    let r := restoreRw goodDev (some (fun a => UInt8.ofNat a)) [(⟨4, 4⟩, .restore), (⟨8, 4⟩, .erase), (⟨12, 4⟩, .nothing)] ⟨fun _ => 0x55, 0⟩
    (match r.1 with | .ok _ => true | _ => false) = true ∧
    bytesAt r.2.mem 0 18 = [0x55, 0x55, 0x55, 0x55, 4, 5, 6, 7, 0xff, 0xff, 0xff, 0xff, 0x55, 0x55, 0x55, 0x55, 0x55, 0x55] := by
  decide +kernel

example : Disjoint [⟨4, 4⟩, ⟨8, 4⟩, ⟨12, 4⟩] ∧ Region.Aligned goodDev.block ⟨8, 4⟩ := by
  simp [Disjoint, Region.Proper, Region.Apart, Region.Aligned, goodDev]

end Verif.HostFw
