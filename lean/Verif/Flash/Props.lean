import Verif.Flash.Spec
/-! C27, C28 and C30: flash regions and updates. -/
namespace Verif.Flash

/-! ### C28: the overlap check -/

theorem sub_mod_eq_iff (a b n : Nat) (hn : 0 < n) : a - a % n = b - b % n ↔ a / n = b / n := by
  have h1 := Nat.div_add_mod a n
  have h2 := Nat.div_add_mod b n
  constructor
  · intro h
    have : n * (a / n) = n * (b / n) := by omega
    exact Nat.eq_of_mul_eq_mul_left hn this
  · intro h
    rw [h] at h1
    omega

theorem div_eq_of_between {a b c n : Nat} (h1 : a ≤ b) (h2 : b ≤ c) (h : a / n = c / n) : a / n = b / n ∧ b / n = c / n := by
  have x := Nat.div_le_div_right (c := n) h1
  have y := Nat.div_le_div_right (c := n) h2
  omega

/-- C28: the check accepts two ranges exactly if they have no erase block in common (ranges inside the 32-bit address space). -/
theorem check_copy_exact (dest src len block : Nat) (hb : 0 < block) (hl : 0 < len) (hd : dest + len ≤ 2 ^ 32)
    (hs : src + len ≤ 2 ^ 32) : checkCopyRegion dest src len block = .ok ↔ ¬ ShareBlock block dest src len := by
  unfold checkCopyRegion
  simp only [sub_mod_eq_iff _ _ _ hb]
  have e1 : u32 (dest + len + (2 ^ 32 - 1)) = dest + len - 1 := by unfold u32; omega
  have e2 : u32 (src + len + (2 ^ 32 - 1)) = src + len - 1 := by unfold u32; omega
  rw [e1, e2]
  split
  · rename_i h
    simp only [reduceCtorEq, false_iff, Classical.not_not]
    exact ⟨0, 0, hl, hl, by simpa using h.symm⟩
  · rename_i hne
    split
    · rename_i hgt
      split
      · rename_i hov
        simp only [reduceCtorEq, false_iff, Classical.not_not]
        exact ⟨src - dest, 0, by omega, hl, by rw [show dest + (src - dest) = src + 0 by omega]⟩
      · split
        · rename_i hov heq
          simp only [reduceCtorEq, false_iff, Classical.not_not]
          exact ⟨len - 1, 0, by omega, hl, by rw [show dest + (len - 1) = dest + len - 1 by omega]; simpa using heq⟩
        · rename_i hov hne2
          simp only [true_iff]
          rintro ⟨i, j, hi, hj, h⟩
          have x := div_eq_of_between (a := dest + i) (b := dest + len - 1) (c := src + j) (n := block) (by omega) (by omega) h
          have y := div_eq_of_between (a := dest + len - 1) (b := src) (c := src + j) (n := block) (by omega) (by omega) x.2
          exact hne2 y.1
    · split
      · rename_i hov
        simp only [reduceCtorEq, false_iff, Classical.not_not]
        exact ⟨0, dest - src, hl, by omega, by rw [show src + (dest - src) = dest + 0 by omega]⟩
      · split
        · rename_i hov heq
          simp only [reduceCtorEq, false_iff, Classical.not_not]
          exact ⟨0, len - 1, hl, by omega, by rw [show src + (len - 1) = src + len - 1 by omega]; simpa using heq.symm⟩
        · rename_i hov hne2
          simp only [true_iff]
          rintro ⟨i, j, hi, hj, h⟩
          have x := div_eq_of_between (a := src + j) (b := src + len - 1) (c := dest + i) (n := block) (by omega) (by omega) h.symm
          have y := div_eq_of_between (a := src + len - 1) (b := dest) (c := dest + i) (n := block) (by omega) (by omega) x.2
          exact hne2 y.1

/-- The condition on the address space is needed: the end of the range is computed modulo 2^32. -/
theorem check_copy_wraps : checkCopyRegion 0x10000 0x20000 0xffff0001 0x1000 = .ok ∧ ShareBlock 0x1000 0x10000 0x20000 0xffff0001 := by
  refine ⟨by decide, 0x10000, 0, by decide, by decide, by decide⟩

example : checkCopyRegion 0x10000 0x20000 0x10000 0x1000 = .ok ∧ checkCopyRegion 0x10000 0x20000 0x10001 0x1000 = .overlap ∧
    checkCopyRegion 0x10000 0x20800 0x10001 0x1000 = .sameBlock ∧ checkCopyRegion 0x20000 0x10000 0x10000 0x1000 = .ok := by decide

theorem ShareBlock.of_touched {block a b len i : Nat} (ht : Touched block a len i) (h1 : b ≤ i) (h2 : i < b + len) :
    ShareBlock block a b len := by
  obtain ⟨j, x, y, z⟩ := ht
  exact ⟨j - a, i - b, by omega, by omega, by rw [show a + (j - a) = j by omega, show b + (i - b) = i by omega, z]⟩

/-! ### C27: copying -/

theorem ff_and (b : UInt8) : 0xff &&& b = b := by
  have : (0xff : UInt8) = -1 := rfl
  rw [this, UInt8.neg_one_and]


/-- What the erase functions touch. -/
theorem eraseFor_spec (dv : Dev) (er : EraseFn) (hs : 0 < er.size dv) (s : FS) (a len : Nat) (hf : a + len ≤ 2 ^ 32) :
    (∀ i, ¬ Touched (er.size dv) a len i → (eraseFor dv er s a len).2.mem i = s.mem i) ∧
    ((eraseFor dv er s a len).1 = .ok → (er = .none ∧ (eraseFor dv er s a len).2.mem = s.mem) ∨
      (er ≠ .none ∧ ∀ i, Touched (er.size dv) a len i → (eraseFor dv er s a len).2.mem i = 0xff)) := by
  unfold eraseFor
  split
  · rename_i h
    exact ⟨fun _ _ => rfl, fun _ => .inl ⟨h, rfl⟩⟩
  · rename_i h
    obtain ⟨h1, h2⟩ := eraseVerify_spec dv (er.size dv) hs s a len hf
    exact ⟨h1, fun hok => .inr ⟨h, h2 hok⟩⟩

theorem copyPages_spec (dv : Dev) (src : Source) (verify : Bool) (hp : 0 < dv.page) (s : FS) (da sa len : Nat) (hda : da + len ≤ 2 ^ 32)
    (hsa : sa + len ≤ 2 ^ 32) (hdis : src = .same → da + len ≤ sa ∨ sa + len ≤ da) :
    (∀ i, i < da ∨ da + len ≤ i → (copyPages dv src verify s da sa len).2.mem i = s.mem i) ∧
    ((copyPages dv src verify s da sa len).1 = .ok → ∀ i, i < len →
      (copyPages dv src verify s da sa len).2.mem (da + i) = s.mem (da + i) &&& src.mem s (sa + i) ∧
      (verify = true → (copyPages dv src verify s da sa len).2.mem (da + i) = src.mem s (sa + i))) := by
  unfold copyPages
  split
  · exact ⟨fun _ _ => rfl, fun h => by cases h⟩
  · split
    · exact ⟨fun _ _ => rfl, fun h => by cases h⟩
    · have := copyLoop_spec dv src verify hp len len (Nat.le_refl _) { s with calls := s.calls + 1 } da sa (da % dv.page)
        (Nat.mod_lt _ hp) hda hsa hdis
      cases src <;> exact this

theorem checkSame_spec (dv : Dev) (er : EraseFn) (src : Source) (s : FS) (da sa len : Nat) :
    (checkSame dv er src s da sa len).2.mem = s.mem ∧
    ((checkSame dv er src s da sa len).1 = .ok → src = .same → checkCopyRegion da sa len (er.checkSize dv) = .ok) := by
  unfold checkSame
  split
  · exact ⟨rfl, fun _ h => by cases h⟩
  · split
    · exact ⟨rfl, fun h => by cases h⟩
    · exact ⟨rfl, fun h _ => h⟩

theorem disjoint_of_not_share {block a b len : Nat} (hl : 0 < len) (h : ¬ ShareBlock block a b len) : a + len ≤ b ∨ b + len ≤ a := by
  apply Classical.byContradiction
  intro hc
  by_cases hab : a ≤ b
  · exact h ⟨b - a, 0, by omega, hl, by rw [show a + (b - a) = b + 0 by omega]⟩
  · exact h ⟨0, a - b, hl, by omega, by rw [show b + (a - b) = a + 0 by omega]⟩

/-- C27: a copy (within one device or between two, with block or sector erase or to a region expected to be blank, verified or not, for
every page, sector and block size and every pattern of driver failures)
* never changes a byte outside the erase blocks of the destination, or outside the destination if it does not erase;
* if it succeeds, leaves the destination equal to what the source held before the copy. If it neither erases nor verifies, this needs the
  destination to have been blank. -/
theorem copy_exact (dv : Dev) (er : EraseFn) (src : Source) (verify : Bool) (s : FS) (da sa len : Nat)
    (hsz : 0 < dv.block ∧ 0 < dv.sector ∧ 0 < dv.page) (hda : da + len ≤ 2 ^ 32) (hsa : sa + len ≤ 2 ^ 32) :
    (∀ i, ¬ Touched (er.size dv) da len i → (copyRegion dv er src verify s da sa len).2.mem i = s.mem i) ∧
    ((copyRegion dv er src verify s da sa len).1 = .ok →
      (er ≠ .none ∨ verify = true ∨ ∀ i, i < len → s.mem (da + i) = 0xff) →
      ∀ i, i < len → (copyRegion dv er src verify s da sa len).2.mem (da + i) = src.mem s (sa + i)) := by
  obtain ⟨hb, hse, hp⟩ := hsz
  have hes : 0 < er.size dv := by cases er <;> simp [EraseFn.size] <;> assumption
  have hcs : 0 < er.checkSize dv := by cases er <;> simp [EraseFn.checkSize] <;> assumption
  unfold copyRegion
  split
  · rename_i h; subst h
    exact ⟨fun _ _ => rfl, fun _ _ i hi => by omega⟩
  rename_i hl
  obtain ⟨c1, c2⟩ := checkSame_spec dv er src s da sa len
  cases hc : checkSame dv er src s da sa len with
  | mk st s1 =>
    rw [hc] at c1 c2
    simp only at c1 c2
    have fr1 : ∀ i, s1.mem i = s.mem i := fun i => by rw [c1]
    cases st
    case ok =>
      have hns : src = .same → ¬ ShareBlock (er.checkSize dv) da sa len := fun h =>
        (check_copy_exact da sa len _ hcs (by omega) hda hsa).mp (c2 rfl h)
      obtain ⟨e1, e2⟩ := eraseFor_spec dv er hes s1 da len hda
      simp only
      cases he : eraseFor dv er s1 da len with
      | mk st2 s2 =>
        rw [he] at e1 e2
        have fr2 : ∀ i, ¬ Touched (er.size dv) da len i → s2.mem i = s.mem i := fun i hi => by rw [← c1]; exact e1 i hi
        cases st2
        case ok =>
          obtain ⟨p1, p2⟩ := copyPages_spec dv src verify hp s2 da sa len hda hsa (fun h => disjoint_of_not_share (by omega) (hns h))
          simp only
          refine ⟨fun i hi => ?_, fun hok hcond i hi => ?_⟩
          · rw [p1 i (by
              apply Classical.byContradiction
              intro hc
              exact hi (.of_mem (by omega) (by omega))), fr2 i hi]
          · have hsrc : src.mem s2 (sa + i) = src.mem s (sa + i) := by
              cases src with
              | other m => rfl
              | same =>
                show s2.mem _ = s.mem _
                apply fr2
                intro ht
                have : er = .none ∨ er ≠ .none := Classical.em _
                rcases this with h | h
                · subst h
                  have := touched_one.mp ht
                  have hd := disjoint_of_not_share (by omega) (hns rfl)
                  omega
                · have hsame : er.size dv = er.checkSize dv := by cases er <;> simp_all [EraseFn.size, EraseFn.checkSize]
                  rw [hsame] at ht
                  exact hns rfl (ShareBlock.of_touched ht (by omega) (by omega))
            obtain ⟨q1, q2⟩ := p2 hok i hi
            by_cases hv : verify = true
            · rw [q2 hv, hsrc]
            · have hblank : s2.mem (da + i) = 0xff := by
                rcases e2 rfl with ⟨hn, hm⟩ | ⟨_, hm⟩
                · rw [hm, c1]
                  rcases hcond with h | h | h
                  · exact absurd hn h
                  · exact absurd h hv
                  · exact h i hi
                · exact hm _ (.of_mem (by omega) (by omega))
              rw [q1, hblank, hsrc]
              exact ff_and _
        all_goals exact ⟨fr2, fun h => by cases h⟩
    all_goals exact ⟨fun i _ => fr1 i, fun h => by cases h⟩

/-- A device with 64 byte blocks, 16 byte sectors and 8 byte pages that never fails. -/
def demoDev : Dev := ⟨64, 16, 8, fun _ => .ok⟩

example : (copyRegion demoDev .sector .same true ⟨fun i => UInt8.ofNat (3 * i), 0⟩ 37 5 20).1 = .ok ∧
    bytesAt (copyRegion demoDev .sector .same true ⟨fun i => UInt8.ofNat (3 * i), 0⟩ 37 5 20).2.mem 30 40 =
      (bytesAt (fun i => UInt8.ofNat (3 * i)) 30 2 ++ List.replicate 5 0xff ++ bytesAt (fun i => UInt8.ofNat (3 * i)) 5 20 ++
        List.replicate 7 0xff ++ bytesAt (fun i => UInt8.ofNat (3 * i)) 64 6) ∧
    (copyRegion demoDev .sector .same true ⟨fun i => UInt8.ofNat (3 * i), 0⟩ 37 33 20).1 = .sameBlock := by decide +kernel

/-- C27: programming with erase or on blank flash, or with verification, leaves exactly the data; nothing outside the erase blocks changes. -/
theorem program_exact (dv : Dev) (er : EraseFn) (s : FS) (a : Nat) (d : Bytes) (hes : 0 < er.size dv) (hf : a + d.length ≤ 2 ^ 32) :
    (∀ i, ¬ Touched (er.size dv) a d.length i → (programData dv er s a d).2.mem i = s.mem i) ∧
    ((programData dv er s a d).1 = .ok → (er ≠ .none ∨ ∀ i, i < d.length → s.mem (a + i) = 0xff) →
      bytesAt (programData dv er s a d).2.mem a d.length = d) := by
  unfold programData
  split
  · rename_i h; subst h
    refine ⟨fun i hi => writeAll_frame dv s a d i (by rw [EraseFn.size, touched_one] at hi; omega), fun hok hc => ?_⟩
    cases hw : writeAll dv s a d with
    | mk st s1 =>
      rw [hw] at hok
      simp only at hok
      subst hok
      apply bytesAt_eq_self
      intro i hi
      rw [writeAll_ok hw, program_in hi, hc.resolve_left (fun h => h rfl) i hi, ff_and]
  · obtain ⟨e1, e2⟩ := eraseRegion_spec dv (er.size dv) hes s a d.length hf
    cases he : eraseRegion dv (er.size dv) s a d.length with
    | mk st s1 =>
      rw [he] at e1 e2
      cases st
      case ok =>
        simp only
        refine ⟨fun i hi => ?_, fun hok _ => ?_⟩
        · rw [writeAll_frame dv s1 a d i (by
            apply Classical.byContradiction
            intro hc
            exact hi (.of_mem (by omega) (by omega)))]
          exact e1 i hi
        · cases hw : writeAll dv s1 a d with
          | mk st2 s2 =>
            rw [hw] at hok
            simp only at hok
            subst hok
            apply bytesAt_eq_self
            intro i hi
            rw [writeAll_ok hw, program_in hi]
            have := e2 rfl (a + i) (.of_mem (by omega) (by omega))
            simp only at this
            rw [this, ff_and]
      all_goals exact ⟨e1, fun h => by cases h⟩

/-- C27: a program-and-verify that succeeds leaves the data in flash even if the flash was not blank or the erase was not done. -/
theorem program_verify_exact (dv : Dev) (er : EraseFn) (s : FS) (a : Nat) (d : Bytes) (hes : 0 < er.size dv)
    (hf : a + d.length ≤ 2 ^ 32) :
    (∀ i, ¬ Touched (er.size dv) a d.length i → (programVerify dv er s a d).2.mem i = s.mem i) ∧
    ((programVerify dv er s a d).1 = .ok → bytesAt (programVerify dv er s a d).2.mem a d.length = d) := by
  obtain ⟨p1, _⟩ := program_exact dv er s a d hes hf
  unfold programVerify
  cases hp : programData dv er s a d with
  | mk st s1 =>
    rw [hp] at p1
    cases st
    case ok =>
      obtain ⟨v1, v2⟩ := verifyData_spec dv s1 a d hf
      simp only
      rw [v1]
      exact ⟨p1, fun h => bytesAt_eq_self (v2 h)⟩
    all_goals exact ⟨p1, fun h => by cases h⟩

/-- C27: erasing and verifying a region changes only the erase blocks that contain a byte of it, and success means that all of them are
blank. -/
theorem erase_exact (dv : Dev) (size : Nat) (hs : 0 < size) (s : FS) (a len : Nat) (hf : a + len ≤ 2 ^ 32) :
    (∀ i, ¬ Touched size a len i → (eraseVerify dv size s a len).2.mem i = s.mem i) ∧
    ((eraseVerify dv size s a len).1 = .ok → ∀ i, Touched size a len i → (eraseVerify dv size s a len).2.mem i = 0xff) :=
  eraseVerify_spec dv size hs s a len hf

example : (programVerify demoDev .sector ⟨fun _ => 0, 0⟩ 14 [1, 2, 3]).1 = .ok ∧
    (programVerify demoDev .none ⟨fun _ => 0, 0⟩ 14 [1, 2, 3]).1 = .mismatch ∧
    bytesAt (programVerify demoDev .sector ⟨fun _ => 0, 0⟩ 14 [1, 2, 3]).2.mem 12 6 = [0xff, 0xff, 1, 2, 3, 0xff] := by decide +kernel

/-- C27: comparing two regions changes nothing, succeeds only if they are equal and reports a difference only if there is one. -/
theorem verify_copy_exact (dv : Dev) (src : Source) : ∀ (k len : Nat), len ≤ k → ∀ (s : FS) (a1 a2 : Nat), a1 + len ≤ 2 ^ 32 →
    a2 + len ≤ 2 ^ 32 → (verifyCopy dv src s a1 a2 len).2.mem = s.mem ∧
    ((verifyCopy dv src s a1 a2 len).1 = .ok → bytesAt (src.mem s) a1 len = bytesAt s.mem a2 len) ∧
    ((verifyCopy dv src s a1 a2 len).1 = .mismatch → bytesAt (src.mem s) a1 len ≠ bytesAt s.mem a2 len) ∧
    ((verifyCopy dv src s a1 a2 len).1 = .ok ∨ (verifyCopy dv src s a1 a2 len).1 = .mismatch ∨
      (verifyCopy dv src s a1 a2 len).1 = .flash) := by
  have hsm : ∀ {s s' : FS}, s'.mem = s.mem → src.mem s' = src.mem s := by
    intro s s' h; cases src with
    | same => exact h
    | other m => rfl
  intro k
  induction k with
  | zero =>
    intro len hk s a1 a2 _ _
    rw [verifyCopy, dif_pos (by omega)]
    have : len = 0 := by omega
    subst this
    exact ⟨rfl, fun _ => rfl, fun h => (by cases h), .inl rfl⟩
  | succ k ih =>
    intro len hk s a1 a2 h1 h2
    by_cases hl : len = 0
    · subst hl
      rw [verifyCopy, dif_pos rfl]
      exact ⟨rfl, fun _ => rfl, fun h => (by cases h), .inl rfl⟩
    · rw [verifyCopy, dif_neg hl]
      have hn : chunk len verifyBlock ≤ len ∧ 0 < chunk len verifyBlock := by
        rw [chunk_eq]; simp only [verifyBlock]; omega
      simp only
      generalize chunk len verifyBlock = n at hn
      have hrm := readSource_mem dv src s a1 n
      cases hr : readSource dv src s a1 n with
      | mk o s1 =>
        rw [hr] at hrm
        cases o with
        | none => exact ⟨hrm, fun h => (by cases h), fun h => (by cases h), .inr (.inr rfl)⟩
        | some d =>
          obtain ⟨hd, hm⟩ := readSource_some hr
          have hdl : d.length = n := by rw [hd]; simp
          obtain ⟨v1, v2, v3, v4⟩ := checkLoop_spec dv d.length d.length (Nat.le_refl _) s1 a2 (fun i => d.getD i 0) (by omega)
          simp only [verifyData]
          have hsplit : bytesAt (src.mem s) a1 len = d ++ bytesAt (src.mem s) (a1 + n) (len - n) := by
            rw [hd, ← bytesAt_add]; congr 1; omega
          have hsplit2 : bytesAt s.mem a2 len = bytesAt s.mem a2 n ++ bytesAt s.mem (a2 + n) (len - n) := by
            rw [← bytesAt_add]; congr 1; omega
          cases hc : checkLoop dv s1 a2 (fun i => d.getD i 0) d.length with
          | mk st s2 =>
            rw [hc] at v1 v2 v3 v4
            simp only at v1 v2 v3 v4
            cases st
            case ok =>
              have hfirst : bytesAt s.mem a2 n = d := by
                rw [← hdl, ← hm]; exact bytesAt_eq_self (v2 rfl)
              by_cases he : len = n
              · subst he
                simp only [Nat.sub_self]
                rw [verifyCopy, dif_pos rfl]
                refine ⟨by rw [v1, hm], fun _ => by rw [hfirst, ← hd], fun h => (by cases h), .inl rfl⟩
              · simp only
                rw [u32_id (by omega), u32_id (by omega)]
                obtain ⟨i1, i2, i3, i4⟩ := ih (len - n) (by omega) s2 (a1 + n) (a2 + n) (by omega) (by omega)
                have hm2 : s2.mem = s.mem := by rw [v1, hm]
                rw [hm2, hsm hm2] at i2 i3
                refine ⟨by rw [i1, hm2], fun h => by rw [hsplit, hsplit2, hfirst, i2 h], fun h => ?_, i4⟩
                rw [hsplit, hsplit2, hfirst]
                intro hc
                exact i3 h (List.append_cancel_left hc)
            case mismatch =>
              refine ⟨by rw [v1, hm], fun h => (by cases h), fun _ => ?_, .inr (.inl rfl)⟩
              obtain ⟨i, hi, hx⟩ := v3 rfl
              intro hc
              rw [hsplit, hsplit2] at hc
              have hd2 := (List.append_inj hc (by simp [hdl])).1
              apply hx
              rw [hd2, bytesAt_getD _ _ _ _ _ (by omega), hm]
            case flash => exact ⟨by rw [v1, hm], fun h => (by cases h), fun h => (by cases h), .inr (.inr rfl)⟩
            all_goals simp at v4

example : (verifyCopy demoDev .same ⟨fun i => UInt8.ofNat (i % 8), 0⟩ 3 11 20).1 = .ok ∧
    (verifyCopy demoDev .same ⟨fun i => UInt8.ofNat (i % 8), 0⟩ 3 12 20).1 = .mismatch := by decide +kernel

/-- C27: hashing a list of regions feeds the hash engine exactly the contents of the regions, in order, and changes nothing. -/
theorem hashLoop_spec (dv : Dev) (fail : Nat → Bool) : ∀ (k len : Nat), len ≤ k → ∀ (s : FS) (acc : Bytes) (a : Nat), a + len ≤ 2 ^ 32 →
    (hashLoop dv fail s acc a len).2.2.mem = s.mem ∧
    ((hashLoop dv fail s acc a len).1 = .ok → (hashLoop dv fail s acc a len).2.1 = acc ++ bytesAt s.mem a len) := by
  intro k
  induction k with
  | zero =>
    intro len hk s acc a _
    rw [hashLoop, dif_pos (by omega)]
    have : len = 0 := by omega
    subst this
    exact ⟨rfl, fun _ => by simp [bytesAt]⟩
  | succ k ih =>
    intro len hk s acc a hf
    by_cases hl : len = 0
    · subst hl
      rw [hashLoop, dif_pos rfl]
      exact ⟨rfl, fun _ => by simp [bytesAt]⟩
    · rw [hashLoop, dif_neg hl]
      have hn : chunk len verifyBlock ≤ len ∧ 0 < chunk len verifyBlock := by
        rw [chunk_eq]; simp only [verifyBlock]; omega
      simp only
      generalize chunk len verifyBlock = n at hn
      cases hr : read dv s a n with
      | mk o s1 =>
        cases o with
        | none => exact ⟨read_none hr, fun h => by cases h⟩
        | some d =>
          obtain ⟨hd, hm⟩ := read_some hr
          simp only
          split
          · exact ⟨hm, fun h => by cases h⟩
          · by_cases he : len = n
            · subst he
              rw [Nat.sub_self, hashLoop, dif_pos rfl]
              exact ⟨hm, fun _ => by rw [hd]⟩
            · rw [u32_id (by omega)]
              obtain ⟨i1, i2⟩ := ih (len - n) (by omega) s1 (acc ++ d) (a + n) (by omega)
              refine ⟨by rw [i1, hm], fun h => ?_⟩
              rw [i2 h, hm, hd, List.append_assoc, ← bytesAt_add]
              congr 2; omega

theorem hash_regions_exact (dv : Dev) (fail : Nat → Bool) (off : Nat) (regions : List (Nat × Nat)) :
    ∀ (s : FS) (acc : Bytes), (∀ r ∈ regions, r.1 + off + r.2 ≤ 2 ^ 32 ∧ r.1 + off < 2 ^ 32) →
    (hashRegions dv fail off s acc regions).2.2.mem = s.mem ∧
    ((hashRegions dv fail off s acc regions).1 = .ok → (hashRegions dv fail off s acc regions).2.1 =
      acc ++ (regions.map (fun r => bytesAt s.mem (r.1 + off) r.2)).flatten) := by
  induction regions with
  | nil => intro s acc _; exact ⟨rfl, fun _ => by simp [hashRegions]⟩
  | cons r rs ih =>
    intro s acc h
    obtain ⟨a, len⟩ := r
    have h0 := h (a, len) (by simp)
    simp only at h0
    obtain ⟨l1, l2⟩ := hashLoop_spec dv fail len len (Nat.le_refl _) s acc (u32 (a + off)) (by rw [u32_id (by omega)]; omega)
    rw [u32_id (by omega)] at l1 l2
    unfold hashRegions
    rw [u32_id (by omega)]
    cases hh : hashLoop dv fail s acc (a + off) len with
    | mk st r =>
      obtain ⟨acc1, s1⟩ := r
      rw [hh] at l1 l2
      simp only at l1 l2
      cases st
      case ok =>
        obtain ⟨i1, i2⟩ := ih s1 acc1 (fun r hr => h r (List.mem_cons_of_mem _ hr))
        simp only
        refine ⟨by rw [i1, l1], fun hok => ?_⟩
        rw [i2 hok, l1, l2 rfl]
        simp
      all_goals exact ⟨l1, fun h => by cases h⟩

example : hashRegions demoDev (fun _ => false) 2 ⟨fun i => UInt8.ofNat i, 0⟩ [9] [(1, 3), (10, 0), (20, 2)] =
    (.ok, [9, 3, 4, 5, 22, 23], (hashRegions demoDev (fun _ => false) 2 ⟨fun i => UInt8.ofNat i, 0⟩ [9] [(1, 3), (10, 0), (20, 2)]).2.2) := by
  simp [hashRegions, hashLoop, read, demoDev, chunk, verifyBlock, u32, bytesAt]
  decide

/-! ### C30: the updater -/

theorem prepare_spec (dv : Dev) (u : Updater) (s : FS) (len eraseLen : Nat) (he : 0 < u.eraseSize) (hle : len ≤ u.maxSize → eraseLen ≤ u.maxSize)
    (hfit : u.base + u.maxSize ≤ 2 ^ 32) :
    (∀ i, ¬ Touched u.eraseSize u.base eraseLen i → (prepare dv u s len eraseLen).2.2.mem i = s.mem i) ∧
    ((prepare dv u s len eraseLen).1 ≠ .ok → (prepare dv u s len eraseLen).2.1 = u) ∧
    ((prepare dv u s len eraseLen).1 = .ok → len ≤ u.maxSize ∧
      (prepare dv u s len eraseLen).2.1 = { u with updateSize := len, writeOffset := 0 } ∧
      ∀ i, Touched u.eraseSize u.base eraseLen i → (prepare dv u s len eraseLen).2.2.mem i = 0xff) := by
  unfold prepare
  split
  · exact ⟨fun _ _ => rfl, fun _ => rfl, fun h => by cases h⟩
  · rename_i hl
    have hel := hle (by omega)
    have key : (∀ i, ¬ Touched u.eraseSize u.base eraseLen i → (updaterErase dv u s eraseLen).2.mem i = s.mem i) ∧
        ((updaterErase dv u s eraseLen).1 = .ok →
          ∀ i, Touched u.eraseSize u.base eraseLen i → (updaterErase dv u s eraseLen).2.mem i = 0xff) := by
      unfold updaterErase
      split
      · exact eraseVerify_spec dv u.eraseSize he s u.base eraseLen (by omega)
      · rename_i h
        have : eraseLen = 0 := by omega
        subst this
        exact ⟨fun _ _ => rfl, fun _ i ⟨j, h1, h2, _⟩ => by omega⟩
    cases hu : updaterErase dv u s eraseLen with
    | mk st s1 =>
      rw [hu] at key
      cases st
      case ok => exact ⟨key.1, fun h => (h rfl).elim, fun _ => ⟨by omega, rfl, key.2 rfl⟩⟩
      all_goals exact ⟨key.1, fun _ => rfl, fun h => by cases h⟩

theorem write_count {dv : Dev} {s s1 : FS} {a n : Nat} {d : Bytes} (h : write dv s a d = (some n, s1)) : n ≤ d.length := by
  unfold write at h
  split at h <;> (cases h; try simp) <;> omega

theorem writeUpdate_spec (w : Nat) (dv : Dev) (u : Updater) (s : FS) (d : Bytes) (hw : u.writeOffset + d.length < 2 ^ w)
    (hfit : u.base + u.maxSize < 2 ^ 32) :
    (∀ i, i < u.base + u.writeOffset ∨ u.base + u.maxSize ≤ i → (writeUpdate w dv u s d).2.2.mem i = s.mem i) ∧
    (∃ n, n ≤ d.length ∧ (writeUpdate w dv u s d).2.1 = { u with updateSize := u.updateSize - n, writeOffset := u.writeOffset + n } ∧
      (n ≠ 0 → u.writeOffset + d.length ≤ u.maxSize)) ∧
    ((writeUpdate w dv u s d).1 = .ok → u.writeOffset + d.length ≤ u.maxSize ∧
      (writeUpdate w dv u s d).2.1 = { u with updateSize := u.updateSize - d.length, writeOffset := u.writeOffset + d.length } ∧
      (writeUpdate w dv u s d).2.2.mem = program s.mem (u.base + u.writeOffset) d) := by
  have e0 : ∃ n, n ≤ d.length ∧ u = { u with updateSize := u.updateSize - (n : Nat), writeOffset := u.writeOffset + n } ∧
      (n ≠ 0 → u.writeOffset + d.length ≤ u.maxSize) := ⟨0, by omega, by simp, fun h => (h rfl).elim⟩
  unfold writeUpdate
  rw [Nat.mod_eq_of_lt hw]
  split
  · exact ⟨fun _ _ => rfl, e0, fun h => by cases h⟩
  · rename_i hl
    rw [u32_id (by omega)]
    have hfr := write_frame dv s (u.base + u.writeOffset) d
    cases hwr : write dv s (u.base + u.writeOffset) d with
    | mk o s1 =>
      rw [hwr] at hfr
      cases o with
      | none => exact ⟨fun i hi => hfr i (by omega), e0, fun h => by cases h⟩
      | some n =>
        have hn := write_count hwr
        simp only
        rw [Nat.mod_eq_of_lt (by omega)]
        refine ⟨fun i hi => hfr i (by omega), ⟨n, hn, rfl, fun _ => by omega⟩, fun h => ?_⟩
        have hnd : n = d.length := by
          apply Classical.byContradiction
          intro hc
          rw [if_neg hc] at h
          cases h
        subst hnd
        exact ⟨by omega, rfl, (write_some hwr).2.2 rfl⟩

/-- C30: for every history of prepares, writes and offsets on an updater for the region `[base, base + size)`, whatever the flash driver
does:
* the region still managed by the updater is the rest of the original region;
* no byte outside the erase blocks of the region has changed;
* the bytes written and the bytes remaining add up to the prepared length. -/
theorem updater_confined (w : Nat) (dv : Dev) (base size eraseSize : Nat) (m : Mem) (u : Updater) (s : FS) (p : Nat)
    (he : 0 < eraseSize) (hfit : base + size < 2 ^ 32) (hw : 32 ≤ w) (h : UpdReach w dv base size eraseSize m u s p) :
    (base ≤ u.base ∧ u.base + u.maxSize = base + size) ∧ (∀ i, ¬ Touched eraseSize base size i → s.mem i = m i) ∧
    u.updateSize + u.writeOffset = p ∧ p ≤ size ∧ u.writeOffset ≤ size := by
  have hpow : 2 ^ 32 ≤ 2 ^ w := Nat.pow_le_pow_right (by omega) hw
  suffices h2 : (base ≤ u.base ∧ u.base + u.maxSize = base + size) ∧ (∀ i, ¬ Touched eraseSize base size i → s.mem i = m i) ∧
      u.updateSize + u.writeOffset = p ∧ p ≤ size ∧ u.writeOffset ≤ size ∧ u.eraseSize = eraseSize by
    obtain ⟨a, b, c, d, e, _⟩ := h2
    exact ⟨a, b, c, d, e⟩
  induction h with
  | init => exact ⟨⟨Nat.le_refl _, rfl⟩, fun _ _ => rfl, rfl, Nat.zero_le _, Nat.zero_le _, rfl⟩
  | prep u u' s s' p op len st _ hop hst ih =>
    obtain ⟨⟨i1, i2⟩, i3, i4, i5, i6, i7⟩ := ih
    obtain ⟨el, hstep, hel⟩ : ∃ el, updStep w dv u s op = prepare dv u s len el ∧ (len ≤ u.maxSize → el ≤ u.maxSize) := by
      rcases hop with h | h <;> subst h
      · exact ⟨len, rfl, fun h => h⟩
      · exact ⟨u.maxSize, rfl, fun _ => Nat.le_refl _⟩
    obtain ⟨p1, p2, p3⟩ := prepare_spec dv u s len el (by omega) hel (by omega)
    rw [← hstep, hst] at p1 p2 p3
    simp only at p1 p2 p3
    have hfr : ∀ i, ¬ Touched eraseSize base size i → s'.mem i = m i := by
      intro i hi
      by_cases hle : len ≤ u.maxSize
      · rw [p1 i (fun ht => hi (by rw [i7] at ht; exact ht.mono (by omega) (by have := hel hle; omega))), i3 i hi]
      · have : s' = s := by
          have := hstep ▸ hst
          unfold prepare at this
          rw [if_pos (by omega)] at this
          cases this; rfl
        rw [this, i3 i hi]
    split
    · rename_i hok
      obtain ⟨q1, q2, _⟩ := p3 hok
      subst q2
      exact ⟨⟨i1, i2⟩, hfr, by simp, by omega, Nat.zero_le _, i7⟩
    · rename_i hok
      have := p2 hok
      subst this
      exact ⟨⟨i1, i2⟩, hfr, i4, i5, i6, i7⟩
  | data u u' s s' p d st _ hd hst ih =>
    obtain ⟨⟨i1, i2⟩, i3, i4, i5, i6, i7⟩ := ih
    obtain ⟨w1, ⟨n, n1, n2, n3⟩, _⟩ := writeUpdate_spec w dv u s d (by omega) (by omega)
    have hst' : writeUpdate w dv u s d = (st, u', s') := hst
    rw [hst'] at w1 n2
    simp only at w1 n2
    subst n2
    refine ⟨⟨i1, i2⟩, fun i hi => ?_, by simp only; omega, i5, ?_, i7⟩
    · rw [w1 i (by
        apply Classical.byContradiction
        intro hc
        exact hi (.of_mem (by omega) (by omega))), i3 i hi]
    · simp only
      by_cases h0 : n = 0
      · omega
      · have := n3 h0; omega
  | offset u u' s s' p n st _ hn hst ih =>
    obtain ⟨⟨i1, i2⟩, i3, i4, i5, i6, i7⟩ := ih
    have hst' : ((Status.ok, applyOffset w u n, s) : Status × Updater × FS) = (st, u', s') := hst
    cases hst'
    have e1 : u32 (u.base + n) = u.base + n := u32_id (by omega)
    have e2 : (u.maxSize + (2 ^ w - n)) % 2 ^ w = u.maxSize - n := by
      rw [show u.maxSize + (2 ^ w - n) = (u.maxSize - n) + 2 ^ w by omega, Nat.add_mod_right, Nat.mod_eq_of_lt (by omega)]
    simp only [applyOffset, e1, e2]
    exact ⟨⟨by omega, by omega⟩, i3, i4, i5, i6, i7⟩

/-- C30: a single write changes only bytes between the current position and the end of the region, and is refused without touching the
flash if it does not fit. -/
theorem write_confined (w : Nat) (dv : Dev) (u : Updater) (s : FS) (d : Bytes) (hw : u.writeOffset + d.length < 2 ^ w)
    (hfit : u.base + u.maxSize < 2 ^ 32) :
    (∀ i, i < u.base + u.writeOffset ∨ u.base + u.maxSize ≤ i → (writeUpdate w dv u s d).2.2.mem i = s.mem i) ∧
    (u.maxSize < u.writeOffset + d.length → writeUpdate w dv u s d = (.outOfSpace, u, s)) := by
  refine ⟨(writeUpdate_spec w dv u s d hw hfit).1, fun h => ?_⟩
  unfold writeUpdate
  rw [Nat.mod_eq_of_lt hw, if_pos (by omega)]

theorem writeChunks_spec (w : Nat) (dv : Dev) (ds : List Bytes) : ∀ (u u' : Updater) (s s' : FS), u.base + u.maxSize < 2 ^ 32 →
    (∀ d ∈ ds, u.maxSize + d.length < 2 ^ w) → u.writeOffset ≤ u.maxSize →
    (∀ i, u.base + u.writeOffset ≤ i → i < u.base + u.writeOffset + ds.flatten.length → s.mem i = 0xff) →
    writeChunks w dv u s ds = (.ok, u', s') →
    u' = { u with updateSize := u.updateSize - ds.flatten.length, writeOffset := u.writeOffset + ds.flatten.length } ∧
    u.writeOffset + ds.flatten.length ≤ u.maxSize ∧
    bytesAt s'.mem (u.base + u.writeOffset) ds.flatten.length = ds.flatten ∧
    (∀ i, i < u.base + u.writeOffset ∨ u.base + u.writeOffset + ds.flatten.length ≤ i → s'.mem i = s.mem i) := by
  induction ds with
  | nil =>
    intro u u' s s' _ _ ho _ h
    cases h
    simpa [bytesAt] using ho
  | cons d ds ih =>
    intro u u' s s' hfit hd ho hbl h
    have hd0 := hd d (by simp)
    obtain ⟨_, _, w3⟩ := writeUpdate_spec w dv u s d (by omega) hfit
    unfold writeChunks at h
    simp only [updStep] at h
    cases hwr : writeUpdate w dv u s d with
    | mk st r =>
      obtain ⟨u1, s1⟩ := r
      rw [hwr] at w3 h
      cases st
      case ok =>
        obtain ⟨x1, x2, x3⟩ := w3 rfl
        simp only at x2 x3
        subst x2
        simp only [List.flatten_cons, List.length_append] at hbl ⊢
        obtain ⟨y1, y2, y3, y4⟩ := ih { u with updateSize := u.updateSize - d.length, writeOffset := u.writeOffset + d.length } u' s1 s' hfit (fun e he => hd e (List.mem_cons_of_mem _ he)) (by simpa using x1)
          (fun i h1 h2 => by
            simp only at h1 h2
            rw [x3, program_out (by omega), hbl i (by omega) (by omega)]) h
        simp only at y1 y2 y3 y4
        refine ⟨?_, by omega, ?_, fun i hi => ?_⟩
        · rw [y1]
          simp only [Updater.mk.injEq, true_and, and_true]
          omega
        · rw [bytesAt_add, ← Nat.add_assoc] at *
          congr 1
          apply bytesAt_eq_self
          intro i hi
          rw [y4 _ (by omega), x3, program_in hi, hbl _ (by omega) (by omega), ff_and]
        · rw [y4 i (by omega), x3, program_out (by omega)]
      all_goals cases h

/-- C30: after a successful prepare, if the data is handed over in any number of pieces and every write succeeds, the flash holds exactly
the concatenation of the pieces at the start of the region, the bytes written are their total length and the bytes remaining are what is
left of the announced length. -/
theorem update_content (w : Nat) (dv : Dev) (u u1 u2 : Updater) (s s1 s2 : FS) (len : Nat) (ds : List Bytes) (he : 0 < u.eraseSize)
    (hfit : u.base + u.maxSize < 2 ^ 32) (hd : ∀ d ∈ ds, u.maxSize + d.length < 2 ^ w) (hlen : ds.flatten.length ≤ len)
    (h1 : updStep w dv u s (.prepare len) = (.ok, u1, s1)) (h2 : writeChunks w dv u1 s1 ds = (.ok, u2, s2)) :
    bytesAt s2.mem u.base ds.flatten.length = ds.flatten ∧ u2.writeOffset = ds.flatten.length ∧
    u2.updateSize = len - ds.flatten.length ∧ (∀ i, ¬ Touched u.eraseSize u.base len i → s2.mem i = s.mem i) := by
  obtain ⟨p1, _, p3⟩ := prepare_spec dv u s len len he (fun h => h) (by omega)
  have h1' : prepare dv u s len len = (.ok, u1, s1) := h1
  rw [h1'] at p1 p3
  obtain ⟨q1, q2, q3⟩ := p3 rfl
  simp only at q2 q3 p1
  subst q2
  obtain ⟨c1, c2, c3, c4⟩ := writeChunks_spec w dv ds { u with updateSize := len, writeOffset := 0 } u2 s1 s2 hfit hd (Nat.zero_le _)
    (fun i x y => q3 i (.of_mem (by simpa using x) (by simp only at y; omega))) h2
  simp only [Nat.add_zero, Nat.zero_add] at c1 c2 c3 c4
  refine ⟨c3, by rw [c1], by rw [c1], fun i hi => ?_⟩
  rw [c4 i (by
    apply Classical.byContradiction
    intro hc
    exact hi (.of_mem (by omega) (by omega))), p1 i hi]

example : (updStep 64 demoDev ⟨0, 32, 16, 0, 0⟩ ⟨fun _ => 0, 0⟩ (.prepare 8)).1 = .ok ∧
    (writeChunks 64 demoDev ⟨0, 32, 16, 8, 0⟩ (updStep 64 demoDev ⟨0, 32, 16, 0, 0⟩ ⟨fun _ => 0, 0⟩ (.prepare 8)).2.2 [[1, 2], [], [3]]).1 = .ok ∧
    bytesAt (writeChunks 64 demoDev ⟨0, 32, 16, 8, 0⟩ (updStep 64 demoDev ⟨0, 32, 16, 0, 0⟩ ⟨fun _ => 0, 0⟩ (.prepare 8)).2.2
      [[1, 2], [], [3]]).2.2.mem 0 4 = [1, 2, 3, 0xff] := by decide +kernel

/-- A step with its result spelled out. -/
theorem step_eq {w : Nat} {dv : Dev} {u u' : Updater} {s : FS} {op : UpdOp} {st : Status} (h1 : (updStep w dv u s op).1 = st)
    (h2 : (updStep w dv u s op).2.1 = u') : updStep w dv u s op = (st, u', (updStep w dv u s op).2.2) :=
  Prod.ext h1 (Prod.ext h2 rfl)

/-- The writes are limited by the region, not by the announced length: a caller that announces 8 bytes may write 32, and the second half of
them goes to flash that the prepare did not erase. -/
theorem update_not_limited_by_announced_length :
    ∃ (u1 u2 : Updater) (s1 s2 : FS), updStep 64 demoDev ⟨0, 32, 16, 0, 0⟩ ⟨fun _ => 0, 0⟩ (.prepare 8) = (.ok, u1, s1) ∧
      updStep 64 demoDev u1 s1 (.data (List.replicate 32 7)) = (.ok, u2, s2) ∧ u2.updateSize = -24 ∧
      bytesAt s2.mem 0 32 ≠ List.replicate 32 7 := by
  refine ⟨⟨0, 32, 16, 8, 0⟩, ⟨0, 32, 16, -24, 32⟩, _, _, step_eq ?_ ?_, step_eq ?_ ?_, ?_, ?_⟩ <;> decide +kernel

/-- An offset larger than the region wraps the size of the region around, and the next write is accepted far outside of it. -/
theorem offset_beyond_region_escapes : (applyOffset 64 ⟨0x1000, 0x100, 16, 0, 0⟩ 0x200).maxSize = 2 ^ 64 - 0x100 ∧
    (writeUpdate 64 demoDev (applyOffset 64 ⟨0x1000, 0x100, 16, 0, 0⟩ 0x200) ⟨fun _ => 0xff, 0⟩ [1]).1 = .ok ∧
    (writeUpdate 64 demoDev (applyOffset 64 ⟨0x1000, 0x100, 16, 0, 0⟩ 0x200) ⟨fun _ => 0xff, 0⟩ [1]).2.2.mem 0x1200 = 1 := by decide +kernel

example : UpdReach 64 demoDev 0 32 16 (fun _ => 0) ⟨4, 28, 16, 5, 3⟩
    (updStep 64 demoDev ⟨0, 32, 16, 8, 0⟩ (updStep 64 demoDev ⟨0, 32, 16, 0, 0⟩ ⟨fun _ => 0, 0⟩ (.prepare 8)).2.2 (.data [1, 2, 3])).2.2 8 := by
  have h1 := UpdReach.prep _ _ _ _ _ (.prepare 8) 8 .ok (UpdReach.init (w := 64) (dv := demoDev) (base := 0) (size := 32) (eraseSize := 16)
    (m := fun _ => 0)) (.inl rfl) (step_eq (u' := ⟨0, 32, 16, 8, 0⟩) (by decide +kernel) (by decide +kernel))
  have h2 := UpdReach.data _ _ _ _ _ [1, 2, 3] .ok h1 (by decide) (step_eq (u' := ⟨0, 32, 16, 5, 3⟩) (by decide +kernel) (by decide +kernel))
  exact UpdReach.offset _ _ _ _ _ 4 .ok h2 (by decide) (by rfl)

end Verif.Flash
