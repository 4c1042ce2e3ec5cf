import Verif.Flash.Model
/-! Facts about the flash model: what each function leaves unchanged, and what its success means. -/
namespace Verif.Flash

theorem u32_id {n : Nat} (h : n < 2 ^ 32) : u32 n = n := Nat.mod_eq_of_lt h

/-- Address `i` is in a block of size `size` that contains an address of `[a, a + len)`. -/
def Touched (size a len i : Nat) : Prop := ∃ j, a ≤ j ∧ j < a + len ∧ i / size = j / size

theorem Touched.of_mem {size a len i : Nat} (h1 : a ≤ i) (h2 : i < a + len) : Touched size a len i := ⟨i, h1, h2, rfl⟩

theorem Touched.mono {size a len a' len' i : Nat} (h : Touched size a len i) (h1 : a' ≤ a) (h2 : a + len ≤ a' + len') :
    Touched size a' len' i := by
  obtain ⟨j, x, y, z⟩ := h
  exact ⟨j, by omega, by omega, z⟩

theorem touched_one {a len i : Nat} : Touched 1 a len i ↔ a ≤ i ∧ i < a + len := by
  constructor
  · rintro ⟨j, h1, h2, h3⟩
    simp only [Nat.div_one] at h3
    omega
  · rintro ⟨h1, h2⟩; exact .of_mem h1 h2

theorem in_block (size a i : Nat) (hs : 0 < size) : a - a % size ≤ i ∧ i < a - a % size + size ↔ i / size = a / size := by
  have h1 := Nat.div_add_mod a size
  have h2 := Nat.div_add_mod i size
  have h3 := Nat.mod_lt a hs
  have h4 := Nat.mod_lt i hs
  constructor
  · rintro ⟨x, y⟩
    have e : size * (a / size) ≤ i := by omega
    have e' : i < size * (a / size) + size := by omega
    apply Nat.div_eq_of_lt_le
    · rw [Nat.mul_comm]; exact e
    · rw [Nat.succ_mul, Nat.mul_comm]; exact e'
  · intro e
    rw [e] at h2
    omega

@[simp] theorem bytesAt_length (m : Mem) (a n : Nat) : (bytesAt m a n).length = n := by simp [bytesAt]

theorem bytesAt_getD (m : Mem) (a n i : Nat) (d : UInt8) (h : i < n) : (bytesAt m a n).getD i d = m (a + i) := by
  simp [bytesAt, List.getD, h]

theorem bytesAt_eq_iff (m : Mem) (a n : Nat) (f : Nat → UInt8) :
    bytesAt m a n = (List.range n).map f ↔ ∀ i, i < n → m (a + i) = f i := by
  simp [bytesAt]

theorem bytesAt_congr {m m' : Mem} {a a' n : Nat} (h : ∀ i, i < n → m (a + i) = m' (a' + i)) : bytesAt m a n = bytesAt m' a' n := by
  simp only [bytesAt, List.map_inj_left, List.mem_range]
  exact h

theorem bytesAt_add (m : Mem) (a k n : Nat) : bytesAt m a (k + n) = bytesAt m a k ++ bytesAt m (a + k) n := by
  simp only [bytesAt, List.range_add, List.map_append, List.map_map]
  congr 1
  apply List.map_congr_left
  intro i _
  simp [Nat.add_assoc]

theorem bytesAt_eq_self {m : Mem} {a : Nat} {d : Bytes} (h : ∀ i, i < d.length → m (a + i) = d.getD i 0) :
    bytesAt m a d.length = d := by
  apply List.ext_getElem (by simp)
  intro i h1 h2
  have := h i h2
  simp [bytesAt, this, List.getD, h2]

theorem program_in {m : Mem} {a i : Nat} {d : Bytes} (h : i < d.length) : program m a d (a + i) = m (a + i) &&& d.getD i 0 := by
  unfold program
  rw [if_pos (by omega), Nat.add_sub_cancel_left]
  congr 1
  simp [List.getD, h]

theorem program_out {m : Mem} {a i : Nat} {d : Bytes} (h : i < a ∨ a + d.length ≤ i) : program m a d i = m i := by
  unfold program; rw [if_neg (by omega)]

theorem overlay_out {m j : Mem} {a n i : Nat} (h : i < a ∨ a + n ≤ i) : overlay m a n j i = m i := by
  unfold overlay; rw [if_neg (by omega)]

theorem read_mem (dv : Dev) (s : FS) (a n : Nat) : (read dv s a n).2.mem = s.mem := by
  unfold read; split <;> rfl

theorem read_some {dv : Dev} {s s' : FS} {a n : Nat} {d : Bytes} (h : read dv s a n = (some d, s')) :
    d = bytesAt s.mem a n ∧ s'.mem = s.mem := by
  unfold read at h
  split at h
  · cases h
  · cases h; exact ⟨rfl, rfl⟩

theorem read_none {dv : Dev} {s s' : FS} {a n : Nat} (h : read dv s a n = (none, s')) : s'.mem = s.mem := by
  have := read_mem dv s a n
  rw [h] at this; exact this

theorem readSource_some {dv : Dev} {src : Source} {s s' : FS} {a n : Nat} {d : Bytes}
    (h : readSource dv src s a n = (some d, s')) : d = bytesAt (src.mem s) a n ∧ s'.mem = s.mem := by
  unfold readSource at h
  split at h
  · cases h
  · cases h; exact ⟨rfl, rfl⟩

theorem readSource_mem (dv : Dev) (src : Source) (s : FS) (a n : Nat) : (readSource dv src s a n).2.mem = s.mem := by
  unfold readSource; split <;> rfl

theorem write_frame (dv : Dev) (s : FS) (a : Nat) (d : Bytes) (i : Nat) (h : i < a ∨ a + d.length ≤ i) :
    (write dv s a d).2.mem i = s.mem i := by
  unfold write
  split
  · exact overlay_out h
  · refine (overlay_out (by omega)).trans ?_
    exact program_out (by simp only [List.length_take]; omega)
  · exact program_out h

theorem write_some {dv : Dev} {s s' : FS} {a : Nat} {d : Bytes} {n : Nat} (h : write dv s a d = (some n, s')) :
    n ≤ d.length ∧ (∀ i, i < a + n ∨ a + d.length ≤ i → s'.mem i = program s.mem a (d.take n) i) ∧ (n = d.length → s'.mem = program s.mem a d) := by
  unfold write at h
  split at h
  · cases h
  · cases h
    rename_i k j _
    refine ⟨Nat.min_le_right _ _, fun i hi => ?_, fun hk => ?_⟩
    · rw [← List.take_eq_take_min]
      exact overlay_out (by omega)
    · funext i
      show overlay _ _ _ _ i = _
      rw [overlay_out (by omega), List.take_of_length_le (by omega)]
  · cases h
    exact ⟨Nat.le_refl _, fun _ _ => by rw [List.take_length], fun _ => rfl⟩

theorem writeAll_frame (dv : Dev) (s : FS) (a : Nat) (d : Bytes) (i : Nat) (h : i < a ∨ a + d.length ≤ i) :
    (writeAll dv s a d).2.mem i = s.mem i := by
  have := write_frame dv s a d i h
  unfold writeAll
  split <;> (rename_i e; rw [e] at this; exact this)

theorem writeAll_ok {dv : Dev} {s s' : FS} {a : Nat} {d : Bytes} (h : writeAll dv s a d = (.ok, s')) :
    s'.mem = program s.mem a d := by
  unfold writeAll at h
  split at h
  · cases h
  · rename_i n s1 e
    split at h
    · cases h
    · rename_i hn
      cases h
      have := write_some e
      exact this.2.2 (by omega)

theorem erase_frame (dv : Dev) (size : Nat) (s : FS) (a i : Nat) (hs : 0 < size) (h : i / size ≠ a / size) :
    (erase dv size s a).2.mem i = s.mem i := by
  have : ¬ (a - a % size ≤ i ∧ i < a - a % size + size) := fun c => h ((in_block size a i hs).mp c)
  unfold erase
  split
  · simp only [overlay, if_neg this]
  · simp only [overlay, if_neg this]

theorem erase_true {dv : Dev} {size : Nat} {s s' : FS} {a i : Nat} (hs : 0 < size) (h : erase dv size s a = (true, s'))
    (hi : i / size = a / size) : s'.mem i = 0xff := by
  have hb := (in_block size a i hs).mpr hi
  unfold erase at h
  split at h
  · cases h
  · cases h
    simp only [overlay, if_pos hb]

theorem next_block (size a i : Nat) (hs : 0 < size) (h1 : a ≤ i) (h2 : i < a + (size - a % size)) : i / size = a / size := by
  have := Nat.mod_lt a hs
  have := Nat.mod_le a size
  exact (in_block size a i hs).mp ⟨by omega, by omega⟩

/-- Erasing a region changes only the blocks that contain a byte of it, and if it succeeds all of these are blank. -/
theorem eraseLoop_spec (dv : Dev) (size : Nat) (hs : 0 < size) : ∀ (k len : Nat), len ≤ k → ∀ (s : FS) (a : Nat), a + len ≤ 2 ^ 32 →
    (∀ i, ¬ Touched size a len i → (eraseLoop dv size s a len).2.mem i = s.mem i) ∧
    ((eraseLoop dv size s a len).1 = .ok → ∀ i, Touched size a len i → (eraseLoop dv size s a len).2.mem i = 0xff) := by
  intro k
  induction k with
  | zero =>
    intro len hk s a _
    rw [eraseLoop, dif_pos (by omega)]
    refine ⟨fun _ _ => rfl, fun _ i ⟨j, h1, h2, _⟩ => by omega⟩
  | succ k ih =>
    intro len hk s a hf
    by_cases hl : len = 0
    · rw [eraseLoop, dif_pos (by omega)]
      refine ⟨fun _ _ => rfl, fun _ i ⟨j, h1, h2, _⟩ => by omega⟩
    · rw [eraseLoop, dif_neg (by omega)]
      cases he : erase dv size s a with
      | mk b s1 =>
        have hfr : ∀ i, ¬ Touched size a len i → s1.mem i = s.mem i := by
          intro i hi
          have := erase_frame dv size s a i hs (fun c => hi ⟨a, by omega, by omega, c⟩)
          rw [he] at this; exact this
        cases b with
        | false => exact ⟨hfr, fun h => by cases h⟩
        | true =>
          simp only
          have hm := Nat.mod_lt a hs
          by_cases hlt : len > size - a % size
          · rw [if_pos hlt, u32_id (by omega)]
            obtain ⟨i1, i2⟩ := ih (len - (size - a % size)) (by omega) s1 (a + (size - a % size)) (by omega)
            refine ⟨fun i hi => ?_, fun hok i hi => ?_⟩
            · rw [i1 i (fun c => hi (c.mono (by omega) (by omega))), hfr i hi]
            · by_cases hb : Touched size (a + (size - a % size)) (len - (size - a % size)) i
              · exact i2 hok i hb
              · rw [i1 i hb]
                obtain ⟨j, j1, j2, j3⟩ := hi
                have hj : j < a + (size - a % size) := by
                  apply Classical.byContradiction
                  intro hc
                  exact hb ⟨j, by omega, by omega, j3⟩
                exact erase_true hs he (by rw [j3]; exact next_block size a j hs j1 hj)
          · rw [if_neg hlt, Nat.sub_self, eraseLoop, dif_pos (.inl rfl)]
            refine ⟨hfr, fun _ i hi => ?_⟩
            obtain ⟨j, j1, j2, j3⟩ := hi
            exact erase_true hs he (by rw [j3]; exact next_block size a j hs j1 (by omega))

theorem eraseRegion_spec (dv : Dev) (size : Nat) (hs : 0 < size) (s : FS) (a len : Nat) (hf : a + len ≤ 2 ^ 32) :
    (∀ i, ¬ Touched size a len i → (eraseRegion dv size s a len).2.mem i = s.mem i) ∧
    ((eraseRegion dv size s a len).1 = .ok → ∀ i, Touched size a len i → (eraseRegion dv size s a len).2.mem i = 0xff) := by
  unfold eraseRegion
  split
  · exact ⟨fun _ _ => rfl, fun h => by cases h⟩
  · exact eraseLoop_spec dv size hs len len (Nat.le_refl _) _ a hf

/-- Checking changes nothing; it succeeds only if the content is as expected, and reports a mismatch only if it is not. -/
theorem checkLoop_spec (dv : Dev) : ∀ (k len : Nat), len ≤ k → ∀ (s : FS) (a : Nat) (exp : Nat → UInt8), a + len ≤ 2 ^ 32 →
    (checkLoop dv s a exp len).2.mem = s.mem ∧
    ((checkLoop dv s a exp len).1 = .ok → ∀ i, i < len → s.mem (a + i) = exp i) ∧
    ((checkLoop dv s a exp len).1 = .mismatch → ∃ i, i < len ∧ s.mem (a + i) ≠ exp i) ∧
    ((checkLoop dv s a exp len).1 = .ok ∨ (checkLoop dv s a exp len).1 = .mismatch ∨ (checkLoop dv s a exp len).1 = .flash) := by
  intro k
  induction k with
  | zero =>
    intro len hk s a exp _
    rw [checkLoop, dif_pos (by omega)]
    exact ⟨rfl, fun _ i hi => by omega, fun h => (by cases h), .inl rfl⟩
  | succ k ih =>
    intro len hk s a exp hf
    by_cases hl : len = 0
    · rw [checkLoop, dif_pos hl]
      exact ⟨rfl, fun _ i hi => by omega, fun h => (by cases h), .inl rfl⟩
    · rw [checkLoop, dif_neg hl]
      have hn : chunk len verifyBlock ≤ len ∧ 0 < chunk len verifyBlock := by
        rw [chunk_eq]; simp only [verifyBlock]; omega
      simp only
      generalize chunk len verifyBlock = n at hn
      cases hr : read dv s a n with
      | mk o s1 =>
        cases o with
        | none => exact ⟨read_none hr, fun h => (by cases h), fun h => (by cases h), .inr (.inr rfl)⟩
        | some d =>
          obtain ⟨hd, hm⟩ := read_some hr
          simp only
          split
          · rename_i heq
            rw [hd, bytesAt_eq_iff] at heq
            by_cases he : len = n
            · subst he
              rw [Nat.sub_self, checkLoop, dif_pos rfl]
              exact ⟨hm, fun _ => heq, fun h => (by cases h), .inl rfl⟩
            · rw [u32_id (by omega)]
              obtain ⟨i1, i2, i3, i4⟩ := ih (len - n) (by omega) s1 (a + n) (fun i => exp (n + i)) (by omega)
              refine ⟨by rw [i1, hm], fun h i hi => ?_, fun h => ?_, i4⟩
              · by_cases hin : i < n
                · exact heq i hin
                · have := i2 h (i - n) (by omega)
                  rw [hm, show a + n + (i - n) = a + i by omega, show n + (i - n) = i by omega] at this
                  exact this
              · obtain ⟨i, hi, hx⟩ := i3 h
                rw [hm, Nat.add_assoc] at hx
                exact ⟨n + i, by omega, hx⟩
          · rename_i hne
            rw [hd, bytesAt_eq_iff] at hne
            refine ⟨hm, fun h => (by cases h), fun _ => ?_, .inr (.inl rfl)⟩
            obtain ⟨i, hi⟩ := Classical.not_forall.mp hne
            have hi' := Classical.not_imp.mp hi
            exact ⟨i, by omega, hi'.2⟩

theorem verifyData_spec (dv : Dev) (s : FS) (a : Nat) (d : Bytes) (hf : a + d.length ≤ 2 ^ 32) :
    (verifyData dv s a d).2.mem = s.mem ∧
    ((verifyData dv s a d).1 = .ok → ∀ i, i < d.length → s.mem (a + i) = d.getD i 0) := by
  have := checkLoop_spec dv d.length d.length (Nat.le_refl _) s a (fun i => d.getD i 0) hf
  exact ⟨this.1, this.2.1⟩

theorem blankCheck_spec (dv : Dev) (s : FS) (a len : Nat) (hf : a + len ≤ 2 ^ 32) :
    (blankCheck dv s a len).2.mem = s.mem ∧
    ((blankCheck dv s a len).1 = .ok → ∀ i, i < len → s.mem (a + i) = 0xff) ∧
    ((blankCheck dv s a len).1 = .notBlank → ∃ i, i < len ∧ s.mem (a + i) ≠ 0xff) ∧
    ((blankCheck dv s a len).1 = .ok ∨ (blankCheck dv s a len).1 = .notBlank ∨ (blankCheck dv s a len).1 = .flash) := by
  obtain ⟨h1, h2, h3, h4⟩ := checkLoop_spec dv len len (Nat.le_refl _) s a (fun _ => 0xff) hf
  unfold blankCheck
  cases hc : checkLoop dv s a (fun _ => 0xff) len with
  | mk st s1 =>
    rw [hc] at h1 h2 h3 h4
    cases st <;> simp_all

theorem eraseVerify_spec (dv : Dev) (size : Nat) (hs : 0 < size) (s : FS) (a len : Nat) (hf : a + len ≤ 2 ^ 32) :
    (∀ i, ¬ Touched size a len i → (eraseVerify dv size s a len).2.mem i = s.mem i) ∧
    ((eraseVerify dv size s a len).1 = .ok → ∀ i, Touched size a len i → (eraseVerify dv size s a len).2.mem i = 0xff) := by
  obtain ⟨h1, h2⟩ := eraseRegion_spec dv size hs s a len hf
  unfold eraseVerify
  cases he : eraseRegion dv size s a len with
  | mk st s1 =>
    rw [he] at h1 h2
    cases st
    case ok =>
      have hb := blankCheck_spec dv s1 a len hf
      simp only at h1 h2 ⊢
      rw [hb.1]
      exact ⟨h1, fun _ => h2 trivial⟩
    all_goals exact ⟨h1, fun h => by cases h⟩

/-- The copy loop changes only the destination range; on success it holds the and of the old and the source content, and the source content
if the copy is verified. -/
theorem copyLoop_spec (dv : Dev) (src : Source) (verify : Bool) (hp : 0 < dv.page) : ∀ (k len : Nat), len ≤ k → ∀ (s : FS) (da sa off : Nat),
    off < dv.page → da + len ≤ 2 ^ 32 → sa + len ≤ 2 ^ 32 → (src = .same → da + len ≤ sa ∨ sa + len ≤ da) →
    (∀ i, i < da ∨ da + len ≤ i → (copyLoop dv src verify s da sa len off).2.mem i = s.mem i) ∧
    ((copyLoop dv src verify s da sa len off).1 = .ok → ∀ i, i < len →
      (copyLoop dv src verify s da sa len off).2.mem (da + i) = s.mem (da + i) &&& src.mem s (sa + i) ∧
      (verify = true → (copyLoop dv src verify s da sa len off).2.mem (da + i) = src.mem s (sa + i))) := by
  intro k
  induction k with
  | zero =>
    intro len hk s da sa off _ _ _ _
    rw [copyLoop, dif_pos (by omega)]
    exact ⟨fun _ _ => rfl, fun _ i hi => by omega⟩
  | succ k ih =>
    intro len hk s da sa off ho hda hsa hdis
    by_cases hl : len = 0
    · rw [copyLoop, dif_pos (by omega)]
      exact ⟨fun _ _ => rfl, fun _ i hi => by omega⟩
    · rw [copyLoop, dif_neg (by omega)]
      have hn : chunk len (dv.page - off) ≤ len ∧ 0 < chunk len (dv.page - off) := by rw [chunk_eq]; omega
      simp only
      generalize chunk len (dv.page - off) = n at hn
      have hrm := readSource_mem dv src s sa n
      cases hr : readSource dv src s sa n with
      | mk o s1 =>
        rw [hr] at hrm
        cases o with
        | none => exact ⟨fun i _ => by rw [← hrm], fun h => by cases h⟩
        | some d =>
          obtain ⟨hd, hm1⟩ := readSource_some hr
          have hdl : d.length = n := by rw [hd]; simp
          simp only
          have hwf := writeAll_frame dv s1 da d
          cases hw : writeAll dv s1 da d with
          | mk st s2 =>
            rw [hw] at hwf
            have fr2 : ∀ i, i < da ∨ da + len ≤ i → s2.mem i = s.mem i := fun i hi => by rw [← hm1]; exact hwf i (by omega)
            cases st
            case ok =>
              have hm2 := writeAll_ok hw
              have hvs := verifyData_spec dv s2 da d (by omega)
              have hv : (verifyIf dv verify s2 da d).2.mem = s2.mem ∧ ((verifyIf dv verify s2 da d).1 = .ok → verify = true →
                  ∀ i, i < d.length → s2.mem (da + i) = d.getD i 0) := by
                unfold verifyIf
                split
                · exact ⟨hvs.1, fun h _ => hvs.2 h⟩
                · exact ⟨rfl, fun _ hv => by simp_all⟩
              simp only
              cases hvf : verifyIf dv verify s2 da d with
              | mk st3 s3 =>
                rw [hvf] at hv
                obtain ⟨hm3, hver⟩ := hv
                have fr3 : ∀ i, i < da ∨ da + len ≤ i → s3.mem i = s.mem i := fun i hi => by rw [hm3]; exact fr2 i hi
                cases st3
                case ok =>
                  have first : ∀ i, i < n → s3.mem (da + i) = s.mem (da + i) &&& src.mem s (sa + i) ∧
                      (verify = true → s3.mem (da + i) = src.mem s (sa + i)) := by
                    intro i hi
                    have e : d.getD i 0 = src.mem s (sa + i) := by rw [hd]; exact bytesAt_getD _ _ _ _ _ hi
                    refine ⟨?_, fun hv => ?_⟩
                    · rw [hm3, hm2, program_in (by omega), hm1, e]
                    · rw [hm3, hver rfl hv i (by omega), e]
                  by_cases he : len = n
                  · subst he
                    simp only [Nat.sub_self]
                    rw [copyLoop, dif_pos (.inl rfl)]
                    exact ⟨fr3, fun _ => first⟩
                  · simp only
                    rw [u32_id (by omega), u32_id (by omega)]
                    obtain ⟨i1, i2⟩ := ih (len - n) (by omega) s3 (da + n) (sa + n) 0 hp (by omega) (by omega)
                      (fun c => by have := hdis c; omega)
                    have hsrc : ∀ i, i < len → src.mem s3 (sa + i) = src.mem s (sa + i) := by
                      intro i hi
                      cases src with
                      | other m => rfl
                      | same =>
                        have := hdis rfl
                        exact fr3 _ (by omega)
                    refine ⟨fun i hi => by rw [i1 i (by omega), fr3 i hi], fun hok i hi => ?_⟩
                    by_cases hin : i < n
                    · obtain ⟨f1, f2⟩ := first i hin
                      rw [i1 (da + i) (by omega)]
                      exact ⟨f1, f2⟩
                    · have hold : s3.mem (da + i) = s.mem (da + i) := by
                        rw [hm3, ← hm1]; exact hwf _ (by omega)
                      have := i2 hok (i - n) (by omega)
                      rw [show da + n + (i - n) = da + i by omega, show sa + n + (i - n) = sa + i by omega, hsrc i hi, hold] at this
                      exact this
                all_goals exact ⟨fr3, fun h => by cases h⟩
            all_goals exact ⟨fr2, fun h => by cases h⟩

end Verif.Flash
