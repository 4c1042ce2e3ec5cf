import Verif.FlashStore.Spec
import Verif.Flash.Props
namespace Verif.FlashStore
open Flash (Dev FS Mem bytesAt u32 Touched u32_id)

theorem Store.header_length (st : Store) (h : st.varLen = true) (len : Nat) : (st.header len).length = st.headerLen := by
  unfold Store.header Store.headerLen
  simp only [h, Bool.not_true, Bool.false_eq_true, if_false]
  split <;> simp [toLE]

theorem Store.headerLen_le (st : Store) : st.headerLen ≤ (if st.varLen then 4 else 0) := by
  unfold Store.headerLen
  cases st.varLen <;> cases st.oldHeader <;> simp

theorem Store.headerLen_fixed (st : Store) (h : st.varLen = false) : st.headerLen = 0 := by
  unfold Store.headerLen; simp [h]

theorem Store.headerLen_pos (st : Store) (h : st.varLen = true) : 2 ≤ st.headerLen ∧ st.headerLen ≤ 4 := by
  unfold Store.headerLen; cases st.oldHeader <;> simp [h]

theorem image_length (st : Store) (d x : Bytes) : (image st d x).length = st.headerLen + d.length + x.length := by
  unfold image
  split
  · rename_i h; simp [st.header_length h]; omega
  · rename_i h; simp [st.headerLen_fixed (by simpa using h)]

theorem image_getD_header (st : Store) (d x : Bytes) (h : st.varLen = true) {i : Nat} (hi : i < st.headerLen) :
    (image st d x).getD i 0 = (st.header d.length).getD i 0 := by
  unfold image
  simp only [h, if_true, List.append_assoc]
  simp [List.getD, List.getElem?_append, st.header_length h, hi]

theorem image_getD_data (st : Store) (d x : Bytes) {i : Nat} (hi : i < d.length) :
    (image st d x).getD (st.headerLen + i) 0 = d.getD i 0 := by
  unfold image
  split
  · rename_i h
    simp [List.getD, List.getElem?_append, st.header_length h, hi, show ¬ st.headerLen + i < st.headerLen by omega]
  · rename_i h
    simp [List.getD, List.getElem?_append, st.headerLen_fixed (by simpa using h), hi]

theorem image_getD_extra (st : Store) (d x : Bytes) (i : Nat) :
    (image st d x).getD (st.headerLen + d.length + i) 0 = x.getD i 0 := by
  unfold image
  split
  · rename_i h
    simp only [List.getD, List.append_assoc]
    rw [List.getElem?_append_right (by rw [st.header_length h]; omega), List.getElem?_append_right (by rw [st.header_length h]; omega)]
    rw [st.header_length h]
    congr 2; omega
  · rename_i h
    simp only [List.getD, List.nil_append]
    rw [List.getElem?_append_right (by rw [st.headerLen_fixed (by simpa using h)]; omega)]
    rw [st.headerLen_fixed (by simpa using h)]
    congr 2; omega

/-- A write of a part of `img`. -/
def PartOf (img : Bytes) (e : Nat × Bytes) : Prop := e.1 + e.2.length ≤ img.length ∧ ∀ i, i < e.2.length → e.2.getD i 0 = img.getD (e.1 + i) 0

def Covers (e : Nat × Bytes) (i : Nat) : Prop := e.1 ≤ i ∧ i < e.1 + e.2.length

theorem getD_take {d : Bytes} {n i : Nat} (h : i < n) : (d.take n).getD i 0 = d.getD i 0 := by
  simp [List.getD, List.getElem?_take, h]

theorem getD_drop {d : Bytes} {n i : Nat} : (d.drop n).getD i 0 = d.getD (n + i) 0 := by
  simp [List.getD, List.getElem?_drop]

theorem getD_append_left {a b : Bytes} {i : Nat} (h : i < a.length) : (a ++ b).getD i 0 = a.getD i 0 := by
  simp [List.getD, List.getElem?_append, h]

theorem getD_append_right {a b : Bytes} {i : Nat} (h : a.length ≤ i) : (a ++ b).getD i 0 = b.getD (i - a.length) 0 := by
  simp only [List.getD]
  rw [List.getElem?_append_right h]

theorem plain_parts (st : Store) (d x : Bytes) : ∀ e ∈ plainWrites st d x, PartOf (image st d x) e := by
  intro e he
  unfold plainWrites at he
  simp only [List.mem_append] at he
  rw [PartOf, image_length]
  rcases he with (he | he) | he
  · simp only [List.mem_singleton] at he
    subst he
    exact ⟨by simp only; omega, fun i hi => (image_getD_data st d x hi).symm⟩
  · split at he
    · simp only [List.mem_singleton] at he
      subst he
      exact ⟨by simp only; omega, fun i _ => (image_getD_extra st d x i).symm⟩
    · cases he
  · split at he
    · rename_i h
      simp only [List.mem_singleton] at he
      subst he
      simp only [Nat.zero_add, st.header_length h]
      exact ⟨by omega, fun i hi => (image_getD_header st d x h hi).symm⟩
    · cases he

theorem plain_cover (st : Store) (d x : Bytes) {i : Nat} (hi : i < (image st d x).length) : ∃ e ∈ plainWrites st d x, Covers e i := by
  rw [image_length] at hi
  unfold plainWrites
  by_cases h1 : i < st.headerLen
  · have hv : st.varLen = true := by
      cases h : st.varLen
      · rw [st.headerLen_fixed h] at h1; omega
      · rfl
    refine ⟨(0, st.header d.length), by simp [hv], ?_⟩
    simp only [Covers, st.header_length hv]; omega
  · by_cases h2 : i < st.headerLen + d.length
    · refine ⟨(st.headerLen, d), by simp, ?_⟩
      simp only [Covers]; omega
    · refine ⟨(st.headerLen + d.length, x), ?_, ?_⟩
      · simp only [if_pos (show x.length ≠ 0 by omega)]; simp
      · simp only [Covers]; omega

/-- Facts about the last, partly used page. -/
theorem page_facts (n P : Nat) (hP : 0 < P) :
    n % P < P ∧ (n < P → n % P = n) ∧ (P ≤ n → n < 2 * P → n % P = n - P) ∧ (2 * P ≤ n → n % P + 2 * P ≤ n) ∧ n % P ≤ n := by
  refine ⟨Nat.mod_lt _ hP, Nat.mod_eq_of_lt, fun h1 h2 => ?_, fun h => ?_, Nat.mod_le _ _⟩
  · rw [Nat.mod_eq_sub_mod h1, Nat.mod_eq_of_lt (by omega)]
  · rw [Nat.mod_eq_sub_mod (by omega), Nat.mod_eq_sub_mod (by omega)]
    have := Nat.mod_le (n - P - P) P
    omega

/-- The part of the last page that holds data written together with appended data. -/
def tail (P n E : Nat) : Nat := if E = 0 then 0 else n % P

/-- Everything fits in the first page. -/
theorem split_one (P h L E : Nat) (hP : 4 < P) (hh : h ≤ 4) (h0 : 0 < h) (hs : L + h < P) :
    split2 (split1 true P h L) E = ⟨L, 0, tail P (L + h) E, min (P - (L + h)) E, true⟩ := by
  unfold split1
  rw [Nat.mod_eq_of_lt hs]
  simp only [if_true, if_neg (show ¬ L > L + h by omega), if_neg (show ¬ L > P - h by omega),
    decide_eq_true (show L < P - h by omega)]
  unfold split2 tail
  by_cases hE : E = 0
  · simp [hE]
  · simp only [hE, if_false, Nat.mod_eq_of_lt hs]
    split
    · rw [Nat.min_eq_right (by omega)]
    · rw [Nat.min_eq_left (by omega)]

/-- More than the first page. -/
theorem split_many (v : Bool) (P h L E : Nat) (hP : 4 < P) (hh : h ≤ 4) (hv : v = true → P ≤ L + h) (hf : v = false → h = 0) :
    split2 (split1 v P h L) E = ⟨if v then P - h else 0, L - (if v then P - h else 0) - tail P (L + h) E, tail P (L + h) E,
      min (P - (L + h) % P) E, false⟩ := by
  obtain ⟨f1, f2, f3, f4, f5⟩ := page_facts (L + h) P (by omega)
  have key : split1 v P h L = ⟨if v then P - h else 0, L - (if v then P - h else 0) - (L + h) % P, (L + h) % P, P - (L + h) % P, false⟩ := by
    unfold split1
    generalize (L + h) % P = r at f1 f2 f3 f4 f5 ⊢
    cases v
    · have := hf rfl
      subst this
      simp only [Bool.false_eq_true, if_false, Nat.sub_zero, Split.mk.injEq, true_and, and_true]
      by_cases c : L < P
      · have := f2 (by omega)
        rw [if_neg (show ¬ L > r by omega), if_pos c]; omega
      · rw [if_pos (show L > r by omega), if_neg]
        have : L < 2 * P ∨ 2 * P ≤ L := by omega
        rcases this with c2 | c2
        · have := f3 (by omega) (by omega); omega
        · have := f4 (by omega); omega
    · have := hv rfl
      simp only [if_true]
      rw [if_pos (show L > r by
        have : L + h < 2 * P ∨ 2 * P ≤ L + h := by omega
        rcases this with c2 | c2
        · have := f3 (by omega) (by omega); omega
        · have := f4 (by omega); omega)]
      have : L + h < 2 * P ∨ 2 * P ≤ L + h := by omega
      rcases this with c2 | c2
      · have e := f3 (by omega) (by omega)
        rw [if_neg (by omega), decide_eq_false (by omega)]
        simp only [Split.mk.injEq, true_and, and_true]
        omega
      · have e := f4 (by omega)
        rw [if_pos (by omega)]
        simp only [Split.mk.injEq, true_and, and_true]
        omega
  rw [key]
  have hfr : (if v then P - h else 0) + (L + h) % P ≤ L := by
    cases v
    · have := hf rfl
      subst this
      simpa using f5
    · have := hv rfl
      simp only [if_true]
      have : L + h < 2 * P ∨ 2 * P ≤ L + h := by omega
      rcases this with c2 | c2
      · have := f3 (by omega) (by omega); omega
      · have := f4 (by omega); omega
  generalize (if v then P - h else 0) = f at *
  unfold split2 tail
  by_cases hE : E = 0
  · simp only [hE, if_true, Bool.not_false, Split.mk.injEq, true_and, and_true, Nat.sub_zero, Nat.min_zero]
    omega
  · simp only [hE, if_false]
    split
    · rw [Nat.min_eq_right (by omega)]
    · rw [Nat.min_eq_left (by omega)]

theorem many_fit (v : Bool) (P h L E : Nat) (hP : 4 < P) (hh : h ≤ 4) (hv : v = true → P ≤ L + h) (hf : v = false → h = 0) :
    (if v then P - h else 0) + tail P (L + h) E ≤ L ∧ (L + h) % P < P := by
  obtain ⟨f1, f2, f3, f4, f5⟩ := page_facts (L + h) P (by omega)
  refine ⟨?_, f1⟩
  have : (if v then P - h else 0) + (L + h) % P ≤ L := by
    cases v
    · have := hf rfl
      subst this
      simpa using f5
    · have := hv rfl
      simp only [if_true]
      have : L + h < 2 * P ∨ 2 * P ≤ L + h := by omega
      rcases this with c2 | c2
      · have := f3 (by omega) (by omega); omega
      · have := f4 (by omega); omega
  generalize (if v then P - h else 0) = f at *
  unfold tail
  by_cases hE : E = 0
  · rw [if_pos hE]; omega
  · rw [if_neg hE]; omega

/-- The writes in page buffer mode if everything fits in the first page. -/
theorem paged_one (st : Store) (P : Nat) (d x : Bytes) (hP : 4 < P) (hv : st.varLen = true) (hd : 0 < d.length)
    (hs : d.length + st.headerLen < P) :
    pagedWrites st P d x = (if min (P - (d.length + st.headerLen)) x.length < x.length then
      [(d.length + st.headerLen + min (P - (d.length + st.headerLen)) x.length, x.drop (min (P - (d.length + st.headerLen)) x.length))] else []) ++
      [(0, st.header d.length ++ d ++ x.take (min (P - (d.length + st.headerLen)) x.length))] := by
  unfold pagedWrites
  obtain ⟨h1, h2⟩ := st.headerLen_pos hv
  simp only
  rw [hv, split_one P _ _ _ hP h2 (by omega) hs]
  simp only [Bool.not_true, Bool.false_eq_true, false_and, if_false, ne_eq, not_true, List.nil_append, if_true, true_and,
    if_pos (show ¬ d.length = 0 by omega), List.take_length, Nat.add_zero]
  congr 4
  split
  · rfl
  · rename_i h
    have : min (P - (d.length + st.headerLen)) x.length = 0 := by omega
    rw [this]; simp

/-- The writes in page buffer mode otherwise. -/
theorem paged_many (st : Store) (P : Nat) (d x : Bytes) (hP : 4 < P) (hv : st.varLen = true → P ≤ d.length + st.headerLen) :
    pagedWrites st P d x =
      (let f := if st.varLen then P - st.headerLen else 0
       let t := tail P (d.length + st.headerLen) x.length
       let w := min (P - (d.length + st.headerLen) % P) x.length
       (if d.length - f - t ≠ 0 then [(f + st.headerLen, (d.drop f).take (d.length - f - t))] else []) ++
       (if x.length ≠ 0 then [(f + st.headerLen + (d.length - f - t), (d.drop (d.length - t)).take t ++ x.take w)] else []) ++
       (if w < x.length then [(f + st.headerLen + (d.length - f - t) + t + w, x.drop w)] else []) ++
       (if f ≠ 0 then [(0, st.header d.length ++ d.take f)] else [])) := by
  unfold pagedWrites
  have h2 : st.headerLen ≤ 4 := by have := st.headerLen_le; split at this <;> omega
  simp only
  rw [split_many st.varLen P _ _ _ hP h2 hv (fun h => st.headerLen_fixed h)]
  simp only [Bool.not_false, true_and, Bool.false_eq_true, false_and, if_false, List.append_nil]
  congr 1
  · congr 1
    split
    · rename_i hw
      rw [if_pos (show x.length ≠ 0 by omega)]
    · rfl
  · cases hvv : st.varLen <;> simp

theorem paged_parts (st : Store) (P : Nat) (d x : Bytes) (hP : 4 < P) (hd : 0 < d.length) :
    (∀ e ∈ pagedWrites st P d x, PartOf (image st d x) e) ∧
    (∀ i, i < (image st d x).length → ∃ e ∈ pagedWrites st P d x, Covers e i) ∧
    (st.varLen = true → ∃ pre b, pagedWrites st P d x = pre ++ [(0, b)] ∧ ∀ e ∈ pre, st.headerLen ≤ e.1) := by
  rw [image_length]
  by_cases hone : st.varLen = true ∧ d.length + st.headerLen < P
  · obtain ⟨hv, hs⟩ := hone
    rw [paged_one st P d x hP hv hd hs]
    have hwx : min (P - (d.length + st.headerLen)) x.length ≤ x.length := Nat.min_le_right _ _
    generalize min (P - (d.length + st.headerLen)) x.length = w at hwx
    have hl := st.header_length hv d.length
    refine ⟨?_, ?_, ?_⟩
    · intro e he
      rw [List.mem_append] at he
      rw [PartOf, image_length]
      rcases he with he | he
      · split at he
        · simp only [List.mem_singleton] at he
          subst he
          refine ⟨by simp only [List.length_drop]; omega, fun i hi => ?_⟩
          simp only
          rw [getD_drop, show d.length + st.headerLen + w + i = st.headerLen + d.length + (w + i) by omega, image_getD_extra]
        · cases he
      · simp only [List.mem_singleton] at he
        subst he
        refine ⟨by simp only [List.length_append, List.length_take, hl]; omega, fun i hi => ?_⟩
        simp only [List.length_append, List.length_take, hl] at hi
        simp only [Nat.zero_add]
        by_cases c1 : i < st.headerLen
        · rw [List.append_assoc, getD_append_left (by omega), image_getD_header st d x hv c1]
        · by_cases c2 : i < st.headerLen + d.length
          · rw [getD_append_left (by simp [hl]; omega), getD_append_right (by omega), hl]
            have := image_getD_data st d x (i := i - st.headerLen) (by omega)
            rw [← this]; congr 1; omega
          · rw [getD_append_right (by simp [hl]; omega), getD_take (by simp [hl]; omega)]
            have := image_getD_extra st d x (i - st.headerLen - d.length)
            rw [show st.headerLen + d.length + (i - st.headerLen - d.length) = i by omega] at this
            rw [this]; congr 1; simp [hl]; omega
    · intro i hi
      by_cases c : i < st.headerLen + d.length + w
      · refine ⟨_, List.mem_append_right _ (List.mem_singleton_self _), ?_⟩
        simp only [Covers, List.length_append, List.length_take, hl]; omega
      · rw [if_pos (by omega)]
        refine ⟨_, List.mem_append_left _ (List.mem_singleton_self _), ?_⟩
        simp only [Covers, List.length_drop]; omega
    · intro _
      refine ⟨_, _, rfl, ?_⟩
      intro e he
      split at he
      · simp only [List.mem_singleton] at he
        subst he
        simp only; omega
      · cases he
  · have hv : st.varLen = true → P ≤ d.length + st.headerLen := fun h => by
      apply Classical.byContradiction
      intro hs
      exact hone ⟨h, by omega⟩
    have h2 : st.headerLen ≤ 4 := by have := st.headerLen_le; split at this <;> omega
    rw [paged_many st P d x hP hv]
    obtain ⟨g1, g2⟩ := many_fit st.varLen P st.headerLen d.length x.length hP h2 hv (fun h => st.headerLen_fixed h)
    have hwx : min (P - (d.length + st.headerLen) % P) x.length ≤ x.length := Nat.min_le_right _ _
    have ht0 : x.length = 0 → tail P (d.length + st.headerLen) x.length = 0 := fun h => by unfold tail; rw [if_pos h]
    have hff : (if st.varLen then P - st.headerLen else 0) ≠ 0 → st.varLen = true := fun h => by
      cases hvv : st.varLen
      · rw [hvv] at h; simp at h
      · rfl
    have hff2 : st.varLen = true → (if st.varLen then P - st.headerLen else 0) ≠ 0 := fun h => by
      rw [if_pos h]; omega
    simp only
    generalize tail P (d.length + st.headerLen) x.length = t at *
    generalize min (P - (d.length + st.headerLen) % P) x.length = w at *
    generalize (if st.varLen then P - st.headerLen else 0) = f at *
    refine ⟨?_, ?_, ?_⟩
    · intro e he
      simp only [List.mem_append] at he
      rw [PartOf, image_length]
      rcases he with ((he | he) | he) | he
      · split at he
        · simp only [List.mem_singleton] at he
          subst he
          refine ⟨by simp only [List.length_take, List.length_drop]; omega, fun i hi => ?_⟩
          simp only [List.length_take, List.length_drop] at hi
          rw [getD_take (by omega), getD_drop, ← image_getD_data st d x (by omega)]
          simp only; congr 1; omega
        · cases he
      · split at he
        · simp only [List.mem_singleton] at he
          subst he
          refine ⟨by simp only [List.length_append, List.length_take, List.length_drop]; omega, fun i hi => ?_⟩
          simp only [List.length_append, List.length_take, List.length_drop] at hi
          simp only
          by_cases c : i < t
          · rw [getD_append_left (by simp; omega), getD_take c, getD_drop, ← image_getD_data st d x (by omega)]
            congr 1; omega
          · rw [getD_append_right (by simp; omega), getD_take (by simp; omega)]
            rw [show f + st.headerLen + (d.length - f - t) + i = st.headerLen + d.length + (i - t) by omega, image_getD_extra]
            congr 1; simp; omega
        · cases he
      · split at he
        · simp only [List.mem_singleton] at he
          subst he
          refine ⟨by simp only [List.length_drop]; omega, fun i hi => ?_⟩
          simp only
          rw [getD_drop, show f + st.headerLen + (d.length - f - t) + t + w + i = st.headerLen + d.length + (w + i) by omega, image_getD_extra]
        · cases he
      · split at he
        · rename_i hf0
          have hl := st.header_length (hff hf0) d.length
          simp only [List.mem_singleton] at he
          subst he
          refine ⟨by simp only [List.length_append, List.length_take, hl]; omega, fun i hi => ?_⟩
          simp only [List.length_append, List.length_take, hl] at hi
          simp only [Nat.zero_add]
          by_cases c1 : i < st.headerLen
          · rw [getD_append_left (by omega), image_getD_header st d x (hff hf0) c1]
          · rw [getD_append_right (by omega), getD_take (by omega), hl, ← image_getD_data st d x (by omega)]
            congr 1; omega
        · cases he
    · intro i hi
      by_cases c1 : i < f + st.headerLen
      · have hf0 : f ≠ 0 := by
          intro h
          by_cases hvv : st.varLen = true
          · exact hff2 hvv h
          · have := st.headerLen_fixed (by simpa using hvv)
            omega
        have hl := st.header_length (hff hf0) d.length
        rw [if_pos hf0]
        refine ⟨_, List.mem_append_right _ (List.mem_singleton_self _), ?_⟩
        simp only [Covers, List.length_append, List.length_take, hl]; omega
      · by_cases c2 : i < f + st.headerLen + (d.length - f - t)
        · rw [if_pos (show d.length - f - t ≠ 0 by omega)]
          refine ⟨_, List.mem_append_left _ (List.mem_append_left _ (List.mem_append_left _ (List.mem_singleton_self _))), ?_⟩
          simp only [Covers, List.length_take, List.length_drop]; omega
        · have hx : x.length ≠ 0 := by intro h; have := ht0 h; omega
          rw [if_pos hx]
          by_cases c3 : i < f + st.headerLen + (d.length - f - t) + t + w
          · refine ⟨_, List.mem_append_left _ (List.mem_append_left _ (List.mem_append_right _ (List.mem_singleton_self _))), ?_⟩
            simp only [Covers, List.length_append, List.length_take, List.length_drop]; omega
          · rw [if_pos (show w < x.length by omega)]
            refine ⟨_, List.mem_append_left _ (List.mem_append_right _ (List.mem_singleton_self _)), ?_⟩
            simp only [Covers, List.length_drop]; omega
    · intro hvv
      rw [if_pos (hff2 hvv)]
      refine ⟨_, _, rfl, ?_⟩
      intro e he
      simp only [List.mem_append] at he
      rcases he with (he | he) | he <;> (split at he; (simp only [List.mem_singleton] at he; subst he; simp only; omega); cases he)

theorem writes_parts (st : Store) (sector extra : Nat) (hst : st.OK sector extra) (d x : Bytes) (hd : 0 < d.length) :
    (∀ e ∈ writes st d x, PartOf (image st d x) e) ∧
    (∀ i, i < (image st d x).length → ∃ e ∈ writes st d x, Covers e i) ∧
    (st.varLen = true → ∃ pre b, writes st d x = pre ++ [(0, b)] ∧ ∀ e ∈ pre, st.headerLen ≤ e.1) := by
  unfold writes
  split
  · rename_i p hp
    exact paged_parts st p d x (hst.page p hp) hd
  · refine ⟨plain_parts st d x, fun i hi => plain_cover st d x hi, fun hv => ?_⟩
    unfold plainWrites
    simp only [hv, if_true]
    refine ⟨_, _, rfl, ?_⟩
    intro e he
    rw [List.mem_append] at he
    rcases he with he | he
    · simp only [List.mem_singleton] at he; subst he; exact Nat.le_refl _
    · split at he
      · simp only [List.mem_singleton] at he; subst he; simp only; omega
      · cases he

/-- Writes of parts of an image: only the bytes of the parts change, and if all succeed these bytes are those of the image. -/
theorem runWrites_spec (dv : Dev) (img : Bytes) (a : Nat) (hf : a + img.length < 2 ^ 32) (ws : List (Nat × Bytes)) :
    ∀ (s : FS), (∀ e ∈ ws, PartOf img e) →
    (∀ i, (∀ e ∈ ws, i < a + e.1 ∨ a + e.1 + e.2.length ≤ i) → (runWrites dv s a ws).2.mem i = s.mem i) ∧
    ((runWrites dv s a ws).1 = .ok → ∀ i, (∃ e ∈ ws, Covers e i) → (runWrites dv s a ws).2.mem (a + i) = img.getD i 0) := by
  induction ws with
  | nil => intro s _; exact ⟨fun _ _ => rfl, fun _ i ⟨e, he, _⟩ => by cases he⟩
  | cons e ws ih =>
    intro s hw
    obtain ⟨off, b⟩ := e
    obtain ⟨p1, p2⟩ := hw (off, b) (by simp)
    simp only at p1 p2
    obtain ⟨v1, v2⟩ := Flash.program_verify_exact dv .none s (a + off) b (by simp [Flash.EraseFn.size]) (by omega)
    unfold runWrites
    rw [u32_id (by omega)]
    cases hp : Flash.programVerify dv .none s (a + off) b with
    | mk st s1 =>
      rw [hp] at v1 v2
      have fr : ∀ i, i < a + off ∨ a + off + b.length ≤ i → s1.mem i = s.mem i := fun i hi =>
        v1 i (by rw [Flash.EraseFn.size, Flash.touched_one]; omega)
      cases st
      case ok =>
        obtain ⟨i1, i2⟩ := ih s1 (fun e he => hw e (List.mem_cons_of_mem _ he))
        simp only
        refine ⟨fun i hi => ?_, fun hok i hc => ?_⟩
        · rw [i1 i (fun e he => hi e (List.mem_cons_of_mem _ he)), fr i (hi (off, b) (by simp))]
        · by_cases hin : ∃ e ∈ ws, Covers e i
          · exact i2 hok i hin
          · obtain ⟨e, he, hce⟩ := hc
            rcases List.mem_cons.mp he with h | h
            · subst h
              obtain ⟨c1, c2⟩ := hce
              simp only at c1 c2
              rw [i1 (a + i) (fun e he => by
                apply Classical.byContradiction
                intro hcon
                exact hin ⟨e, he, by unfold Covers; omega⟩)]
              have := v2 rfl
              simp only at this
              have h2 := congrArg (fun l => l.getD (i - off) 0) this
              simp only [Flash.bytesAt_getD _ _ _ _ _ (show i - off < b.length by omega)] at h2
              rw [show a + off + (i - off) = a + i by omega] at h2
              rw [h2, p2 _ (by omega), show off + (i - off) = i by omega]
            · exact absurd ⟨e, h, hce⟩ hin
      all_goals exact ⟨fun i hi => fr i (hi (off, b) (by simp)), fun h => by cases h⟩

/-! ### Block addresses -/

theorem OK.start_facts {st : Store} {sector extra : Nat} (h : st.OK sector extra) {id : Nat} (hid : id < st.blocks) :
    st.addr id = st.start id ∧ st.start id + st.blockSize < 2 ^ 32 ∧ st.start id % sector = 0 := by
  have hb := h.size
  have hmul : id * st.blockSize ≤ (st.blocks - 1) * st.blockSize := Nat.mul_le_mul_right _ (by omega)
  have hmul2 : (st.blocks - 1) * st.blockSize + st.blockSize = st.blocks * st.blockSize := by
    rw [← Nat.succ_mul]; congr 1; omega
  have hal : id * st.blockSize % sector = 0 := by rw [Nat.mul_mod, h.sizeAligned]; simp
  unfold Store.addr Store.start
  cases hd : st.decreasing
  · have := h.up hd
    rw [Nat.mul_comm] at this
    simp only [Bool.false_eq_true, if_false]
    rw [u32_id (n := id * st.blockSize) (by omega), u32_id (by omega)]
    exact ⟨rfl, by omega, by rw [Nat.add_mod, h.baseAligned, hal]; simp⟩
  · obtain ⟨h1, h2⟩ := h.down hd
    rw [Nat.mul_comm] at h1
    simp only [if_true]
    rw [u32_id (n := id * st.blockSize) (by omega)]
    refine ⟨?_, by omega, ?_⟩
    · unfold u32
      rw [show st.base + (2 ^ 32 - id * st.blockSize) = st.base - id * st.blockSize + 2 ^ 32 by omega, Nat.add_mod_right,
        Nat.mod_eq_of_lt (by omega)]
    · have hdb := Nat.dvd_of_mod_eq_zero h.baseAligned
      have hdi := Nat.dvd_of_mod_eq_zero hal
      exact Nat.mod_eq_zero_of_dvd (Nat.dvd_sub hdb hdi)

theorem touched_aligned {sector a len i : Nat} (hs : 0 < sector) (ha : a % sector = 0) (hl : len % sector = 0) :
    Touched sector a len i ↔ a ≤ i ∧ i < a + len := by
  constructor
  · rintro ⟨j, h1, h2, h3⟩
    obtain ⟨q, rfl⟩ := Nat.dvd_of_mod_eq_zero ha
    obtain ⟨n, rfl⟩ := Nat.dvd_of_mod_eq_zero hl
    rw [← Nat.mul_add] at h2 ⊢
    have hj1 : q ≤ j / sector := by rw [Nat.le_div_iff_mul_le hs, Nat.mul_comm]; exact h1
    have hj2 : j / sector < q + n := by rw [Nat.div_lt_iff_lt_mul hs, Nat.mul_comm]; exact h2
    rw [← h3] at hj1 hj2
    rw [Nat.le_div_iff_mul_le hs, Nat.mul_comm] at hj1
    rw [Nat.div_lt_iff_lt_mul hs, Nat.mul_comm] at hj2
    exact ⟨hj1, hj2⟩
  · rintro ⟨h1, h2⟩
    exact .of_mem h1 h2

/-- An address in the block `id`. -/
def Store.InBlock (st : Store) (id i : Nat) : Prop := st.start id ≤ i ∧ i < st.start id + st.blockSize

theorem OK.blocks_disjoint {st : Store} {sector extra : Nat} (h : st.OK sector extra) {id id' i : Nat} (h1 : id < st.blocks)
    (h2 : id' < st.blocks) (hne : id ≠ id') (hi : st.InBlock id i) : ¬ st.InBlock id' i := by
  have key : ∀ a b : Nat, a < b → a * st.blockSize + st.blockSize ≤ b * st.blockSize := fun a b hab => by
    rw [← Nat.succ_mul]; exact Nat.mul_le_mul_right _ hab
  have hmul : ∀ k, k < st.blocks → k * st.blockSize ≤ (st.blocks - 1) * st.blockSize := fun k hk => Nat.mul_le_mul_right _ (by omega)
  have m1 := hmul id h1
  have m2 := hmul id' h2
  have hlt : id < id' ∨ id' < id := by omega
  unfold Store.InBlock Store.start at *
  cases hd : st.decreasing
  · simp only [hd, Bool.false_eq_true, if_false] at *
    rcases hlt with c | c <;> have := key _ _ c <;> omega
  · have := (h.down hd).1
    rw [Nat.mul_comm] at this
    simp only [hd, if_true] at *
    rcases hlt with c | c <;> have := key _ _ c <;> omega

end Verif.FlashStore
