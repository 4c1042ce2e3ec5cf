import Verif.Heap.Lemmas
/-! The list operations of `heap_with_defrag_free`. -/
namespace Verif.Heap

theorem Sep.cross {l1 l2 : List Nat} (h : Sep (l1 ++ l2)) {x y : Nat} (hx : x ∈ l1) (hy : y ∈ l2) : x + 16 ≤ y ∨ y + 16 ≤ x :=
  (List.pairwise_append.mp h).2.2 x hx y hy

theorem Sep.sub {l l' : List Nat} (h : Sep l) (hs : l'.Sublist l) : Sep l' := List.Pairwise.sublist hs h

theorem Seg.last_next {m : Mem} {l : List Nat} : ∀ {p n : Nat}, Seg m p l n → l ≠ [] → m (last p l + 8) = n := by
  induction l with
  | nil => intro p n _ hh; exact (hh rfl).elim
  | cons c l ih =>
    intro p n hh _
    cases l with
    | nil => exact hh.2.1
    | cons d l => exact ih hh.2.2 (by simp)

/-- The search for the free block before an address. -/
theorem findPrev_spec (m : Mem) (a : Nat) (l2 : List Nat) (h2 : ∀ x ∈ l2, a < x) (l1 : List Nat) : ∀ (fuel p x : Nat), l1.length < fuel →
    Seg m p (x :: l1 ++ l2) 0 → (∀ y ∈ l1, y < a ∧ y ≠ 0) → findPrev m a fuel x = some (last x l1) := by
  induction l1 with
  | nil =>
    intro fuel p x hf hs _
    obtain ⟨k, rfl⟩ : ∃ k, fuel = k + 1 := ⟨fuel - 1, by simp at hf; omega⟩
    have e : m (x + 8) = first l2 0 := hs.2.1
    unfold findPrev
    rw [e, if_neg]
    · rfl
    · rintro ⟨h1, h3⟩
      cases l2 with
      | nil => exact h1 rfl
      | cons y l => have := h2 y (by simp); simp only [first] at h3; omega
  | cons y l1 ih =>
    intro fuel p x hf hs hy
    obtain ⟨k, rfl⟩ : ∃ k, fuel = k + 1 := ⟨fuel - 1, by simp at hf; omega⟩
    have e : m (x + 8) = y := hs.2.1
    have hyy := hy y (by simp)
    unfold findPrev
    rw [e, if_pos ⟨hyy.2, hyy.1⟩]
    exact ih k x y (by simp at hf; omega) hs.2.2 (fun z hz => hy z (by simp [hz]))

/-- Lines 281-285: the block becomes the first of the free list. -/
theorem front_spec {m : Mem} {a r : Nat} {F : List Nat} (h : Seg m 0 (r :: F) 0) (hs : Sep (a :: r :: F)) (ha : m (a + 12) = 0) :
    Seg (upd (upd m (a + 8) r) (r + 12) a) 0 (a :: r :: F) 0 ∧
    (∀ y, Off (a :: r :: F) y → upd (upd m (a + 8) r) (r + 12) a y = m y) ∧
    (∀ z ∈ a :: r :: F, ∀ k, k < 8 → upd (upd m (a + 8) r) (r + 12) a (z + k) = m (z + k)) := by
  have har := (List.pairwise_cons.mp hs).1 r (by simp)
  refine ⟨⟨?_, ?_, ?_, ?_, h.2.2.congr (fun z hz => ?_)⟩, fun y hy => ?_, fun z hz k hk => ?_⟩
  · rw [upd_ne _ _ (by omega), upd_ne _ _ (by omega), ha]
  · rw [upd_ne _ _ (by omega), upd_same]; rfl
  · rw [upd_same]
  · rw [upd_ne _ _ (by omega), upd_ne _ _ (by omega)]; exact h.2.1
  · have h1 := (List.pairwise_cons.mp hs).1 z (by simp [hz])
    have h2 := (List.pairwise_cons.mp (List.pairwise_cons.mp hs).2).1 z hz
    exact ⟨by rw [upd_ne _ _ (by omega), upd_ne _ _ (by omega)], by rw [upd_ne _ _ (by omega), upd_ne _ _ (by omega)]⟩
  · have h1 := hy a (by simp)
    have h2 := hy r (by simp)
    rw [upd_ne _ _ (by omega), upd_ne _ _ (by omega)]
  · have h1 := hs.of (x := z) (y := a) hz (by simp)
    have h2 := hs.of (x := z) (y := r) hz (by simp)
    rw [upd_ne _ _ (by omega), upd_ne _ _ (by omega)]

/-- The memory after `mergeNext` of a block that is in the list. -/
theorem merge_in_spec {m : Mem} {x rn : Nat} {L1 L2 : List Nat} (h : Seg m 0 (L1 ++ [x] ++ [rn] ++ L2) 0)
    (hs : Sep (L1 ++ [x] ++ [rn] ++ L2)) (hz : ∀ z ∈ L2, z ≠ 0) :
    Seg (mergeNext m x rn true) 0 (L1 ++ [x] ++ L2) 0 ∧
    mergeNext m x rn true (x + 4) = m (x + 4) + m (rn + 4) + 16 ∧ mergeNext m x rn true x = m x ∧
    (∀ y, Off (L1 ++ [x] ++ [rn] ++ L2) y → mergeNext m x rn true y = m y) ∧
    (∀ z ∈ L1 ++ L2, ∀ k, k < 8 → mergeNext m x rn true (z + k) = m (z + k)) := by
  have hof := fun {x y} => hs.of (x := x) (y := y)
  have hxr : x + 16 ≤ rn ∨ rn + 16 ≤ x := by
    have : Sep ([x] ++ [rn]) := hs.sub (by
      rw [List.append_assoc, List.append_assoc]
      exact (List.sublist_append_of_sublist_right (by rw [← List.append_assoc]; exact List.sublist_append_left _ _)))
    exact this.cross (by simp) (by simp)
  have e8 : m (rn + 8) = first L2 0 := by
    rw [show L1 ++ [x] ++ [rn] ++ L2 = (L1 ++ [x]) ++ rn :: L2 by simp] at h
    exact h.head.2
  have e8x : m (x + 12) = last 0 L1 := by
    rw [show L1 ++ [x] ++ [rn] ++ L2 = L1 ++ x :: (rn :: L2) by simp] at h
    exact h.head.1
  have hcx : ∀ z ∈ L1 ++ L2, z + 16 ≤ x ∨ x + 16 ≤ z := fun z hz => by
    rcases List.mem_append.mp hz with h1 | h1
    · have : Sep (L1 ++ [x]) := hs.sub (by rw [List.append_assoc]; exact List.sublist_append_left _ _)
      exact this.cross h1 (by simp)
    · rw [List.append_assoc] at hs
      have := Sep.cross hs (x := x) (y := z) (by simp) (by simp [h1]); omega
  have hcr : ∀ z ∈ L1 ++ L2, z + 16 ≤ rn ∨ rn + 16 ≤ z := fun z hz => by
    rcases List.mem_append.mp hz with h1 | h1
    · rw [List.append_assoc] at hs
      have := Sep.cross hs (x := z) (y := rn) (by simp [h1]) (by simp); omega
    · have := Sep.cross hs (x := rn) (y := z) (by simp) h1; omega
  have hv : ∀ y, mergeNext m x rn true y = if rn ≤ y ∧ y < rn + 16 ∧ (y - rn) % 4 = 0 then 0 else
      if L2 ≠ [] ∧ y = first L2 0 + 12 then x else if y = x + 8 then first L2 0 else if y = x + 4 then m (x + 4) + m (rn + 4) + 16 else m y := by
    intro y
    unfold mergeNext
    simp only [Bool.not_true, Bool.false_eq_true, if_false]
    rw [setHdr_eq]
    have e8' : upd (upd m (x + 4) (m (x + 4) + m (rn + 4) + 16)) (x + 8) (upd m (x + 4) (m (x + 4) + m (rn + 4) + 16) (rn + 8)) (rn + 8) = first L2 0 := by
      rw [upd_ne _ _ (by omega), upd_ne _ _ (by omega), e8]
    rw [e8', upd_ne m _ (show rn + 8 ≠ x + 4 by omega), e8]
    by_cases c1 : rn ≤ y ∧ y < rn + 16 ∧ (y - rn) % 4 = 0
    · rw [if_pos c1]
      repeat' split
      all_goals first | rfl | omega
    · rw [if_neg c1, if_neg (by omega), if_neg (by omega), if_neg (by omega), if_neg (by omega)]
      cases L2 with
      | nil => simp [first, upd]
      | cons b L2 =>
        have hb := hz b (by simp)
        rw [show first (b :: L2) 0 = b from rfl, if_pos hb]
        by_cases c2 : y = b + 12
        · rw [if_pos ⟨by simp, c2⟩, c2, upd_same]
        · rw [if_neg (fun h => c2 h.2), upd_ne _ _ c2]; rfl
  refine ⟨?_, ?_, ?_, fun y hy => ?_, fun z hz k hk => ?_⟩
  · refine Seg.splice (m := m) (mid := [x] ++ [rn]) (by rw [← List.append_assoc]; exact h) (by rw [← List.append_assoc]; exact hs.nodup)
      (fun z hz => ?_) (fun hne => ?_) (fun z hz => ?_) (fun hne => ?_) ⟨?_, ?_, trivial⟩
    · have h1 := hcx z (by simp [hz])
      have h2 := hcr z (by simp [hz])
      have h3 : L2 ≠ [] → z + 16 ≤ first L2 0 ∨ first L2 0 + 16 ≤ z := fun hne =>
        Sep.cross hs (x := z) (y := first L2 0) (by simp [hz]) (first_mem hne)
      refine ⟨?_, fun _ => ?_⟩
      · rw [hv, if_neg (by omega), if_neg (by rintro ⟨g1, g2⟩; have := h3 g1; omega), if_neg (by omega), if_neg (by omega)]
      · rw [hv, if_neg (by omega), if_neg (by rintro ⟨g1, g2⟩; have := h3 g1; omega), if_neg (by omega), if_neg (by omega)]
    · have hl := last_mem L1 0 hne
      have h1 := hcx _ (List.mem_append_left L2 hl)
      have h2 := hcr _ (List.mem_append_left L2 hl)
      have h3 : L2 ≠ [] → last 0 L1 + 16 ≤ first L2 0 ∨ first L2 0 + 16 ≤ last 0 L1 := fun hne =>
        Sep.cross hs (x := last 0 L1) (y := first L2 0) (by simp [hl]) (first_mem hne)
      rw [hv, if_neg (by omega), if_neg (by rintro ⟨g1, g2⟩; have := h3 g1; omega), if_neg (by omega), if_neg (by omega)]
      rw [List.append_assoc, List.append_assoc, seg_append] at h
      have := h.1
      show m (last 0 L1 + 8) = x
      exact this.last_next hne
    · have h1 := hcx z (by simp [hz])
      have h2 := hcr z (by simp [hz])
      have h3 : z = first L2 0 ∨ z + 16 ≤ first L2 0 ∨ first L2 0 + 16 ≤ z := by
        have hne : L2 ≠ [] := by intro e; rw [e] at hz; cases hz
        exact hof (x := z) (y := first L2 0) (by simp [hz]) (by simp [first_mem hne])
      refine ⟨?_, fun hne => ?_⟩
      · rw [hv, if_neg (by omega), if_neg (by rintro ⟨g1, g2⟩; omega), if_neg (by omega), if_neg (by omega)]
      · rw [hv, if_neg (by omega), if_neg (by rintro ⟨g1, g2⟩; omega), if_neg (by omega), if_neg (by omega)]
    · have hl := first_mem (n := 0) hne
      have h2 := hcr _ (List.mem_append_right L1 hl)
      rw [hv, if_neg (by omega), if_pos ⟨hne, rfl⟩, last_append]; rfl
    · have h3 : L2 ≠ [] → first L2 0 + 16 ≤ x ∨ x + 16 ≤ first L2 0 := fun hne => hcx _ (List.mem_append_right L1 (first_mem hne))
      rw [hv, if_neg (by omega), if_neg (by rintro ⟨g1, g2⟩; have := h3 g1; omega), if_neg (by omega), if_neg (by omega), e8x]
    · have h3 : L2 ≠ [] → first L2 0 + 16 ≤ x ∨ x + 16 ≤ first L2 0 := fun hne => hcx _ (List.mem_append_right L1 (first_mem hne))
      rw [hv, if_neg (by omega), if_neg (by rintro ⟨g1, g2⟩; have := h3 g1; omega), if_pos rfl]; rfl
  · have h3 : L2 ≠ [] → first L2 0 + 16 ≤ x ∨ x + 16 ≤ first L2 0 := fun hne => hcx _ (List.mem_append_right L1 (first_mem hne))
    rw [hv, if_neg (by omega), if_neg (by rintro ⟨g1, g2⟩; have := h3 g1; omega), if_neg (by omega), if_pos rfl]
  · have h3 : L2 ≠ [] → first L2 0 + 16 ≤ x ∨ x + 16 ≤ first L2 0 := fun hne => hcx _ (List.mem_append_right L1 (first_mem hne))
    rw [hv, if_neg (by omega), if_neg (by rintro ⟨g1, g2⟩; have := h3 g1; omega), if_neg (by omega), if_neg (by omega)]
  · have h1 := hy x (by simp)
    have h2 := hy rn (by simp)
    have h3 : L2 ≠ [] → y < first L2 0 ∨ first L2 0 + 16 ≤ y := fun hne => hy _ (by simp [first_mem hne])
    rw [hv, if_neg (by omega), if_neg (by rintro ⟨g1, g2⟩; have := h3 g1; omega), if_neg (by omega), if_neg (by omega)]
  · have h1 := hcx z hz
    have h2 := hcr z hz
    have h3 : L2 ≠ [] → z = first L2 0 ∨ z + 16 ≤ first L2 0 ∨ first L2 0 + 16 ≤ z := fun hne =>
      hof (x := z) (y := first L2 0) (by simp at hz ⊢; grind) (by simp [first_mem hne])
    rw [hv, if_neg (by omega), if_neg (by rintro ⟨g1, g2⟩; have := h3 g1; omega), if_neg (by omega), if_neg (by omega)]

/-- The memory after `mergeNext` of a block that is not yet in the list: it takes the place of the block behind it. -/
theorem merge_out_spec {m : Mem} {x rn : Nat} {L1 L2 : List Nat} (h : Seg m 0 (L1 ++ [rn] ++ L2) 0)
    (hs : Sep (x :: (L1 ++ [rn] ++ L2))) (hz : ∀ z ∈ L2, z ≠ 0) (hL1 : L1 ≠ []) :
    Seg (mergeNext m x rn false) 0 (L1 ++ [x] ++ L2) 0 ∧
    mergeNext m x rn false (x + 4) = m (x + 4) + m (rn + 4) + 16 ∧ mergeNext m x rn false x = m x ∧
    (∀ y, Off (x :: (L1 ++ [rn] ++ L2)) y → mergeNext m x rn false y = m y) ∧
    (∀ z ∈ L1 ++ L2, ∀ k, k < 8 → mergeNext m x rn false (z + k) = m (z + k)) := by
  have hsx := (List.pairwise_cons.mp hs).1
  have hs' : Sep (L1 ++ [rn] ++ L2) := (List.pairwise_cons.mp hs).2
  have hof := fun {x y} => hs'.of (x := x) (y := y)
  have hxr := hsx rn (by simp)
  have ehd : m (rn + 12) = last 0 L1 ∧ m (rn + 8) = first L2 0 := by
    rw [List.append_assoc] at h
    exact h.head
  obtain ⟨e12, e8⟩ := ehd
  have hcx : ∀ z ∈ L1 ++ L2, x + 16 ≤ z ∨ z + 16 ≤ x := fun z hz => hsx z (by simp at hz ⊢; grind)
  have hcr : ∀ z ∈ L1 ++ L2, z + 16 ≤ rn ∨ rn + 16 ≤ z := fun z hz => by
    rcases List.mem_append.mp hz with h1 | h1
    · rw [List.append_assoc] at hs'
      have := Sep.cross hs' (x := z) (y := rn) h1 (by simp); omega
    · have := Sep.cross hs' (x := rn) (y := z) (by simp) h1; omega
  have hl := last_mem L1 0 hL1
  have hlx := hcx _ (List.mem_append_left L2 hl)
  have hlr := hcr _ (List.mem_append_left L2 hl)
  have hl2 : L2 ≠ [] → last 0 L1 + 16 ≤ first L2 0 ∨ first L2 0 + 16 ≤ last 0 L1 := fun hne =>
    Sep.cross hs' (x := last 0 L1) (y := first L2 0) (by simp [hl]) (first_mem hne)
  have hx2 : L2 ≠ [] → first L2 0 + 16 ≤ x ∨ x + 16 ≤ first L2 0 := fun hne => by
    have := hcx _ (List.mem_append_right L1 (first_mem (n := 0) hne)); omega
  have hr2 : L2 ≠ [] → first L2 0 + 16 ≤ rn ∨ rn + 16 ≤ first L2 0 := fun hne => hcr _ (List.mem_append_right L1 (first_mem (n := 0) hne))
  have hv : ∀ y, mergeNext m x rn false y = if rn ≤ y ∧ y < rn + 16 ∧ (y - rn) % 4 = 0 then 0 else
      if y = last 0 L1 + 8 then x else if y = x + 12 then last 0 L1 else
      if L2 ≠ [] ∧ y = first L2 0 + 12 then x else if y = x + 8 then first L2 0 else if y = x + 4 then m (x + 4) + m (rn + 4) + 16 else m y := by
    intro y
    unfold mergeNext
    simp only [Bool.not_false, if_true]
    rw [setHdr_eq]
    have e8' : upd (upd m (x + 4) (m (x + 4) + m (rn + 4) + 16)) (x + 8) (upd m (x + 4) (m (x + 4) + m (rn + 4) + 16) (rn + 8)) (rn + 8) = first L2 0 := by
      rw [upd_ne _ _ (by omega), upd_ne _ _ (by omega), e8]
    rw [e8', upd_ne m _ (show rn + 8 ≠ x + 4 by omega), e8]
    by_cases c1 : rn ≤ y ∧ y < rn + 16 ∧ (y - rn) % 4 = 0
    · rw [if_pos c1]
      repeat' split
      all_goals first | rfl | omega
    · rw [if_neg c1, if_neg (by omega), if_neg (by omega), if_neg (by omega), if_neg (by omega)]
      cases L2 with
      | nil =>
        rw [show first [] 0 = 0 from rfl, if_neg (by simp)]
        have e12' : upd (upd m (x + 4) (m (x + 4) + m (rn + 4) + 16)) (x + 8) 0 (rn + 12) = last 0 L1 := by
          rw [upd_ne _ _ (by omega), upd_ne _ _ (by omega), e12]
        rw [e12']
        rw [upd_ne _ (i := rn + 12) (last 0 L1) (by omega), e12']
        simp only [ne_eq, not_true, false_and, if_false]
        rfl
      | cons b L2 =>
        have hb := hz b (by simp)
        have h1 := hx2 (by simp)
        have h2 := hr2 (by simp)
        simp only [first] at h1 h2
        rw [show first (b :: L2) 0 = b from rfl, if_pos hb]
        have e12' : upd (upd (upd m (x + 4) (m (x + 4) + m (rn + 4) + 16)) (x + 8) b) (b + 12) x (rn + 12) = last 0 L1 := by
          rw [upd_ne _ _ (by omega), upd_ne _ _ (by omega), upd_ne _ _ (by omega), e12]
        rw [e12']
        rw [upd_ne _ (i := rn + 12) (last 0 L1) (by omega), e12']
        by_cases c2 : y = last 0 L1 + 8
        · rw [if_pos c2, c2, upd_same]
        · rw [if_neg c2, upd_ne _ _ c2]
          by_cases c3 : y = x + 12
          · rw [if_pos c3, c3, upd_same]
          · rw [if_neg c3, upd_ne _ _ c3]
            by_cases c4 : y = b + 12
            · rw [if_pos ⟨by simp, c4⟩, c4, upd_same]
            · rw [if_neg (fun h => c4 h.2), upd_ne _ _ c4]; rfl
  refine ⟨?_, ?_, ?_, fun y hy => ?_, fun z hz k hk => ?_⟩
  · refine Seg.splice (m := m) (mid := [rn]) h hs'.nodup (fun z hz => ?_) (fun hne => ?_) (fun z hz => ?_) (fun hne => ?_) ⟨?_, ?_, trivial⟩
    · have h1 := hcx z (by simp [hz])
      have h2 := hcr z (by simp [hz])
      have h4 := hof (x := z) (y := last 0 L1) (by simp [hz]) (by simp [hl])
      have h3 : L2 ≠ [] → z + 16 ≤ first L2 0 ∨ first L2 0 + 16 ≤ z := fun hne =>
        Sep.cross hs' (x := z) (y := first L2 0) (by simp [hz]) (first_mem hne)
      refine ⟨?_, fun _ => ?_⟩
      · rw [hv, if_neg (by omega), if_neg (by omega), if_neg (by omega), if_neg (by rintro ⟨g1, g2⟩; have := h3 g1; omega), if_neg (by omega), if_neg (by omega)]
      · rw [hv, if_neg (by omega), if_neg (by omega), if_neg (by omega), if_neg (by rintro ⟨g1, g2⟩; have := h3 g1; omega), if_neg (by omega), if_neg (by omega)]
    · rw [hv, if_neg (by omega), if_pos rfl]; rfl
    · have h1 := hcx z (by simp [hz])
      have h2 := hcr z (by simp [hz])
      have h5 := Sep.cross hs' (x := last 0 L1) (y := z) (by simp [hl]) hz
      have h3 : z = first L2 0 ∨ z + 16 ≤ first L2 0 ∨ first L2 0 + 16 ≤ z := by
        have hne : L2 ≠ [] := by intro e; rw [e] at hz; cases hz
        exact hof (x := z) (y := first L2 0) (by simp [hz]) (by simp [first_mem hne])
      refine ⟨?_, fun hne => ?_⟩
      · rw [hv, if_neg (by omega), if_neg (by omega), if_neg (by omega), if_neg (by rintro ⟨g1, g2⟩; omega), if_neg (by omega), if_neg (by omega)]
      · rw [hv, if_neg (by omega), if_neg (by omega), if_neg (by omega), if_neg (by rintro ⟨g1, g2⟩; omega), if_neg (by omega), if_neg (by omega)]
    · have h2 := hr2 hne
      have h3 := hl2 hne
      have h4 := hx2 hne
      rw [hv, if_neg (by omega), if_neg (by omega), if_neg (by omega), if_pos ⟨hne, rfl⟩, last_append]; rfl
    · rw [hv, if_neg (by omega), if_neg (by omega), if_pos rfl]
    · rw [hv, if_neg (by omega), if_neg (by omega), if_neg (by omega), if_neg (by rintro ⟨g1, g2⟩; have := hx2 g1; omega), if_pos rfl]; rfl
  · rw [hv, if_neg (by omega), if_neg (by omega), if_neg (by omega), if_neg (by rintro ⟨g1, g2⟩; have := hx2 g1; omega), if_neg (by omega), if_pos rfl]
  · rw [hv, if_neg (by omega), if_neg (by omega), if_neg (by omega), if_neg (by rintro ⟨g1, g2⟩; have := hx2 g1; omega), if_neg (by omega), if_neg (by omega)]
  · have h1 := hy x (by simp)
    have h2 := hy rn (by simp)
    have h4 := hy (last 0 L1) (by simp [hl])
    have h3 : L2 ≠ [] → y < first L2 0 ∨ first L2 0 + 16 ≤ y := fun hne => hy _ (by simp [first_mem hne])
    rw [hv, if_neg (by omega), if_neg (by omega), if_neg (by omega), if_neg (by rintro ⟨g1, g2⟩; have := h3 g1; omega), if_neg (by omega), if_neg (by omega)]
  · have h1 := hcx z hz
    have h2 := hcr z hz
    have h4 := hof (x := z) (y := last 0 L1) (by simp at hz ⊢; grind) (by simp [hl])
    have h3 : L2 ≠ [] → z = first L2 0 ∨ z + 16 ≤ first L2 0 ∨ first L2 0 + 16 ≤ z := fun hne =>
      hof (x := z) (y := first L2 0) (by simp at hz ⊢; grind) (by simp [first_mem hne])
    rw [hv, if_neg (by omega), if_neg (by omega), if_neg (by omega), if_neg (by rintro ⟨g1, g2⟩; have := h3 g1; omega), if_neg (by omega), if_neg (by omega)]

/-- Lines 325-331. -/
theorem insert_spec {m : Mem} {x : Nat} {L1 L2 : List Nat} (h : Seg m 0 (L1 ++ L2) 0)
    (hs : Sep (x :: (L1 ++ L2))) (hz : ∀ z ∈ L2, z ≠ 0) (hL1 : L1 ≠ []) :
    Seg (insertAfter m (last 0 L1) x) 0 (L1 ++ [x] ++ L2) 0 ∧
    (∀ y, Off (x :: (L1 ++ L2)) y → insertAfter m (last 0 L1) x y = m y) ∧
    (∀ z ∈ x :: (L1 ++ L2), ∀ k, k < 8 → insertAfter m (last 0 L1) x (z + k) = m (z + k)) := by
  have hsx := (List.pairwise_cons.mp hs).1
  have hs' : Sep (L1 ++ L2) := (List.pairwise_cons.mp hs).2
  have hof := fun {x y} => hs'.of (x := x) (y := y)
  have hl := last_mem L1 0 hL1
  have hlx := hsx _ (List.mem_append_left L2 hl)
  have e8 : m (last 0 L1 + 8) = first L2 0 := by
    rw [seg_append] at h
    exact h.1.last_next hL1
  have hl2 : L2 ≠ [] → last 0 L1 + 16 ≤ first L2 0 ∨ first L2 0 + 16 ≤ last 0 L1 := fun hne =>
    Sep.cross hs' (x := last 0 L1) (y := first L2 0) hl (first_mem hne)
  have hx2 : L2 ≠ [] → x + 16 ≤ first L2 0 ∨ first L2 0 + 16 ≤ x := fun hne => hsx _ (List.mem_append_right L1 (first_mem (n := 0) hne))
  have hv : ∀ y, insertAfter m (last 0 L1) x y = if L2 ≠ [] ∧ y = first L2 0 + 12 then x else if y = last 0 L1 + 8 then x else
      if y = x + 12 then last 0 L1 else if y = x + 8 then first L2 0 else m y := by
    intro y
    unfold insertAfter
    have e1 : upd (upd (upd m (x + 8) (m (last 0 L1 + 8))) (x + 12) (last 0 L1)) (last 0 L1 + 8) x (x + 8) = first L2 0 := by
      rw [upd_ne _ _ (by omega), upd_ne _ _ (by omega), upd_same, e8]
    rw [e1, e8]
    cases L2 with
    | nil =>
      rw [show first [] 0 = 0 from rfl, if_neg (by simp)]
      simp only [ne_eq, not_true, false_and, if_false]
      rfl
    | cons b L2 =>
      have hb := hz b (by simp)
      rw [show first (b :: L2) 0 = b from rfl, if_pos hb]
      by_cases c2 : y = b + 12
      · rw [if_pos ⟨by simp, c2⟩, c2, upd_same]
      · rw [if_neg (fun h => c2 h.2), upd_ne _ _ c2]; rfl
  refine ⟨?_, fun y hy => ?_, fun z hz k hk => ?_⟩
  · refine Seg.splice (m := m) (mid := []) (by simpa using h) (by simpa using hs'.nodup) (fun z hz => ?_) (fun hne => ?_) (fun z hz => ?_) (fun hne => ?_) ⟨?_, ?_, trivial⟩
    · have h1 := hsx z (by simp [hz])
      have h4 := hof (x := z) (y := last 0 L1) (by simp [hz]) (by simp [hl])
      have h3 : L2 ≠ [] → z + 16 ≤ first L2 0 ∨ first L2 0 + 16 ≤ z := fun hne =>
        Sep.cross hs' (x := z) (y := first L2 0) hz (first_mem hne)
      refine ⟨?_, fun _ => ?_⟩
      · rw [hv, if_neg (by rintro ⟨g1, g2⟩; have := h3 g1; omega), if_neg (by omega), if_neg (by omega), if_neg (by omega)]
      · rw [hv, if_neg (by rintro ⟨g1, g2⟩; have := h3 g1; omega), if_neg (by omega), if_neg (by omega), if_neg (by omega)]
    · rw [hv, if_neg (by rintro ⟨g1, g2⟩; have := hl2 g1; omega), if_pos rfl]; rfl
    · have h1 := hsx z (by simp [hz])
      have h5 := Sep.cross hs' (x := last 0 L1) (y := z) hl hz
      have h3 : z = first L2 0 ∨ z + 16 ≤ first L2 0 ∨ first L2 0 + 16 ≤ z := by
        have hne : L2 ≠ [] := by intro e; rw [e] at hz; cases hz
        exact hof (x := z) (y := first L2 0) (by simp [hz]) (by simp [first_mem hne])
      refine ⟨?_, fun hne => ?_⟩
      · rw [hv, if_neg (by rintro ⟨g1, g2⟩; omega), if_neg (by omega), if_neg (by omega), if_neg (by omega)]
      · rw [hv, if_neg (by rintro ⟨g1, g2⟩; omega), if_neg (by omega), if_neg (by omega), if_neg (by omega)]
    · rw [hv, if_pos ⟨hne, rfl⟩, last_append]; rfl
    · rw [hv, if_neg (by rintro ⟨g1, g2⟩; have := hx2 g1; omega), if_neg (by omega), if_pos rfl]
    · rw [hv, if_neg (by rintro ⟨g1, g2⟩; have := hx2 g1; omega), if_neg (by omega), if_neg (by omega), if_pos rfl]; rfl
  · have h1 := hy x (by simp)
    have h4 := hy (last 0 L1) (by simp [hl])
    have h3 : L2 ≠ [] → y < first L2 0 ∨ first L2 0 + 16 ≤ y := fun hne => hy _ (by simp [first_mem hne])
    rw [hv, if_neg (by rintro ⟨g1, g2⟩; have := h3 g1; omega), if_neg (by omega), if_neg (by omega), if_neg (by omega)]
  · have h1 := hs.of (x := z) (y := x) hz (by simp)
    have h4 := hs.of (x := z) (y := last 0 L1) hz (by simp [hl])
    have h3 : L2 ≠ [] → z = first L2 0 ∨ z + 16 ≤ first L2 0 ∨ first L2 0 + 16 ≤ z := fun hne =>
      hs.of (x := z) (y := first L2 0) hz (by simp [first_mem hne])
    rw [hv, if_neg (by rintro ⟨g1, g2⟩; have := h3 g1; omega), if_neg (by omega), if_neg (by omega), if_neg (by omega)]

end Verif.Heap
