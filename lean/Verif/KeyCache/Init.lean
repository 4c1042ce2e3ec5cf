import Verif.KeyCache.Lemmas
/-! The scan of the sectors at start-up. -/
namespace Verif.KeyCache

theorem tryErase_off' (f : Store) (i : Nat) (o : Out) (j : Nat) (h : j ≠ i) : (tryErase f i o).1 j = f j := by
  cases o <;> simp [tryErase, setAt, h]

theorem validate_off (f : Store) (i : Nat) (sc : Scan) (j : Nat) (h : j ≠ i) : (validate f i sc).1 j = f j := by
  unfold validate
  split
  · exact tryErase_off' f i _ j h
  · split
    · rfl
    · exact tryErase_off' f i _ j h

theorem validate_local {f g : Store} {i : Nat} (h : f i = g i) (sc : Scan) : (validate f i sc).2 = (validate g i sc).2 ∧ (validate f i sc).1 i = (validate g i sc).1 i := by
  unfold validate
  rw [h]
  cases g i with
  | none => cases sc.erase <;> simp [tryErase, setAt]
  | some v =>
    simp only
    split
    · exact ⟨rfl, h⟩
    · cases sc.erase <;> simp [tryErase, setAt]

theorem scan_spec : ∀ (l : List Scan) (f : Store) (i : Nat),
    (scanAll f i l).2.length = l.length ∧
    (∀ j, j < i ∨ i + l.length ≤ j → (scanAll f i l).1 j = f j) ∧
    (∀ j (hj : j < l.length), ((scanAll f i l).2[j]!).phys = (i + j) % 1024 ∧ ((scanAll f i l).2[j]!).valid = (validate f (i + j) l[j]).2 ∧
      (scanAll f i l).1 (i + j) = (validate f (i + j) l[j]).1 (i + j))
  | [], f, i => ⟨rfl, fun _ _ => rfl, fun j hj => by simp at hj⟩
  | sc :: l, f, i => by
    obtain ⟨h1, h2, h3⟩ := scan_spec l (validate f i sc).1 (i + 1)
    have e : scanAll f i (sc :: l) = ((scanAll (validate f i sc).1 (i + 1) l).1, ⟨(validate f i sc).2, i % 1024, 0⟩ :: (scanAll (validate f i sc).1 (i + 1) l).2) := rfl
    rw [e]
    refine ⟨by simp [h1], fun j hj => ?_, fun j hj => ?_⟩
    · simp only [List.length_cons] at hj
      simp only
      rw [h2 j (by omega)]
      exact validate_off f i sc j (by omega)
    · cases j with
      | zero =>
        simp only [Nat.add_zero, List.getElem_cons_zero]
        refine ⟨rfl, rfl, h2 i (by omega)⟩
      | succ j =>
        simp only [List.length_cons] at hj
        have h := h3 j (by omega)
        have hl := validate_local (f := (validate f i sc).1) (g := f) (i := i + (j + 1)) (validate_off f i sc _ (by omega)) (l[j]'(by omega))
        rw [show i + 1 + j = i + (j + 1) by omega] at h
        simp only [List.getElem_cons_succ]
        refine ⟨?_, ?_, ?_⟩
        · rw [← h.1]; rfl
        · rw [← hl.1, ← h.2.1]; rfl
        · rw [h.2.2, hl.2]

theorem swap_len (l : List Info) (i j : Nat) : (swap l i j).length = l.length := by simp [swap]

theorem swap_perm {l : List Info} {i j : Nat} (hi : i < l.length) (hj : j < l.length) : (swap l i j).Perm l := by
  unfold swap
  rw [getElem!_pos l i hi, getElem!_pos l j hj]
  exact List.set_set_perm hi hj

theorem swap_get {l : List Info} {i j : Nat} (hi : i < l.length) (hj : j < l.length) (k : Nat) :
    (swap l i j)[k]! = if j = k then l[i]! else if i = k then l[j]! else l[k]! := by
  unfold swap
  rw [get_set, get_set]
  simp [hi, hj]

/-- What the arrangement of the sectors achieves: used sectors first, then free ones, then bad ones. The sector at `high` is not looked at. -/
theorem arrange_spec (l : List Info) (low mid high : Nat) (h1 : low ≤ mid) (h2 : mid ≤ high) (h3 : high < l.length)
    (i1 : ∀ i, i < low → (l[i]!).valid = .valid) (i2 : ∀ i, low ≤ i → i < mid → (l[i]!).valid = .invalid)
    (i3 : ∀ i, high < i → i < l.length → (l[i]!).valid = .corrupted) :
    (arrangeLoop l low mid high).1.Perm l ∧ (arrangeLoop l low mid high).2.1 ≤ (arrangeLoop l low mid high).2.2 ∧
    (arrangeLoop l low mid high).2.2 < l.length ∧
    (∀ i, i < (arrangeLoop l low mid high).2.1 → ((arrangeLoop l low mid high).1[i]!).valid = .valid) ∧
    (∀ i, (arrangeLoop l low mid high).2.1 ≤ i → i < (arrangeLoop l low mid high).2.2 → ((arrangeLoop l low mid high).1[i]!).valid = .invalid) ∧
    (∀ i, (arrangeLoop l low mid high).2.2 < i → i < l.length → ((arrangeLoop l low mid high).1[i]!).valid = .corrupted) := by
  generalize hd : high - mid = d
  induction d generalizing l low mid high with
  | zero =>
    unfold arrangeLoop
    rw [if_neg (by omega)]
    exact ⟨List.Perm.refl _, by simp only; omega, h3, i1, fun i a b => i2 i a (by simp only at b; omega), i3⟩
  | succ d ih =>
    unfold arrangeLoop
    rw [if_pos (by omega)]
    split
    · rename_i hv
      by_cases hs : (l[low]!).valid ≠ (l[mid]!).valid
      · rw [if_pos hs]
        have hg := swap_get (l := l) (i := low) (j := mid) (by omega) (by omega)
        have := ih (swap l low mid) (low + 1) (mid + 1) high (by omega) (by omega) (by rw [swap_len]; omega)
          (fun i hi => by
            rw [hg]
            by_cases e : mid = i
            · have : low = mid := by omega
              subst this; exact (hs rfl).elim
            · rw [if_neg e]
              by_cases e2 : low = i
              · rw [if_pos e2]; exact hv
              · rw [if_neg e2]; exact i1 i (by omega))
          (fun i hi1 hi2 => by
            rw [hg]
            by_cases e : mid = i
            · rw [if_pos e]
              by_cases e3 : low = mid
              · subst e3; exact (hs rfl).elim
              · exact i2 low (Nat.le_refl _) (by omega)
            · rw [if_neg e, if_neg (by omega)]; exact i2 i (by omega) (by omega))
          (fun i hi1 hi2 => by
            rw [swap_len] at hi2
            rw [hg, if_neg (by omega), if_neg (by omega)]; exact i3 i hi1 hi2) (by omega)
        obtain ⟨a, b, c, d, e, f⟩ := this
        rw [swap_len] at c f
        exact ⟨a.trans (swap_perm (by omega) (by omega)), b, c, d, e, f⟩
      · rw [if_neg hs]
        have hs' : (l[low]!).valid = .valid := by rw [Decidable.not_not.mp hs, hv]
        have hlm : low = mid := by
          rcases Nat.lt_or_ge low mid with h | h
          · have := i2 low (Nat.le_refl _) h; rw [hs'] at this; cases this
          · omega
        subst hlm
        exact ih l (low + 1) (low + 1) high (by omega) (by omega) h3
          (fun i hi => by by_cases e : i = low; · rw [e]; exact hv
                          · exact i1 i (by omega)) (fun i _ _ => by omega) i3 (by omega)
    · rename_i hv
      exact ih l low (mid + 1) high (by omega) (by omega) h3 i1
        (fun i a b => by by_cases e : i = mid; · rw [e]; exact hv
                         · exact i2 i a (by omega)) i3 (by omega)
    · rename_i hv
      by_cases hs : (l[mid]!).valid ≠ (l[high]!).valid
      · rw [if_pos hs]
        have hg := swap_get (l := l) (i := mid) (j := high) (by omega) (by omega)
        have := ih (swap l mid high) low mid (high - 1) (by omega) (by omega) (by rw [swap_len]; omega)
          (fun i hi => by rw [hg, if_neg (by omega), if_neg (by omega)]; exact i1 i hi)
          (fun i a b => by rw [hg, if_neg (by omega), if_neg (by omega)]; exact i2 i a b)
          (fun i a b => by
            rw [swap_len] at b
            rw [hg]
            by_cases e : high = i
            · rw [if_pos e]; exact hv
            · rw [if_neg e, if_neg (by omega)]; exact i3 i (by omega) b) (by omega)
        obtain ⟨a, b, c, d, e, f⟩ := this
        rw [swap_len] at c f
        exact ⟨a.trans (swap_perm (by omega) (by omega)), b, c, d, e, f⟩
      · rw [if_neg hs]
        exact ih l low mid (high - 1) (by omega) (by omega) (by omega) i1 i2
          (fun i a b => by
            by_cases e : i = high
            · rw [e, ← Decidable.not_not.mp hs]; exact hv
            · exact i3 i (by omega) b) (by omega)

/-- `assign` touches nothing but credits and the requestors of the slots. -/
theorem assign_spec (c : Cfg) (hR : 0 < c.requestors) : ∀ (n : Nat) (s : State) (i r : Nat), r < c.requestors → i + n ≤ s.info.length →
    (assign c s i r n).info.length = s.info.length ∧ (assign c s i r n).credit.length = s.credit.length ∧
    (assign c s i r n).info.map (fun x => (x.valid, x.phys)) = s.info.map (fun x => (x.valid, x.phys)) ∧
    (∀ j, j < i → ((assign c s i r n).info[j]!) = s.info[j]!) ∧
    (∀ j, i ≤ j → j < i + n → (s.info[j]!).valid ≠ .valid → ((assign c s i r n).info[j]!).req < c.requestors) ∧
    (assign c s i r n).add = s.add ∧ (assign c s i r n).rem = s.rem ∧ (assign c s i r n).free = s.free ∧ (assign c s i r n).err = s.err
  | 0, s, i, r, _, _ => ⟨rfl, rfl, rfl, fun _ _ => rfl, fun j _ _ => by omega, rfl, rfl, rfl, rfl⟩
  | n + 1, s, i, r, hr, hn => by
    have hstep : ∃ s1, assign c s i r (n + 1) = assign c s1 (i + 1) (incr r c.requestors) n ∧ s1.credit.length = s.credit.length ∧
        (∃ q, s1.info = s.info.set i { s.info[i]! with req := q } ∧ ((s.info[i]!).valid ≠ .valid → q < c.requestors)) ∧
        s1.add = s.add ∧ s1.rem = s.rem ∧ s1.free = s.free ∧ s1.err = s.err := by
      refine ⟨_, rfl, ?_⟩
      split
      · rename_i h
        exact ⟨by simp, ⟨_, rfl, fun h' => (h' h.1).elim⟩, rfl, rfl, rfl, rfl⟩
      · exact ⟨rfl, ⟨_, rfl, fun _ => hr⟩, rfl, rfl, rfl, rfl⟩
    obtain ⟨s1, e, k1, ⟨q, k2, k3⟩, k4, k5, k6, k7⟩ := hstep
    rw [e]
    have hl : s1.info.length = s.info.length := by rw [k2]; simp
    have hinc : incr r c.requestors < c.requestors := by rw [incr_eq hr]; split <;> omega
    obtain ⟨a1, a2, a3, a4, a5, a6, a7, a8, a9⟩ := assign_spec c hR n s1 (i + 1) (incr r c.requestors) hinc (by omega)
    have hg : ∀ j, s1.info[j]! = if i = j then { s.info[i]! with req := q } else s.info[j]! := fun j => by
      rw [k2, get_set]
      simp [show i < s.info.length by omega]
    refine ⟨a1.trans hl, a2.trans k1, a3.trans ?_, fun j hj => ?_, fun j h1 h2 h3 => ?_, a6.trans k4, a7.trans k5, a8.trans k6, a9.trans k7⟩
    · rw [k2, List.map_set]
      simp only
      rw [getElem!_pos s.info i (by omega)]
      refine List.ext_getElem (by simp) (fun m h1 h2 => ?_)
      rw [List.getElem_set]
      split
      · rename_i e; subst e; simp
      · rfl
    · rw [a4 j (by omega), hg, if_neg (by omega)]
    · by_cases e : j = i
      · subst e
        rw [a4 j (by omega), hg, if_pos rfl]
        exact k3 h3
      · exact a5 j (by omega) (by omega) (by rw [hg, if_neg (by omega)]; exact h3)

/-- The state `arrange` leaves. -/
def arranged (c : Cfg) (s : State) (l1 : List Info) (low high : Nat) : State :=
  ⟨l1, s.credit, if low ≥ c.keys then c.keys - 1 else low, 0, high, s.inited, s.err || decide (high + 1 < c.keys)⟩

/-- After the scan. -/
theorem initCache_spec (c : Cfg) (s : State) (f : Store) (scans : List Scan) (hR : 0 < c.requestors) (hroom : c.keys ≤ c.sectors)
    (hS : c.sectors ≤ 1024) (hsc : scans.length = c.sectors) (hl : s.info.length = c.sectors) (hc : s.credit.length = c.requestors) :
    (initCache c s f scans).1.info.length = c.sectors ∧ (initCache c s f scans).1.credit.length = c.requestors ∧
    (initCache c s f scans).2 = (scanAll f 0 scans).1 ∧ (initCache c s f scans).1.inited = true ∧
    ∃ low high, low ≤ high ∧ high < c.sectors ∧ (initCache c s f scans).1.err = (s.err || decide (high + 1 < c.keys)) ∧
      (initCache c s f scans).1.rem = 0 ∧ (initCache c s f scans).1.add = (if low ≥ c.keys then c.keys - 1 else low) ∧
      ((initCache c s f scans).1.info.map (fun x => (x.valid, x.phys))).Perm ((scanAll f 0 scans).2.map (fun x => (x.valid, x.phys))) ∧
      (∀ i, i < low → ((initCache c s f scans).1.info[i]!).valid = .valid) ∧
      (∀ i, low ≤ i → i < high → ((initCache c s f scans).1.info[i]!).valid = .invalid) ∧
      (∀ i, high < i → i < c.sectors → ((initCache c s f scans).1.info[i]!).valid = .corrupted) ∧
      (∀ i, low ≤ i → i < high → i < c.keys → ((initCache c s f scans).1.info[i]!).req < c.requestors) ∧
      (initCache c s f scans).1.free = high := by
  have hk : 1 ≤ c.keys := by unfold Cfg.keys; omega
  obtain ⟨s1, s2, s3⟩ := scan_spec scans f 0
  generalize hl0 : ((scanAll f 0 scans).2.zip s.info).map (fun p => ({ p.1 with req := p.2.req } : Info)) = l0
  have hl0len : l0.length = c.sectors := by rw [← hl0]; simp [s1, hsc, hl]
  have hl0map : l0.map (fun x => (x.valid, x.phys)) = (scanAll f 0 scans).2.map (fun x => (x.valid, x.phys)) := by
    rw [← hl0]
    refine List.ext_getElem (by simp [s1, hsc, hl]) (fun n h1 h2 => by simp)
  obtain ⟨a1, a2, a3, a4, a5, a6⟩ := arrange_spec l0 0 0 (c.sectors - 1) (by omega) (by omega) (by omega) (fun i hi => by omega)
    (fun i _ hi => by omega) (fun i h1 h2 => by omega)
  generalize har : arrangeLoop l0 0 0 (c.sectors - 1) = ar at a1 a2 a3 a4 a5 a6
  obtain ⟨l1, low, high⟩ := ar
  simp only at a1 a2 a3 a4 a5 a6
  have e : initCache c s f scans = ({ assign c (arranged c s l1 low high) 0 0 c.keys with inited := true }, (scanAll f 0 scans).1) := by
    unfold initCache arrange
    simp only [hl0, har, arranged]
  have hl1 : l1.length = c.sectors := by rw [a1.length_eq, hl0len]
  rw [e]
  obtain ⟨b1, b2, b3, b4, b5, b6, b7, b8, b9⟩ := assign_spec c hR c.keys (arranged c s l1 low high) 0 0 hR (by simp only [arranged]; omega)
  generalize assign c (arranged c s l1 low high) 0 0 c.keys = s2 at b1 b2 b3 b4 b5 b6 b7 b8 b9
  simp only [arranged] at b1 b2 b3 b5 b6 b7 b8 b9 ⊢
  have hv : ∀ i, i < c.sectors → (s2.info[i]!).valid = (l1[i]!).valid := fun i hi => by
    have := congrArg (fun l => (l[i]?).map Prod.fst) b3
    simp only [List.getElem?_map] at this
    rw [getElem!_pos s2.info i (by omega), getElem!_pos l1 i (by omega)]
    rw [List.getElem?_eq_getElem (by omega), List.getElem?_eq_getElem (by omega)] at this
    simpa using this
  refine ⟨by omega, by omega, trivial, trivial, low, high, a2, by omega, b9, b7, b6, ?_, ?_, ?_, ?_, ?_, b8⟩
  · rw [b3, ← hl0map]
    exact a1.map _
  · intro i hi; rw [hv i (by omega)]; exact a4 i hi
  · intro i h1 h2; rw [hv i (by omega)]; exact a5 i h1 h2
  · intro i h1 h2; rw [hv i (by omega)]; exact a6 i h1 (by omega)
  · intro i h1 h2 h3
    exact b5 i (by omega) (by omega) (by rw [a5 i h1 h2]; simp)

end Verif.KeyCache
