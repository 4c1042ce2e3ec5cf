import Verif.Riot.Spec
/-! Blocks, and the outcomes of the steps. -/
namespace Verif.Riot

theorem lookup_cons (q p : Nat) (d : Bytes) (h : List (Nat × Bytes)) : ((p, d) :: h).lookup q = if q = p then some d else h.lookup q := by
  rw [List.lookup_cons]
  by_cases hq : q = p
  · simp [hq]
  · rw [if_neg hq, beq_eq_false_iff_ne.mpr hq]

theorem lookup_filter (h : List (Nat × Bytes)) (p q : Nat) : (h.filter (fun b => b.1 != p)).lookup q = if q = p then none else h.lookup q := by
  induction h with
  | nil => simp
  | cons b h ih =>
    obtain ⟨a, d⟩ := b
    rw [List.filter_cons]
    by_cases ha : a = p
    · subst ha
      simp only [bne_self_eq_false, Bool.false_eq_true, if_false, ih, lookup_cons]
      by_cases hq : q = a <;> simp [hq]
    · have : (a != p) = true := by simp [ha]
      simp only [this, if_true, lookup_cons, ih]
      by_cases hq : q = a
      · subst hq; simp [ha]
      · simp [hq]

theorem block_alloc (s : St) (d : Bytes) (q : Nat) : (alloc s d).2.block q = if q = s.next then some d else s.block q := lookup_cons _ _ _ _

theorem free_live {s : St} {p : Nat} (h : s.block p ≠ none) : free s (some p) = { s with heap := s.heap.filter (fun b => b.1 != p) } := by
  unfold free
  cases hb : s.block p with
  | none => exact absurd hb h
  | some d => simp only [hb, Option.isSome_some, if_true]

theorem block_free {s : St} {p q : Nat} (h : s.block p ≠ none) : (free s (some p)).block q = if q = p then none else s.block q := by
  rw [free_live h]; exact lookup_filter _ _ _

/-- Two states that differ in blocks, pointers of the CA certificates and position of the verification only. -/
structure Same (s t : St) : Prop where
  ks : t.ks = s.ks
  devid : t.devid = s.devid
  store : t.store = s.store
  pending : t.pending = s.pending
  locked : t.locked = s.locked
  ub : t.ub = s.ub

theorem Same.refl (s : St) : Same s s := ⟨rfl, rfl, rfl, rfl, rfl, rfl⟩
theorem Same.trans {s t u : St} (h1 : Same s t) (h2 : Same t u) : Same s u :=
  ⟨h2.ks.trans h1.ks, h2.devid.trans h1.devid, h2.store.trans h1.store, h2.pending.trans h1.pending, h2.locked.trans h1.locked, h2.ub.trans h1.ub⟩

/-- No block at or above `next` is live. -/
def Fresh (s : St) : Prop := ∀ p, s.next ≤ p → s.block p = none

/-- What the first part of the verification does. -/
inductive Began (s t : St) : Prop
  | nothing (h : t = s)
  | noRoot (h : Same s t) (b : ∀ q, t.block q = s.block q) (n : s.next ≤ t.next) (r : t.root = none) (i : t.inter = s.inter ∨ t.inter = none) (v : t.verify = s.verify)
  | read (d r : Bytes) (h : Same s t) (k0 : s.ks 0 = some d) (k1 : s.ks 1 = some r) (b : ∀ q, t.block q = if q = s.next then some d else if q = s.next + 1 then some r else s.block q)
      (n : t.next = s.next + 2) (hr : t.root = some (s.next + 1)) (i : t.inter = none) (v : t.verify = .check s.next)
  | read3 (d r i : Bytes) (h : Same s t) (k0 : s.ks 0 = some d) (k1 : s.ks 1 = some r) (k2 : s.ks 2 = some i)
      (b : ∀ q, t.block q = if q = s.next then some d else if q = s.next + 1 then some r else if q = s.next + 2 then some i else s.block q)
      (n : t.next = s.next + 3) (hr : t.root = some (s.next + 1)) (hi : t.inter = some (s.next + 2)) (v : t.verify = .check s.next)

theorem loadKey_ok {k : Option Bytes} {f : Fault} {d : Bytes} (h : loadKey k f = .ok d) : k = some d := by
  cases f with
  | none => cases k with
    | none => cases h
    | some x => injection h with h; rw [h]
  | bad => cases h
  | err => cases h

theorem free_eq {s : St} {p : Nat} (h : s.heap.lookup p ≠ none) : free s (some p) = { s with heap := s.heap.filter (fun b => b.1 != p) } := free_live h

theorem verifyBegin_cases (s : St) (hf : Fresh s) (f0 f1 f2 : Fault) : Began s (verifyBegin s f0 f1 f2) := by
  have hf0 : ∀ p, s.next ≤ p → s.heap.lookup p = none := hf
  unfold verifyBegin
  cases h0 : loadKey (s.ks 0) f0 with
  | ok d =>
    have k0 := loadKey_ok h0
    simp only [alloc]
    have fail1 : Began s (free { s with heap := (s.next, d) :: s.heap, next := s.next + 1, root := none } (some s.next)) := by
      rw [free_eq (by simp [lookup_cons])]
      refine .noRoot ⟨rfl, rfl, rfl, rfl, rfl, rfl⟩ (fun q => ?_) (Nat.le_succ _) rfl (.inl rfl) rfl
      simp only [St.block, lookup_filter, lookup_cons]
      by_cases hq : q = s.next
      · rw [if_pos hq, hf0 q (by omega)]
      · rw [if_neg hq, if_neg hq]
    cases h1 : loadKey (s.ks 1) f1 with
    | ok r =>
      have k1 := loadKey_ok h1
      simp only
      cases h2 : loadKey (s.ks 2) f2 with
      | ok i =>
        have k2 := loadKey_ok h2
        refine .read3 d r i ⟨rfl, rfl, rfl, rfl, rfl, rfl⟩ k0 k1 k2 (fun q => ?_) rfl rfl rfl rfl
        simp only [St.block, lookup_cons]
        repeat' split
        all_goals first | rfl | omega
      | noKey =>
        refine .read d r ⟨rfl, rfl, rfl, rfl, rfl, rfl⟩ k0 k1 (fun q => ?_) rfl rfl rfl rfl
        simp only [St.block, lookup_cons]
        repeat' split
        all_goals first | rfl | omega
      | badKey =>
        refine .read d r ⟨rfl, rfl, rfl, rfl, rfl, rfl⟩ k0 k1 (fun q => ?_) rfl rfl rfl rfl
        simp only [St.block, lookup_cons]
        repeat' split
        all_goals first | rfl | omega
      | error =>
        simp only
        rw [free_eq (p := s.next + 1) (by simp [lookup_cons])]
        simp only
        rw [free_eq (by simp [lookup_cons, lookup_filter])]
        refine .noRoot ⟨rfl, rfl, rfl, rfl, rfl, rfl⟩ (fun q => ?_) (by simp only; omega) rfl (.inr rfl) rfl
        simp only [St.block, lookup_filter, lookup_cons]
        by_cases hq : q = s.next
        · rw [if_pos hq, hf0 q (by omega)]
        · rw [if_neg hq]
          by_cases hq' : q = s.next + 1
          · rw [if_pos hq', hf0 q (by omega)]
          · rw [if_neg hq', if_neg hq', if_neg hq]
    | noKey => exact fail1
    | badKey => exact fail1
    | error => exact fail1
  | noKey => exact .nothing rfl
  | badKey => exact .nothing rfl
  | error => exact .nothing rfl

theorem toList_some {p : Nat} : (some p).toList = [p] := rfl

/-- What the second part does with blocks that are live and different. -/
theorem verifyCheck_fail (s : St) {p r : Nat} (hr : s.root = some r) (hlp : s.block p ≠ none) (hlr : s.block r ≠ none) (hpr : r ≠ p)
    (hi : ∀ i, s.inter = some i → s.block i ≠ none ∧ i ≠ p ∧ i ≠ r) :
    ∃ t, { free { free (free s (some p)) (free s (some p)).root with root := none } { free (free s (some p)) (free s (some p)).root with root := none }.inter with inter := none, verify := .idle } = t ∧
      Same s t ∧ t.next = s.next ∧ t.root = none ∧ t.inter = none ∧ t.verify = .idle ∧
      ∀ q, t.block q = if q = p ∨ q = r ∨ s.inter = some q then none else s.block q := by
  have h1 : s.heap.lookup p ≠ none := hlp
  have h2 : s.heap.lookup r ≠ none := hlr
  rw [free_eq h1]
  simp only [hr]
  rw [free_eq (p := r) (by simp only [lookup_filter, if_neg hpr]; exact h2)]
  simp only
  cases hin : s.inter with
  | none =>
    refine ⟨_, rfl, ⟨rfl, rfl, rfl, rfl, rfl, rfl⟩, rfl, rfl, rfl, rfl, fun q => ?_⟩
    simp only [free, St.block, lookup_filter]
    by_cases hq : q = r
    · simp [hq]
    · by_cases hq' : q = p
      · simp [hq']
      · simp [hq, hq']
  | some i =>
    obtain ⟨i1, i2, i3⟩ := hi i hin
    have i1' : s.heap.lookup i ≠ none := i1
    rw [free_eq (p := i) (by simp only [lookup_filter, if_neg i2, if_neg i3]; exact i1')]
    refine ⟨_, rfl, ⟨rfl, rfl, rfl, rfl, rfl, rfl⟩, rfl, rfl, rfl, rfl, fun q => ?_⟩
    simp only [St.block, lookup_filter]
    by_cases hq : q = r
    · simp [hq]
    · by_cases hq' : q = p
      · simp [hq']
      · by_cases hqi : q = i
        · simp [hqi]
        · have : ¬ i = q := fun h => hqi h.symm
          simp [hq, hq', hqi, this]

end Verif.Riot
