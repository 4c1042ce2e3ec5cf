import Verif.Counters.Lemmas
/-! Property C51: reset counters. -/
namespace Verif.Counters

/-- C51: reading gives the value of the counter that was named, and fails exactly if there is no such counter. -/
theorem get_exact (r : Regs) (t p : UInt8) :
    (getCounter r t p).map BitVec.toNat = (named t p).bind (value r) := by
  cases hn : named t p with
  | none =>
    cases hg : getCounter r t p with
    | none => rfl
    | some v => obtain ⟨k, h1, _⟩ := get_some hg; rw [hn] at h1; cases h1
  | some k =>
    simp only [Option.bind_some]
    cases hv : value r k with
    | none =>
      have := get_defined (r := r) hn
      rw [hv] at this
      cases hg : getCounter r t p with
      | none => rfl
      | some v => rw [hg] at this; cases this
    | some n =>
      obtain ⟨v, h1, h2⟩ := get_known hn hv
      rw [h1, Option.map_some, h2]

example : getCounter ⟨0x00050003#32, some 0xabcd0007#32⟩ 1 1 = some 7 ∧ getCounter ⟨0x00050003#32, none⟩ 1 1 = none ∧
    getCounter ⟨0x00050003#32, none⟩ 1 0 = some 5 ∧ getCounter ⟨0x00050003#32, none⟩ 0 4 = some 3 := by decide

/-- C51 (part): with one task, an increment of a counter that exists raises it by one and leaves the other counters and the unused half
of the second register as they are. Missing: the largest value, which becomes 0 (`increment_wraps`), and several tasks (`lost_update`). -/
theorem increment_partial (r : Regs) (t p : UInt8) {k : Ctr} {n : Nat} (h : named t p = some k) (hv : value r k = some n) (hn : n < 65535) :
    ∃ r', increment r t p = some r' ∧ value r' k = some (n + 1) ∧ (∀ k', k' ≠ k → value r' k' = value r k') ∧
      r'.reg2.map (fun v => v.toNat / 65536) = r.reg2.map (fun v => v.toNat / 65536) := by
  obtain ⟨v, h1, h2⟩ := get_known h hv
  unfold increment
  rw [h1]
  have hd : (writeBack r t p v).isSome := by unfold writeBack; rw [set_defined, h1]; rfl
  obtain ⟨r', hr⟩ := Option.isSome_iff_exists.1 hd
  obtain ⟨k', a1, a2, a3⟩ := writeBack_some hr
  rw [h] at a1
  cases a1
  refine ⟨r', hr, ?_, ?_, a3⟩
  · rw [a2 k, if_pos rfl, h2, Nat.mod_eq_of_lt (by omega)]
  · intro k' hk
    rw [a2 k', if_neg hk]

example : named 1 0 = some .comp0 ∧ value ⟨0x0005ffff#32, none⟩ .comp0 = some 5 ∧
    increment ⟨0x0005ffff#32, none⟩ 1 0 = some ⟨0x0006ffff#32, none⟩ := by decide

/-- C51 (the full statement is false): the largest value is followed by 0; here too the other counters stay. -/
theorem increment_wraps (r : Regs) (t p : UInt8) {k : Ctr} (h : named t p = some k) (hv : value r k = some 65535) :
    ∃ r', increment r t p = some r' ∧ value r' k = some 0 ∧ ∀ k', k' ≠ k → value r' k' = value r k' := by
  obtain ⟨v, h1, h2⟩ := get_known h hv
  unfold increment
  rw [h1]
  have hd : (writeBack r t p v).isSome := by unfold writeBack; rw [set_defined, h1]; rfl
  obtain ⟨r', hr⟩ := Option.isSome_iff_exists.1 hd
  obtain ⟨k', a1, a2, a3⟩ := writeBack_some hr
  rw [h] at a1
  cases a1
  refine ⟨r', hr, ?_, ?_⟩
  · rw [a2 k, if_pos rfl, h2]
  · intro k' hk
    rw [a2 k', if_neg hk]

example : increment ⟨0x0005ffff#32, none⟩ 0 0 = some ⟨0x00050000#32, none⟩ := by decide

theorem step_value (r : Regs) (op : Op) (k : Ctr) {n m : Nat} (hv : value r k = some (n % 65536)) (hm : m = counted k n [op]) :
    value (step r op) k = some (m % 65536) := by
  subst hm
  cases op with
  | increment t p =>
    simp only [step, counted]
    unfold increment
    cases hg : getCounter r t p with
    | none =>
      have hne : named t p ≠ some k := by
        intro hn
        have := get_defined (r := r) hn
        rw [hg, hv] at this
        cases this
      rw [if_neg hne]
      exact hv
    | some v =>
      obtain ⟨k', b1, b2⟩ := get_some hg
      have hd : (writeBack r t p v).isSome := by unfold writeBack; rw [set_defined, hg]; rfl
      obtain ⟨r', hr⟩ := Option.isSome_iff_exists.1 hd
      obtain ⟨k'', a1, a2, _⟩ := writeBack_some hr
      rw [b1] at a1
      cases a1
      simp only [hr, Option.getD_some]
      rw [a2 k, b1]
      by_cases hk : k = k'
      · subst hk
        rw [if_pos rfl, if_pos rfl]
        rw [hv] at b2
        simp only [Option.some.injEq] at b2 ⊢
        omega
      · rw [if_neg hk, if_neg (by simp only [Option.some.injEq]; exact fun h => hk h.symm)]
        exact hv
  | clear t p =>
    simp only [step, counted]
    unfold Verif.Counters.clear
    cases hs : setCounter r t p 0 with
    | none =>
      have hne : named t p ≠ some k := by
        intro hn
        have h1 := get_defined (r := r) hn
        have h2 := set_defined (r := r) (t := t) (p := p) 0
        rw [hs, h1, hv] at h2
        cases h2
      rw [if_neg hne]
      exact hv
    | some r' =>
      obtain ⟨k', a1, a2, _⟩ := set_some hs
      simp only [Option.getD_some]
      rw [a2 k, a1]
      by_cases hk : k = k'
      · subst hk
        rw [if_pos rfl, if_pos rfl]
        rfl
      · rw [if_neg hk, if_neg (by simp only [Option.some.injEq]; exact fun h => hk h.symm)]
        exact hv

theorem counted_cons (k : Ctr) (n : Nat) (op : Op) (l : List Op) : counted k n (op :: l) = counted k (counted k n [op]) l := by
  cases op <;> rfl

/-- C51 (part): for every sequence of requests of one task, each counter is the number of increments of it since it was last cleared, in 16 bits. -/
theorem counters_count_partial (ops : List Op) : ∀ (r : Regs) (k : Ctr) (n : Nat), value r k = some (n % 65536) →
    value (ops.foldl step r) k = some (counted k n ops % 65536) := by
  induction ops with
  | nil => intro r k n h; exact h
  | cons op l ih =>
    intro r k n h
    rw [List.foldl_cons, counted_cons]
    exact ih _ _ _ (step_value r op k h rfl)

example : value ⟨0, some 0⟩ .comp1 = some (0 % 65536) ∧
    counted .comp1 0 [.increment 1 1, .increment 0 0, .increment 1 1, .increment 1 7, .increment 1 1] = 3 := by decide

/-! ### Several tasks -/

theorem tally_append (c : Ctr) (l : List Ev) : ∀ (n : Nat) (e : Ev), tally c n (l ++ [e]) = tally c (tally c n l) [e] := by
  induction l with
  | nil => intro n e; rfl
  | cons a l ih => intro n e; cases a <;> exact ih _ e

/-- C51 (part): however tasks are interleaved, a counter that only one task works on counts exactly: tasks that work on the other counters, also
those in the same register, do not disturb it. -/
theorem own_counter_partial {r : Regs} {evs : List Ev} {s : Sys} (h : Reach r evs s) (k : Ctr) (t : Nat) (n : Nat) (hn : value r k = some (n % 65536))
    (halone : ∀ e ∈ evs, e.ctr = some k → e.task = t) : value s.regs k = some (tally k n evs % 65536) := by
  suffices hs : value s.regs k = some (tally k n evs % 65536) ∧
      ∀ ty p v, s.pend t = some (ty, p, v) → named ty p = some k → v.toNat = tally k n evs % 65536 from hs.1
  have hpk : ∀ {evs s}, Reach r evs s → ∀ u ty p v, s.pend u = some (ty, p, v) → ∃ e ∈ evs, e = Ev.read u ty p := by
    intro evs s h
    induction h with
    | start => intro u ty p v hp; cases hp
    | next _ hst ih =>
      intro u ty p v hp
      cases hst with
      | read h1 h2 =>
        rename_i t' ty' p' v'
        simp only [Sys.hold] at hp
        split at hp
        · rename_i hu
          subst hu
          cases hp
          exact ⟨_, by simp, rfl⟩
        · obtain ⟨e, he, h3⟩ := ih u ty p v hp
          exact ⟨e, by simp [he], h3⟩
      | write h1 h2 =>
        simp only [Sys.hold] at hp
        split at hp
        · cases hp
        · obtain ⟨e, he, h3⟩ := ih u ty p v hp
          exact ⟨e, by simp [he], h3⟩
      | clear h1 h2 =>
        obtain ⟨e, he, h3⟩ := ih u ty p v hp
        exact ⟨e, by simp [he], h3⟩
  induction h with
  | start => exact ⟨hn, fun _ _ _ hp => nomatch hp⟩
  | next hr hst ih =>
    rename_i evs s e s'
    obtain ⟨ih1, ih2⟩ := ih (fun e he => halone e (by simp [he]))
    have hmine := halone e (by simp)
    rw [tally_append]
    cases hst with
    | read h1 h2 =>
      rename_i u ty p v
      simp only [tally]
      refine ⟨ih1, ?_⟩
      intro ty' p' v' hp hk
      simp only [Sys.hold] at hp
      split at hp
      · cases hp
        obtain ⟨k', b1, b2⟩ := get_some h2
        rw [hk] at b1
        cases b1
        rw [ih1] at b2
        simp only [Option.some.injEq] at b2
        exact b2.symm
      · exact ih2 ty' p' v' hp hk
    | write h1 h2 =>
      rename_i u ty p v r'
      obtain ⟨k', a1, a2, _⟩ := writeBack_some h2
      simp only [tally]
      rw [a2 k, a1]
      by_cases hk : k = k'
      · subst hk
        rw [if_pos rfl, if_pos rfl]
        have hu : u = t := hmine a1
        subst hu
        have := ih2 ty p v h1 a1
        refine ⟨by simp only [Option.some.injEq]; omega, ?_⟩
        intro ty' p' v' hp
        simp [Sys.hold] at hp
      · rw [if_neg hk, if_neg (by simp only [Option.some.injEq]; exact fun h => hk h.symm)]
        refine ⟨ih1, ?_⟩
        intro ty' p' v' hp hk'
        simp only [Sys.hold] at hp
        split at hp
        · cases hp
        · exact ih2 ty' p' v' hp hk'
    | clear h1 h2 =>
      rename_i u ty p r'
      obtain ⟨k', a1, a2, _⟩ := set_some h2
      simp only [tally]
      rw [a2 k, a1]
      by_cases hk : k = k'
      · subst hk
        rw [if_pos rfl, if_pos rfl]
        have hu : u = t := hmine a1
        subst hu
        refine ⟨rfl, ?_⟩
        intro ty' p' v' hp
        rw [h1] at hp
        cases hp
      · rw [if_neg hk, if_neg (by simp only [Option.some.injEq]; exact fun h => hk h.symm)]
        exact ⟨ih1, ih2⟩

-- two tasks on the two counters of the first register, the first in the middle of an increment while the second does one
example : ∃ s, Reach ⟨0x00050003#32, none⟩ [.read 1 0 0, .read 2 1 0, .write 2 1 0, .write 1 0 0] s ∧ s.regs = ⟨0x00060004#32, none⟩ ∧
    ∀ e ∈ [Ev.read 1 0 0, .read 2 1 0, .write 2 1 0, .write 1 0 0], e.ctr = some .own → e.task = 1 := by
  refine ⟨_, .next (.next (.next (.next .start (.read rfl rfl)) (.read rfl rfl)) (.write rfl rfl)) (.write rfl rfl), ?_, ?_⟩ <;> decide

/-- C51 (part): without clearing, no interleaving makes a counter larger than its start plus the number of increments done. -/
theorem never_overcounts_partial {r : Regs} {evs : List Ev} {s : Sys} (h : Reach r evs s) (k : Ctr) (n : Nat) (hn : value r k = some n)
    (hc : ∀ t ty p, Ev.clear t ty p ∉ evs) : ∃ m, value s.regs k = some m ∧ m ≤ tally k n evs := by
  suffices hs : (∃ m, value s.regs k = some m ∧ m ≤ tally k n evs) ∧
      ∀ u ty p v, s.pend u = some (ty, p, v) → named ty p = some k → v.toNat ≤ tally k n evs from hs.1
  induction h with
  | start => exact ⟨⟨n, hn, Nat.le_refl _⟩, fun _ _ _ _ hp => nomatch hp⟩
  | next hr hst ih =>
    rename_i evs s e s'
    obtain ⟨⟨m, ih1, ih1'⟩, ih2⟩ := ih (fun t ty p he => hc t ty p (by simp [he]))
    rw [tally_append]
    cases hst with
    | read h1 h2 =>
      simp only [tally]
      refine ⟨⟨m, ih1, ih1'⟩, ?_⟩
      intro u' ty' p' v' hp hk
      simp only [Sys.hold] at hp
      split at hp
      · cases hp
        obtain ⟨k', b1, b2⟩ := get_some h2
        rw [hk] at b1
        cases b1
        rw [ih1] at b2
        simp only [Option.some.injEq] at b2
        omega
      · exact ih2 u' ty' p' v' hp hk
    | write h1 h2 =>
      rename_i u ty p v r'
      obtain ⟨k', a1, a2, _⟩ := writeBack_some h2
      simp only [tally]
      rw [a2 k, a1]
      have hle : tally k n evs ≤ (if some k' = some k then tally k n evs + 1 else tally k n evs) := by split <;> omega
      refine ⟨?_, ?_⟩
      · by_cases hk : k = k'
        · subst hk
          rw [if_pos rfl, if_pos rfl]
          have := ih2 u ty p v h1 a1
          exact ⟨_, rfl, Nat.le_trans (Nat.mod_le _ _) (by omega)⟩
        · rw [if_neg hk]
          exact ⟨m, ih1, by omega⟩
      · intro u' ty' p' v' hp hk'
        simp only [Sys.hold] at hp
        split at hp
        · cases hp
        · have := ih2 u' ty' p' v' hp hk'
          omega
    | clear h1 h2 => exact absurd (List.mem_append.2 (.inr (List.mem_singleton.2 rfl))) (hc _ _ _)

/-- C51 (the full statement is false): two tasks that increment the same counter at the same time can leave it raised by one only. -/
theorem lost_update : ∃ s, Reach ⟨0, none⟩ [.read 1 0 0, .read 2 0 0, .write 1 0 0, .write 2 0 0] s ∧ value s.regs .own = some 1 ∧
    tally .own 0 [.read 1 0 0, .read 2 0 0, .write 1 0 0, .write 2 0 0] = 2 := by
  refine ⟨_, .next (.next (.next (.next .start (.read rfl rfl)) (.read rfl rfl)) (.write rfl rfl)) (.write rfl rfl), ?_, ?_⟩ <;> decide

end Verif.Counters
