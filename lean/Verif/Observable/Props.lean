import Verif.Observable.Lemmas
/-! Property C34. -/
namespace Verif.Observable

theorem history_inv {n : Nat} {s : State} {h : List (Op × Out)} (hh : History n s h) (hn : h.length < n) :
    ∃ as, Inv s as (observers h) ∧ (observers h).length ≤ h.length := by
  induction hh with
  | nil => exact ⟨[], ⟨.nil, by simp, by simp [init], by simp [observers], by simp [observers]⟩, by simp [observers]⟩
  | @snoc s s' h op out _ hl hs ih =>
    simp only [List.length_append, List.length_singleton] at hn ⊢
    obtain ⟨as, h1, h2⟩ := ih (by omega)
    obtain ⟨s2, as2, h3, h4⟩ := step_inv h1 hl (n := n) (by omega)
    rw [hs] at h3
    simp only [Option.some.injEq, Prod.mk.injEq] at h3
    have e : observers (h ++ [(op, out)]) = registered (observers h) op := by simp [observers, List.foldl_append]
    rw [e, h3.1]
    refine ⟨as2, h4, ?_⟩
    have : (registered (observers h) op).length ≤ (observers h).length + 1 := by
      cases op with
      | add o alloc => simp only [registered]; split <;> simp
      | remove o => simp only [registered]; exact Nat.le_succ_of_le (List.length_filter_le ..)
      | notify cb => simp [registered]
    omega

/-- C34: after any history of registrations, removals and events, a call never faults, an event notifies exactly the registered observers
that take this event, each once and in the order of registration, and every call returns the right status. -/
theorem notified_once {n : Nat} {s : State} {h : List (Op × Out)} (hh : History n s h) (hn : h.length < n) (op : Op) (hl : Legal s op) :
    ∃ s', step n s op = some (s', expected (observers h) op) := by
  obtain ⟨as, h1, h2⟩ := history_inv hh hn
  obtain ⟨s', _, h3, _⟩ := step_inv h1 hl (n := n) (by omega)
  exact ⟨s', h3⟩

/-- No observer is registered twice. -/
theorem observers_nodup {n : Nat} {s : State} {h : List (Op × Out)} (hh : History n s h) (hn : h.length < n) : (observers h).Nodup := by
  obtain ⟨as, h1, _⟩ := history_inv hh hn
  exact h1.distinct

/-- No entry is leaked: as many entries are allocated as observers are registered, and releasing the list frees all of them. -/
theorem no_leak {n : Nat} {s : State} {h : List (Op × Out)} (hh : History n s h) (hn : h.length < n) :
    (∃ as : List Nat, as.Nodup ∧ as.length = (observers h).length ∧ ∀ x, (s.mem x).isSome ↔ x ∈ as) ∧
    ∃ s', release n s = some s' ∧ s'.head = 0 ∧ ∀ x, s'.mem x = none := by
  obtain ⟨as, h1, h2⟩ := history_inv hh hn
  refine ⟨⟨as, h1.nodup, h1.chain.length, h1.live⟩, ?_⟩
  obtain ⟨m', g1, g2, g3⟩ := release_spec h1.chain h1.nodup n (by omega)
  refine ⟨_, g1, rfl, fun x => ?_⟩
  by_cases e : x ∈ as
  · exact g2 x e
  · have := h1.live x
    show m' x = none
    rw [g3 x e]
    simpa [e] using this

/-- A history with three observers, the middle one removed, one registered twice. -/
def hist : List (Op × Out) := [(.add 7 (some 100), .status none), (.add 8 (some 200), .status none), (.add 9 (some 300), .status none),
  (.add 7 (some 400), .status none), (.remove 8, .status none), (.notify (fun _ => true), .called [7, 9])]

example : observers hist = [7, 9] := by decide +kernel
example : ∃ s, History 10 s hist := by
  refine ⟨_, .snoc (h := hist.take 5) (.snoc (h := hist.take 4) (.snoc (h := hist.take 3) (.snoc (h := hist.take 2) (.snoc (h := hist.take 1)
    (.snoc (h := []) .nil ?_ rfl) ?_ rfl) ?_ rfl) ?_ rfl) trivial rfl) trivial rfl⟩
  all_goals exact ⟨by decide, by decide⟩

end Verif.Observable
