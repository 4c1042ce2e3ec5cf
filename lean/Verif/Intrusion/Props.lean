import Verif.Intrusion.Model
/-! What the intrusion managers report. -/
namespace Verif.Intrusion

/-! ### Specification -/

/-- An operation after which there is no doubt that the chassis is closed: a check or notification without intrusion, or a reset that was carried out; each with a measurement that succeeded. -/
inductive Healthy : Op → Prop
  | check (allow : Bool) : Healthy (.check allow .noIntrusion 0)
  | reset : Healthy (.reset (.ok 0) 0 0)
  | notified : Healthy (.onNoIntrusion 0)

/-- An operation that tells of an intrusion or after which the state is unknown, whether or not the measurement succeeded. -/
inductive Adverse : Op → Prop
  | handle (pcr set : Nat) : Adverse (.handle pcr set)
  | found (allow : Bool) (pcr : Nat) : Adverse (.check allow .intrusion pcr)
  | failed (allow : Bool) (e pcr : Nat) : Adverse (.check allow (.error e) pcr)
  | deferred (pcr : Nat) : Adverse (.check false .deferred pcr)
  | notified (pcr : Nat) : Adverse (.onIntrusion pcr)
  | notifiedError (pcr : Nat) : Adverse (.onError pcr)

/-- The status of the measurement of an operation that makes one. -/
def measurement : Op → Option Nat
  | .handle pcr _ => some pcr
  | .reset (.ok 0) 0 pcr => some pcr
  | .check true .deferred _ => none
  | .check _ _ pcr => some pcr
  | .onIntrusion pcr => some pcr
  | .onNoIntrusion pcr => some pcr
  | .onError pcr => some pcr
  | _ => none

/-! ### Proofs -/

/-- The three kinds of operations. -/
theorem step_kind (o : Op) : (Healthy o ∧ ∀ m, (step m o).2.data = 0 ∧ (step m o).2.measured = some 0) ∨ (Adverse o ∧ ∀ m, (step m o).2.data ≠ 0) ∨
    ((¬ Healthy o ∧ ¬ Adverse o) ∧ ∀ m, (step m o).2.data = m.data ∧ (step m o).2.measured = m.measured) := by
  cases o with
  | handle pcr set => exact .inr (.inl ⟨.handle _ _, fun m => by simp [step, handle, update]⟩)
  | reset active clear pcr =>
    rcases active with e | a
    · exact .inr (.inr ⟨⟨(fun h => by cases h), (fun h => by cases h)⟩, fun m => ⟨rfl, rfl⟩⟩)
    · by_cases ha : a = 0
      · subst ha
        by_cases hc : clear = 0
        · subst hc
          by_cases hp : pcr = 0
          · subst hp; exact .inl ⟨.reset, fun m => ⟨rfl, rfl⟩⟩
          · exact .inr (.inr ⟨⟨(fun h => by cases h; exact hp rfl), (fun h => by cases h)⟩, fun m => by simp [step, reset, update, hp]⟩)
        · exact .inr (.inr ⟨⟨(fun h => by cases h; exact hc rfl), (fun h => by cases h)⟩, fun m => by simp [step, reset, hc]⟩)
      · exact .inr (.inr ⟨⟨(fun h => by cases h; exact ha rfl), (fun h => by cases h)⟩, fun m => by simp [step, reset, ha]⟩)
  | check allow result pcr =>
    cases result with
    | noIntrusion =>
      by_cases hp : pcr = 0
      · subst hp; exact .inl ⟨.check _, fun m => ⟨rfl, rfl⟩⟩
      · exact .inr (.inr ⟨⟨(fun h => by cases h; exact hp rfl), (fun h => by cases h)⟩, fun m => by simp [step, check, update, hp]⟩)
    | intrusion => exact .inr (.inl ⟨.found _ _, fun m => by simp [step, check, update]⟩)
    | deferred =>
      cases allow with
      | true => exact .inr (.inr ⟨⟨(fun h => by cases h), (fun h => by cases h)⟩, fun m => ⟨rfl, rfl⟩⟩)
      | false => exact .inr (.inl ⟨.deferred _, fun m => by simp [step, check, update]⟩)
    | error e => exact .inr (.inl ⟨.failed _ _ _, fun m => by simp [step, check, update]⟩)
  | onIntrusion pcr => exact .inr (.inl ⟨.notified _, fun m => by simp [step, update]⟩)
  | onNoIntrusion pcr =>
    by_cases hp : pcr = 0
    · subst hp; exact .inl ⟨.notified, fun m => ⟨rfl, rfl⟩⟩
    · exact .inr (.inr ⟨⟨(fun h => by cases h; exact hp rfl), (fun h => by cases h)⟩, fun m => by simp [step, update, hp]⟩)
  | onError pcr => exact .inr (.inl ⟨.notifiedError _, fun m => by simp [step, update]⟩)

theorem not_both {o : Op} (h : Healthy o) : ¬ Adverse o := by
  intro h2
  cases h <;> cases h2

theorem run_append (m : Mgr) (a b : List Op) : run m (a ++ b) = run (run m a) b := by
  induction a generalizing m with
  | nil => rfl
  | cons o a ih => exact ih _

theorem run_data (h : List Op) : ∀ m, ((run m h).data = 0 ↔ (∃ pre o post, h = pre ++ o :: post ∧ Healthy o ∧ ∀ x ∈ post, ¬ Adverse x) ∨ (m.data = 0 ∧ ∀ x ∈ h, ¬ Adverse x)) := by
  induction h with
  | nil => intro m; simp [run]
  | cons o os ih =>
    intro m
    rw [run, ih]
    rcases step_kind o with ⟨hk, hs⟩ | ⟨hk, hs⟩ | ⟨⟨hk1, hk2⟩, hs⟩
    · constructor
      · rintro (⟨pre, x, post, rfl, hx, hp⟩ | ⟨-, hp⟩)
        · exact .inl ⟨o :: pre, x, post, rfl, hx, hp⟩
        · exact .inl ⟨[], o, os, rfl, hk, hp⟩
      · rintro (⟨pre, x, post, e, hx, hp⟩ | ⟨-, hp⟩)
        · cases pre with
          | nil => injection e with e1 e2; subst e2; exact .inr ⟨(hs m).1, hp⟩
          | cons y pre => injection e with e1 e2; exact .inl ⟨pre, x, post, e2, hx, hp⟩
        · exact .inr ⟨(hs m).1, fun x hx => hp x (by simp [hx])⟩
    · constructor
      · rintro (⟨pre, x, post, rfl, hx, hp⟩ | ⟨h0, -⟩)
        · exact .inl ⟨o :: pre, x, post, rfl, hx, hp⟩
        · exact absurd h0 (hs m)
      · rintro (⟨pre, x, post, e, hx, hp⟩ | ⟨-, hp⟩)
        · cases pre with
          | nil => injection e with e1 e2; subst e1; exact absurd hk (not_both hx)
          | cons y pre => injection e with e1 e2; exact .inl ⟨pre, x, post, e2, hx, hp⟩
        · exact absurd hk (hp o (by simp))
    · rw [(hs m).1]
      constructor
      · rintro (⟨pre, x, post, rfl, hx, hp⟩ | ⟨h0, hp⟩)
        · exact .inl ⟨o :: pre, x, post, rfl, hx, hp⟩
        · exact .inr ⟨h0, fun x hx => by rcases List.mem_cons.mp hx with rfl | hx; exact hk2; exact hp x hx⟩
      · rintro (⟨pre, x, post, e, hx, hp⟩ | ⟨h0, hp⟩)
        · cases pre with
          | nil => injection e with e1 e2; subst e1; exact absurd hx hk1
          | cons y pre => injection e with e1 e2; exact .inl ⟨pre, x, post, e2, hx, hp⟩
        · exact .inr ⟨h0, fun x hx => hp x (by simp [hx])⟩

/-- After every history the event data says "no intrusion" exactly if some operation established that and nothing adverse was seen since. -/
theorem reported_exact (h : List Op) : (run init h).data = 0 ↔ ∃ pre o post, h = pre ++ o :: post ∧ Healthy o ∧ ∀ x ∈ post, ¬ Adverse x := by
  rw [run_data]
  exact ⟨fun h => h.elim id (fun h => absurd h.1 (by decide)), .inl⟩

theorem healthy_step {m : Mgr} (hm : m.data = 0 → m.measured = some 0) (o : Op) : (step m o).2.data = 0 → (step m o).2.measured = some 0 := by
  intro h
  rcases step_kind o with ⟨-, hs⟩ | ⟨-, hs⟩ | ⟨-, hs⟩
  · exact (hs m).2
  · exact absurd h (hs m)
  · rw [(hs m).1] at h; rw [(hs m).2]; exact hm h

/-- Event data that says "no intrusion" is always backed by the measurement. -/
theorem healthy_measured (h : List Op) : (run init h).data = 0 → (run init h).measured = some 0 := by
  suffices ∀ (h : List Op) (m : Mgr), (m.data = 0 → m.measured = some 0) → (run m h).data = 0 → (run m h).measured = some 0 from this h init (by decide)
  intro h
  induction h with
  | nil => intro m hm; exact hm
  | cons o os ih => intro m hm; exact ih _ (healthy_step hm o)

theorem step_agrees (m : Mgr) (o : Op) (hm : m.measured = some m.data) (hp : ∀ p, measurement o = some p → Adverse o → p = 0) : (step m o).2.measured = some (step m o).2.data := by
  have upd : ∀ (m : Mgr) v f p, m.measured = some m.data → (f = true → p = 0) → (update m v f p).measured = some (update m v f p).data := by
    intro m v f p h1 h2
    by_cases h : p = 0
    · simp [update, h]
    · have : f = false := by cases f with
        | false => rfl
        | true => exact absurd (h2 rfl) h
      simp [update, h, this, h1]
  cases o with
  | handle pcr set => exact upd m 1 true pcr hm (fun _ => hp pcr rfl (.handle _ _))
  | reset active clear pcr =>
    rcases active with e | a
    · exact hm
    · simp only [step, reset]
      by_cases ha : a ≠ 0
      · rw [if_pos ha]; exact hm
      · rw [if_neg ha]
        by_cases hc : clear ≠ 0
        · rw [if_pos hc]; exact hm
        · rw [if_neg hc]; exact upd { m with calls := m.calls ++ [.clear] } 0 false pcr hm (fun h => by cases h)
  | check allow result pcr =>
    cases result with
    | noIntrusion => exact upd m 0 false pcr hm (fun h => by cases h)
    | intrusion => exact upd m 1 true pcr hm (fun _ => hp pcr (by cases allow <;> rfl) (.found _ _))
    | deferred =>
      cases allow with
      | true => exact hm
      | false => exact upd m 2 true pcr hm (fun _ => hp pcr rfl (.deferred _))
    | error e => exact upd m 2 true pcr hm (fun _ => hp pcr (by cases allow <;> rfl) (.failed _ _ _))
  | onIntrusion pcr => exact upd m 1 true pcr hm (fun _ => hp pcr rfl (.notified _))
  | onNoIntrusion pcr => exact upd m 0 false pcr hm (fun h => by cases h)
  | onError pcr => exact upd m 2 true pcr hm (fun _ => hp pcr rfl (.notifiedError _))

/-- The measurement is that of the event data, if no measurement of an adverse operation failed. -/
theorem measurement_agrees_partial (h : List Op) (hp : ∀ o ∈ h, ∀ p, measurement o = some p → Adverse o → p = 0) : (run init h).measured = some (run init h).data := by
  suffices ∀ (h : List Op) (m : Mgr), m.measured = some m.data → (∀ o ∈ h, ∀ p, measurement o = some p → Adverse o → p = 0) → (run m h).measured = some (run m h).data from this h init rfl hp
  intro h
  induction h with
  | nil => intro m hm _; exact hm
  | cons o os ih => intro m hm hp; exact ih _ (step_agrees m o hm (hp o (by simp))) (fun x hx => hp x (by simp [hx]))

/-- The persistent state is set with every intrusion that is handled, also if the measurement fails, and cleared only by a reset while no intrusion is active. -/
theorem state_calls (m : Mgr) (o : Op) : (step m o).2.calls = m.calls ++ (match o with
    | .handle _ _ => [.set]
    | .reset (.ok 0) _ _ => [.clear]
    | _ => []) := by
  cases o with
  | handle pcr set => rfl
  | reset active clear pcr =>
    rcases active with e | a
    · simp [step, reset]
    · cases a with
      | zero => simp only [step, reset, ne_eq, not_true_eq_false, if_false]; split <;> rfl
      | succ a => simp [step, reset]
  | check allow result pcr => cases result <;> simp [step, check, update]; split <;> simp [update]
  | onIntrusion pcr => simp [step, update]
  | onNoIntrusion pcr => simp [step, update]
  | onError pcr => simp [step, update]

/-- A result of 0: the reset was carried out, and is reported and measured; a handled intrusion is measured and was stored. -/
theorem reset_ok (m : Mgr) (active : Except Nat Nat) (clear pcr : Nat) (he : ∀ e, active = .error e → e ≠ 0) :
    (step m (.reset active clear pcr)).1 = 0 ↔ active = .ok 0 ∧ clear = 0 ∧ pcr = 0 := by
  rcases active with e | a
  · exact ⟨fun h => absurd h (he e rfl), fun h => by cases h.1⟩
  · simp only [step, reset]
    by_cases ha : a = 0
    · subst ha
      by_cases hc : clear = 0
      · simp [hc]
      · simp [hc]
    · rw [if_pos ha]
      exact ⟨(fun h => by cases h), (fun h => absurd (by injection h.1) ha)⟩

theorem handle_ok (m : Mgr) (pcr set : Nat) : (step m (.handle pcr set)).1 = 0 ↔ pcr = 0 ∧ set = 0 := by
  simp only [step, handle]
  by_cases h : pcr = 0 <;> simp [h]

/-- A closed chassis, then an intrusion whose measurement fails: the event data tells of the intrusion, the measurement still is the one of a closed chassis. -/
theorem stale_measurement : (run init [.check false .noIntrusion 0, .handle 1 0]).data = 1 ∧ (run init [.check false .noIntrusion 0, .handle 1 0]).measured = some 0 := by decide

/-- An intrusion that could not be stored is forgotten with the next check. -/
theorem lost_intrusion : (run init [.handle 0 1, .check false .noIntrusion 0]).data = 0 := by decide

/-- An intrusion, a refused reset and a reset. -/
example : (run init [.handle 0 0, .reset (.ok 1) 0 0]).data = 1 ∧ (run init [.handle 0 0, .reset (.ok 1) 0 0, .reset (.ok 0) 0 0]).data = 0 := by decide

end Verif.Intrusion
