import Verif.UpdateReset.Model
/-!
C156: a device resets itself after a firmware update exactly if it was applied, is to be executed at once and has no impact.
-/
namespace Verif.UpdateReset

/-- The event as the specification sees it. -/
def seen (noSelf x : Bool) (a : Answers) : Spec.Update := ⟨decide (a.status = 0), x, noSelf, decide (a.notImpactful = 0)⟩

/-- A status of an update that is under way or failed: its first byte is neither success value. -/
def Pending (v : Nat) : Prop := v % 256 ≠ 0 ∧ v % 256 ≠ 0x22

theorem or_shifted (v c : Nat) : (v ||| shifted c) % 256 = v % 256 := by
  show (v ||| shifted c) % 2 ^ 8 = v % 2 ^ 8
  apply Nat.eq_of_testBit_eq
  intro i
  simp only [Nat.testBit_mod_two_pow, Nat.testBit_or, shifted, Nat.testBit_shiftLeft]
  by_cases h : i < 8
  · have : ¬ i ≥ 8 := by omega
    simp [this]
  · simp [h]

theorem shifted_or (v c : Nat) : (shifted c ||| v) % 256 = v % 256 := by
  rw [Nat.or_comm]; exact or_shifted v c

/-- The status after the notifications is one of an update under way. -/
def StaysPending (s : St) (a : Answers) : Prop := Pending s.status ∧ ∀ v, a.notified = some v → Pending v

theorem notify_facts (s : St) (a : Answers) :
    (notify s a).reset = s.reset ∧ (notify s a).authorized = s.authorized ∧ (StaysPending s a → Pending (notify s a).status) := by
  unfold notify
  cases h : a.notified with
  | none => exact ⟨rfl, rfl, fun p => p.1⟩
  | some v =>
    refine ⟨rfl, rfl, fun p => ?_⟩
    have := p.2 v h
    simpa only [Pending, shifted_or] using this

theorem pending_or {v c : Nat} (h : Pending v) : Pending (v ||| shifted c) := by
  simpa only [Pending, or_shifted] using h

theorem pending_not {v : Nat} (h : Pending v) : ¬ (v = 0 ∨ v = noReset) := by
  rintro (e | e)
  · subst e; exact h.1 rfl
  · subst e; exact h.2 rfl

/-- **C156** After an update the device resets exactly if the specification says so; an authorization is used up exactly by an update
that was applied, unless its reset fails. -/
theorem reset_exact (noSelf x : Bool) (s : St) (a : Answers) (hs : s.reset = false) (hp : StaysPending s a) :
    (impactfulExecute noSelf s (.run x) a).reset = Spec.resets (seen noSelf x a) ∧
    (impactfulExecute noSelf s (.run x) a).authorized = (s.authorized && !(decide (a.status = 0) && decide (a.resetAuth = 0))) := by
  obtain ⟨n1, n2, n3⟩ := notify_facts s a
  by_cases h0 : a.status = 0
  · cases noSelf <;> cases x <;> by_cases hi : a.notImpactful = 0 <;> by_cases hr : a.resetAuth = 0 <;>
      simp [impactfulExecute, execute, h0, hi, hr, seen, Spec.resets, n2, noReset]
  · have p := pending_not (pending_or (c := a.status) (n3 hp))
    simp only [impactfulExecute, execute, h0, if_false, p, n1, n2, hs]
    simp [seen, Spec.resets, h0]

/-- **C156** The first byte of the status is the success value the specification gives exactly if the update was applied; after a
failure it is the last value that was notified. -/
theorem status_exact (noSelf x : Bool) (s : St) (a : Answers) (hp : StaysPending s a) :
    (a.status = 0 → (impactfulExecute noSelf s (.run x) a).status % 256 = Spec.successCode (seen noSelf x a)) ∧
    (a.status ≠ 0 → (impactfulExecute noSelf s (.run x) a).status % 256 = (a.notified.getD s.status) % 256) := by
  obtain ⟨n1, n2, n3⟩ := notify_facts s a
  constructor
  · intro h0
    cases noSelf <;> cases x <;> by_cases hi : a.notImpactful = 0 <;> by_cases hr : a.resetAuth = 0 <;>
      simp [impactfulExecute, execute, h0, hi, hr, seen, Spec.resets, Spec.successCode, noReset, shifted_or]
  · intro h0
    have p := pending_not (pending_or (c := a.status) (n3 hp))
    simp only [impactfulExecute, execute, h0, if_false, p, or_shifted]
    unfold notify
    cases a.notified <;> simp [shifted_or]

/-- **C156** No other event makes the device reset or uses up the authorization. -/
theorem other_events (noSelf : Bool) (s : St) (act : Action) (a : Answers) (h : ∀ x, act ≠ .run x) (hs : s.reset = false) :
    (impactfulExecute noSelf s act a).reset = false ∧ (impactfulExecute noSelf s act a).authorized = s.authorized := by
  obtain ⟨n1, n2, _⟩ := notify_facts s a
  cases act with
  | run x => exact absurd rfl (h x)
  | other => exact ⟨hs, rfl⟩
  | prepStaging => by_cases h0 : a.status = 0 <;> simp [impactfulExecute, execute, h0, n1, n2, hs]
  | writeStaging => by_cases h0 : a.status = 0 <;> simp [impactfulExecute, execute, h0, n1, n2, hs]

/-- **C156** Counterexample: if its reset fails, the authorization stays although it is meant for one update, and the status does not
tell. -/
theorem counterexample_auth_reset_failed :
    impactfulExecute false ⟨1, false, true⟩ (.run true) ⟨0, some 11, 0x7f000001, 0⟩ = ⟨0, true, true⟩ := by decide

/-- An update that has an impact, and one that failed. -/
example : impactfulExecute false ⟨1, false, true⟩ (.run true) ⟨0, some 11, 0, 0x7f001203⟩ = ⟨0x00120322, false, false⟩ := by decide
example : impactfulExecute false ⟨1, false, true⟩ (.run true) ⟨0x7f001203, some 12, 0, 0⟩ = ⟨0x0012030c, false, true⟩ := by decide
example : StaysPending ⟨1, false, true⟩ ⟨0, some 11, 0, 0⟩ := ⟨⟨by decide, by decide⟩, by intro v h; cases h; exact ⟨by decide, by decide⟩⟩

end Verif.UpdateReset
