import Verif.HostIrq.Lemmas
/-!
C145: what a host is asked to do at power-on and for forced recovery.
-/
namespace Verif.HostIrq
open Spec

/-! ### Power-on -/

/-- **C145** At power-on nothing is done after a success, and the result is that of the last operation. -/
theorem power_on_stops (h : Host) (allow : Bool) : (powerOn h allow).1 ≠ [] ∧ (powerOn h allow).2 = h (powerOn h allow).1 ∧
    ∀ i, i + 1 < (powerOn h allow).1.length → answer h (powerOn h allow).1 i ≠ .ok := inv_powerOn h allow

theorem prefix_failed (h : Host) (r : Run) (hr : Inv h r) (p q : List Call) (he : r.1 = p ++ q) (hp : p ≠ []) (hq : q ≠ [] ∨ r.2 ≠ .ok) : h p ≠ .ok := by
  obtain ⟨-, h1, h2⟩ := hr
  rcases List.eq_nil_or_concat q with rfl | ⟨q', x, hx⟩
  · rw [List.append_nil] at he
    rw [← he, ← h1]
    exact hq.elim (fun x => absurd rfl x) id
  · have hl : 0 < p.length := List.length_pos_iff.mpr hp
    have := h2 (p.length - 1) (by rw [he, hx]; simp; omega)
    unfold answer at this
    rw [he, show p.length - 1 + 1 = p.length by omega, List.take_left] at this
    exact this

/-- **C145** The operations of power-on, for any host. First validation, then rollback, then recovery and only then bypass, each at most twice, and bypass only if that is allowed. A
rollback or a recovery that the host says is impossible is not tried (again), and what is less secure is tried only if all attempts of what is more secure failed. Failure is reported only
if nothing is left to try. The first bypass swaps the flash devices if and only if the failure was not that recovery is impossible, and they are swapped at most once. -/
theorem power_on_order (h : Host) (allow : Bool) : ∃ (a b c : Nat) (bs : List Bool) (t0 t1 t2 : List Call),
    t0 = List.replicate a .validate ∧ t1 = t0 ++ List.replicate b .rollback ∧ t2 = t1 ++ List.replicate c .recover ∧
    (powerOn h allow).1 = t2 ++ bs.map Call.bypass ∧ 1 ≤ a ∧ a ≤ 2 ∧ b ≤ 2 ∧ c ≤ 2 ∧ bs.length ≤ 2 ∧ bs.count true ≤ 1 ∧
    (0 < b + c + bs.length ∨ (powerOn h allow).2 ≠ .ok → a = 2) ∧
    (0 < c + bs.length ∨ (powerOn h allow).2 ≠ .ok → b = 2 ∨ noRollback (h t1)) ∧
    (0 < bs.length ∨ (powerOn h allow).2 ≠ .ok → c = 2 ∨ noRecovery (h t2)) ∧
    (0 < bs.length → allow = true) ∧ (allow = true → (powerOn h allow).2 ≠ .ok → bs.length = 2) ∧
    (∀ j, j < b → ¬ noRollback (h (t0 ++ List.replicate j .rollback))) ∧ (∀ j, j < c → ¬ noRecovery (h (t1 ++ List.replicate j .recover))) ∧
    (0 < bs.length → (bs.head? = some true ↔ ¬ noRecovery (h t2))) := by
  obtain ⟨k, hk, p1, p2⟩ := porLoop_spec h 1 [.validate]
  have e0 : [Call.validate] ++ List.replicate k .validate = List.replicate (k + 1) .validate := by rw [List.replicate_succ]; rfl
  rw [e0] at p1 p2
  obtain ⟨b, hb, r1, r3, r2⟩ := rollbackLoop_spec h 2 (List.replicate (k + 1) .validate)
  obtain ⟨c, hc, q1, q3, q2⟩ := recoverLoop_spec h 2 (List.replicate (k + 1) .validate ++ List.replicate b .rollback)
  obtain ⟨bs, b1, b2, b3, b4, b5⟩ := bypassLoop_spec h allow (List.replicate (k + 1) .validate ++ List.replicate b .rollback ++ List.replicate c .recover)
  have he : powerOn h allow = bypassLoop h allow 2 false
      (List.replicate (k + 1) .validate ++ List.replicate b .rollback ++ List.replicate c .recover,
        h (List.replicate (k + 1) .validate ++ List.replicate b .rollback ++ List.replicate c .recover)) := by
    unfold powerOn
    rw [show call h .validate [] = ([.validate], h [.validate]) from rfl, p1, r1, q1]
  rw [b1] at he
  have ht := congrArg Prod.fst he
  have hs := congrArg Prod.snd he
  dsimp only at ht hs
  have hv : List.replicate (k + 1) Call.validate ≠ [] := by simp
  have pf := prefix_failed h _ (inv_powerOn h allow)
  refine ⟨k + 1, b, c, bs, _, _, _, rfl, rfl, rfl, ht, by omega, by omega, hb, hc, b2, b3, ?_, ?_, ?_, ?_, ?_, r3, q3, ?_⟩
  · intro hx
    have := pf (List.replicate (k + 1) .validate) (List.replicate b .rollback ++ (List.replicate c .recover ++ bs.map Call.bypass)) (by rw [ht]; simp only [List.append_assoc]) hv
      (hx.imp (fun y z => by have := congrArg List.length z; simp only [List.length_append, List.length_replicate, List.length_map, List.length_nil] at this; omega) id)
    exact p2.elim (by omega) (fun y => absurd y this)
  · intro hx
    have := pf (List.replicate (k + 1) .validate ++ List.replicate b .rollback) (List.replicate c .recover ++ bs.map Call.bypass) (by rw [ht]; simp only [List.append_assoc]) (by simp)
      (hx.imp (fun y z => by have := congrArg List.length z; simp only [List.length_append, List.length_replicate, List.length_map, List.length_nil] at this; omega) id)
    exact r2.imp id (fun y => y.elim (fun y => absurd y this) id)
  · intro hx
    have := pf (List.replicate (k + 1) .validate ++ List.replicate b .rollback ++ List.replicate c .recover) (bs.map Call.bypass) ht (by simp)
      (hx.imp (fun y z => by have := congrArg List.length z; simp only [List.length_append, List.length_replicate, List.length_map, List.length_nil] at this; omega) id)
    exact q2.imp id (fun y => y.elim (fun y => absurd y this) id)
  · intro hx
    exact (b4 (List.length_pos_iff.mp hx)).1
  · intro hx hy
    rw [hs] at hy
    exact b5 hx hy
  · intro hx
    exact (b4 (List.length_pos_iff.mp hx)).2.2

/-- **C145** Without permission no host boots without validation. -/
theorem no_unsecure (h : Host) (swap : Bool) : Call.bypass swap ∉ (powerOn h false).1 := by
  obtain ⟨a, b, c, bs, t0, t1, t2, e0, e1, e2, e, -, -, -, -, -, -, -, -, -, hb, -⟩ := power_on_order h false
  have : bs = [] := by
    cases bs with
    | nil => rfl
    | cons x l => exact absurd (hb (by simp)) (by decide)
  subst this e0 e1 e2
  rw [e]
  simp

/-- **C145, partial** The flash devices are swapped by the first bypass only after two recoveries were tried and failed. -/
theorem swap_after_recovery_partial (h : Host) (allow : Bool) (p q : List Call) (he : (powerOn h allow).1 = p ++ Call.bypass true :: q) (hp : ∀ x, Call.bypass x ∉ p) :
    ∃ p', p = p' ++ [.recover, .recover] ∧ h (p' ++ [.recover]) ≠ .ok ∧ h p ≠ .ok ∧ ¬ noRecovery (h p) := by
  have pf := prefix_failed h _ (inv_powerOn h allow)
  obtain ⟨a, b, c, bs, t0, t1, t2, e0, e1, e2, e, ha, -, -, -, -, -, -, -, hc, -, -, -, -, hd⟩ := power_on_order h allow
  have hn : ∀ x, Call.bypass x ∉ t2 := by
    subst e0 e1 e2
    intro x; simp
  have key : ∀ (l p : List Call) (bs : List Bool), (∀ x, Call.bypass x ∉ l) → (∀ x, Call.bypass x ∉ p) → l ++ bs.map Call.bypass = p ++ Call.bypass true :: q → l = p ∧ bs.head? = some true := by
    intro l
    induction l with
    | nil =>
      intro p bs _ h2 h3
      cases p with
      | nil =>
        cases bs with
        | nil => simp at h3
        | cons x bs =>
          simp at h3
          exact ⟨rfl, by rw [h3.1]; rfl⟩
      | cons y p =>
        cases bs with
        | nil => simp at h3
        | cons x bs =>
          simp at h3
          exact absurd (by rw [h3.1]; exact List.mem_cons_self) (h2 x)
    | cons y l ih =>
      intro p bs h1 h2 h3
      cases p with
      | nil =>
        simp at h3
        exact absurd (by rw [h3.1]; exact List.mem_cons_self) (h1 true)
      | cons z p =>
        simp at h3
        obtain ⟨r1, r2⟩ := ih p bs (fun x hx => h1 x (List.mem_cons_of_mem _ hx)) (fun x hx => h2 x (List.mem_cons_of_mem _ hx)) h3.2
        exact ⟨by rw [h3.1, r1], r2⟩
  obtain ⟨k1, k2⟩ := key t2 p bs hn hp (e.symm.trans he)
  have hl : 0 < bs.length := by
    cases bs with
    | nil => cases k2
    | cons _ _ => simp
  have hnr := (hd hl).mp k2
  have hc2 : c = 2 := (hc (.inl hl)).resolve_right hnr
  subst hc2
  refine ⟨t1, ?_, ?_, ?_, by rw [← k1]; exact hnr⟩
  · rw [← k1, e2]; rfl
  · refine pf (t1 ++ [.recover]) ([.recover] ++ Call.bypass true :: q) ?_ (by simp) (.inl (by simp))
    rw [he, ← k1, e2, List.append_assoc, List.append_assoc]; rfl
  · exact pf p (Call.bypass true :: q) he (by rw [← k1, e2]; simp) (.inl (by simp))

/-- A host without recovery, whose first bypass fails. -/
def hostA : Host := fun t =>
  match t.getLast? with
  | some .validate => .other 1
  | some .rollback => .noRollback
  | some .recover => .recoveryUnsupported
  | some (.bypass false) => .other 2
  | _ => .ok

/-- **C145, negation** If the first bypass fails, then the second swaps the flash devices, although the host has no recovery, so that nothing was written to the read-only flash: the host boots
from the other flash without validation. -/
theorem counterexample_swap : (powerOn hostA true) = ([.validate, .validate, .rollback, .recover, .bypass false, .bypass true], .ok) ∧
    ∀ t, hostA (t ++ [.recover]) = .recoveryUnsupported :=
  ⟨by decide, by intro t; simp [hostA]⟩

/-- A host whose recovery image is not valid any more after the first attempt. -/
def hostB : Host := fun t =>
  match t.getLast? with
  | some .validate => .other 1
  | some .rollback => .rollbackDirty
  | some .recover => if t.count .recover = 1 then .other 3 else .noRecoveryImage
  | _ => .ok

/-- **C145, negation** After a recovery that failed, which can have destroyed the read-only flash, the devices are not swapped if the second attempt finds no image. -/
theorem counterexample_no_swap : (powerOn hostB true) = ([.validate, .validate, .rollback, .recover, .recover, .bypass false], .ok) ∧
    hostB [.validate, .validate, .rollback, .recover] = .other 3 := ⟨by decide, by decide⟩

/-- A host that recovers: the hypotheses and conclusions are met by other histories, too. -/
def hostC : Host := fun t =>
  match t.getLast? with
  | some .validate => .other 1
  | some .rollback => .other 2
  | some .recover => if t.count .recover = 1 then .other 3 else .ok
  | _ => .ok

example : powerOn hostC true = ([.validate, .validate, .rollback, .rollback, .recover, .recover], .ok) := by decide

def hostD : Host := fun t =>
  match t.getLast? with
  | some (.bypass false) => .ok
  | _ => .other 1

example : powerOn hostD true = ([.validate, .validate, .rollback, .rollback, .recover, .recover, .bypass true, .bypass false], .ok) := by decide
example : powerOn hostD false = ([.validate, .validate, .rollback, .rollback, .recover, .recover], .other 1) := by decide

/-! ### Forced recovery -/

/-- The answer ends forced recovery. -/
def ends (s : Status) : Prop := s = .ok ∨ s = .recoveryUnsupported ∨ s = .noRecoveryImage

theorem force_aux (h : Host) : ∀ (m n : Nat) (t : List Call), m < n → (∀ j, 0 < j → j ≤ m → ¬ ends (h (t ++ List.replicate j .recover))) → ends (h (t ++ List.replicate (m + 1) .recover)) →
    forceRecovery h n t = some (t ++ List.replicate (m + 1) .recover, h (t ++ List.replicate (m + 1) .recover)) := by
  intro m
  induction m with
  | zero =>
    intro n t hn h1 h2
    cases n with
    | zero => omega
    | succ n =>
      unfold forceRecovery
      dsimp only [call]
      have h2 : ends (h (t ++ [.recover])) := h2
      rcases h2 with h2 | h2
      · rw [if_neg (by rw [h2]; simp), if_neg (fun x => x h2)]; rfl
      · rw [if_pos h2]; rfl
  | succ m ih =>
    intro n t hn h1 h2
    cases n with
    | zero => omega
    | succ n =>
      unfold forceRecovery
      dsimp only [call]
      have h3 : ¬ ends (h (t ++ [.recover])) := h1 1 (by omega) (by omega)
      rw [if_neg (fun x => h3 (.inr x)), if_pos (fun x => h3 (.inl x)), ih n (t ++ [Call.recover]) (by omega) ?_ ?_, snoc_replicate]
      · intro j j0 jm
        rw [snoc_replicate]
        exact h1 (j + 1) (by omega) (by omega)
      · rw [snoc_replicate]; exact h2

/-- **C145** Forced recovery is tried until it succeeds or the host says it has no recovery or no image, as often as that takes, and does nothing else. -/
theorem force_exact (h : Host) (m n : Nat) (hn : m < n) (h1 : ∀ j, 0 < j → j ≤ m → ¬ ends (h (List.replicate j .recover))) (h2 : ends (h (List.replicate (m + 1) .recover))) :
    forceRecovery h n [] = some (List.replicate (m + 1) .recover, h (List.replicate (m + 1) .recover)) := force_aux h m n [] hn h1 h2

theorem force_never (h : Host) : ∀ (n : Nat) (t : List Call), (∀ j, 0 < j → ¬ ends (h (t ++ List.replicate j .recover))) → forceRecovery h n t = none := by
  intro n
  induction n with
  | zero => intro t _; rfl
  | succ n ih =>
    intro t h1
    unfold forceRecovery
    dsimp only [call]
    have h3 : ¬ ends (h (t ++ [.recover])) := h1 1 (by omega)
    rw [if_neg (fun x => h3 (.inr x)), if_pos (fun x => h3 (.inl x))]
    refine ih _ (fun j j0 => ?_)
    rw [snoc_replicate]
    exact h1 (j + 1) (by omega)

/-- **C145, negation** With a host whose flash configuration has no support for recovery, which ends recovery at power-on, forced recovery never ends. -/
theorem counterexample_force_forever : ∃ h : Host, (∀ t, h (t ++ [.recover]) = .flashNotSupported) ∧ (∀ n, forceRecovery h n [] = none) ∧
    (powerOn h false).1.count .recover = 1 := by
  refine ⟨fun t => if t.getLast? = some .recover then .flashNotSupported else .other 1, fun t => by simp, fun n => force_never _ n [] ?_, by decide⟩
  intro j hj
  obtain ⟨k, rfl⟩ : ∃ k, j = k + 1 := ⟨j - 1, by omega⟩
  simp [List.getLast?_replicate, ends]

example : forceRecovery hostC 5 [] = some ([.recover, .recover], .ok) := by decide

end Verif.HostIrq
