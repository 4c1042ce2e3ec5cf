import Verif.HostIrq.Model
/-!
Lemmas for C145.
-/
namespace Verif.HostIrq
open Spec

/-- The status is the answer to the last operation, and every operation before failed. -/
def Inv (h : Host) (r : Run) : Prop := r.1 ≠ [] ∧ r.2 = h r.1 ∧ ∀ i, i + 1 < r.1.length → answer h r.1 i ≠ .ok

theorem inv_call (h : Host) (c : Call) (r : Run) (hr : Inv h r) (hs : r.2 ≠ .ok) : Inv h (call h c r.1) := by
  obtain ⟨h0, h1, h2⟩ := hr
  refine ⟨by simp [call], rfl, ?_⟩
  intro i hi
  unfold call at *
  dsimp only at *
  rw [List.length_append, List.length_singleton] at hi
  unfold answer
  rw [List.take_append_of_le_length (by omega)]
  by_cases he : i + 1 < r.1.length
  · exact h2 i he
  · rw [List.take_of_length_le (by omega), ← h1]; exact hs

theorem inv_por (h : Host) : ∀ (n : Nat) (r : Run), Inv h r → Inv h (porLoop h n r) := by
  intro n
  induction n with
  | zero => intro r hr; exact hr
  | succ n ih =>
    intro r hr
    unfold porLoop
    split
    · next hs => exact ih _ (inv_call h _ r hr hs)
    · exact hr

theorem inv_rollback (h : Host) : ∀ (n : Nat) (r : Run), Inv h r → Inv h (rollbackLoop h n r) := by
  intro n
  induction n with
  | zero => intro r hr; exact hr
  | succ n ih =>
    intro r hr
    unfold rollbackLoop
    split
    · next hs => exact ih _ (inv_call h _ r hr hs.1)
    · exact hr

theorem inv_recover (h : Host) : ∀ (n : Nat) (r : Run), Inv h r → Inv h (recoverLoop h n r) := by
  intro n
  induction n with
  | zero => intro r hr; exact hr
  | succ n ih =>
    intro r hr
    unfold recoverLoop
    split
    · next hs => exact ih _ (inv_call h _ r hr hs.1)
    · exact hr

theorem inv_bypass (h : Host) (allow : Bool) : ∀ (n : Nat) (sw : Bool) (r : Run), Inv h r → Inv h (bypassLoop h allow n sw r) := by
  intro n
  induction n with
  | zero => intro sw r hr; exact hr
  | succ n ih =>
    intro sw r hr
    unfold bypassLoop
    split
    · next hs =>
      split
      · exact ih _ _ (inv_call h _ r hr hs.2)
      · exact ih _ _ (inv_call h _ r hr hs.2)
    · exact hr

theorem inv_powerOn (h : Host) (allow : Bool) : Inv h (powerOn h allow) := by
  unfold powerOn
  refine inv_bypass h allow 2 false _ (inv_recover h 2 _ (inv_rollback h 2 _ (inv_por h 1 _ ?_)))
  exact ⟨by simp [call], rfl, fun i hi => absurd hi (by show ¬ i + 1 < 1; omega)⟩

theorem snoc_replicate (t : List Call) (c : Call) (k : Nat) : t ++ [c] ++ List.replicate k c = t ++ List.replicate (k + 1) c := by
  rw [List.append_assoc, List.replicate_succ]; rfl

theorem porLoop_spec (h : Host) : ∀ (n : Nat) (t : List Call), ∃ k, k ≤ n ∧
    porLoop h n (t, h t) = (t ++ List.replicate k .validate, h (t ++ List.replicate k .validate)) ∧ (k = n ∨ h (t ++ List.replicate k .validate) = .ok) := by
  intro n
  induction n with
  | zero => intro t; exact ⟨0, Nat.le_refl _, by simp [porLoop], .inl rfl⟩
  | succ n ih =>
    intro t
    unfold porLoop
    split
    · obtain ⟨k, hk, h1, h2⟩ := ih (t ++ [.validate])
      rw [snoc_replicate] at h1 h2
      exact ⟨k + 1, by omega, h1, h2.imp (by omega) id⟩
    · next hs =>
      refine ⟨0, Nat.zero_le _, by simp, .inr ?_⟩
      rw [List.replicate_zero, List.append_nil]
      exact Decidable.not_not.mp hs

theorem rollbackLoop_spec (h : Host) : ∀ (n : Nat) (t : List Call), ∃ k, k ≤ n ∧
    rollbackLoop h n (t, h t) = (t ++ List.replicate k .rollback, h (t ++ List.replicate k .rollback)) ∧
    (∀ j, j < k → ¬ noRollback (h (t ++ List.replicate j .rollback))) ∧
    (k = n ∨ h (t ++ List.replicate k .rollback) = .ok ∨ noRollback (h (t ++ List.replicate k .rollback))) := by
  intro n
  induction n with
  | zero => intro t; exact ⟨0, Nat.le_refl _, by simp [rollbackLoop], fun j hj => absurd hj (by omega), .inl rfl⟩
  | succ n ih =>
    intro t
    unfold rollbackLoop
    split
    · next hs =>
      obtain ⟨k, hk, h1, h3, h2⟩ := ih (t ++ [.rollback])
      rw [snoc_replicate] at h1 h2
      refine ⟨k + 1, by omega, h1, ?_, h2.imp (by omega) id⟩
      intro j hj
      cases j with
      | zero =>
        rw [List.replicate_zero, List.append_nil]
        exact fun x => x.elim hs.2.1 hs.2.2
      | succ j => rw [← snoc_replicate]; exact h3 j (by omega)
    · next hs =>
      refine ⟨0, Nat.zero_le _, by simp, fun j hj => absurd hj (by omega), .inr ?_⟩
      rw [List.replicate_zero, List.append_nil]
      unfold noRollback
      by_cases h1 : h t = .ok
      · exact .inl h1
      · by_cases h2 : h t = .noRollback
        · exact .inr (.inl h2)
        · by_cases h3 : h t = .rollbackDirty
          · exact .inr (.inr h3)
          · exact absurd ⟨h1, h2, h3⟩ hs

theorem recoverLoop_spec (h : Host) : ∀ (n : Nat) (t : List Call), ∃ k, k ≤ n ∧
    recoverLoop h n (t, h t) = (t ++ List.replicate k .recover, h (t ++ List.replicate k .recover)) ∧
    (∀ j, j < k → ¬ noRecovery (h (t ++ List.replicate j .recover))) ∧
    (k = n ∨ h (t ++ List.replicate k .recover) = .ok ∨ noRecovery (h (t ++ List.replicate k .recover))) := by
  intro n
  induction n with
  | zero => intro t; exact ⟨0, Nat.le_refl _, by simp [recoverLoop], fun j hj => absurd hj (by omega), .inl rfl⟩
  | succ n ih =>
    intro t
    unfold recoverLoop
    split
    · next hs =>
      obtain ⟨k, hk, h1, h3, h2⟩ := ih (t ++ [.recover])
      rw [snoc_replicate] at h1 h2
      refine ⟨k + 1, by omega, h1, ?_, h2.imp (by omega) id⟩
      intro j hj
      cases j with
      | zero =>
        rw [List.replicate_zero, List.append_nil]
        exact fun x => x.elim hs.2.1 (fun x => x.elim hs.2.2.1 hs.2.2.2)
      | succ j => rw [← snoc_replicate]; exact h3 j (by omega)
    · next hs =>
      refine ⟨0, Nat.zero_le _, by simp, fun j hj => absurd hj (by omega), .inr ?_⟩
      rw [List.replicate_zero, List.append_nil]
      unfold noRecovery
      by_cases h1 : h t = .ok
      · exact .inl h1
      · by_cases h2 : h t = .recoveryUnsupported
        · exact .inr (.inl h2)
        · by_cases h3 : h t = .noRecoveryImage
          · exact .inr (.inr (.inl h3))
          · by_cases h4 : h t = .flashNotSupported
            · exact .inr (.inr (.inr h4))
            · exact absurd ⟨h1, h2, h3, h4⟩ hs

instance (s : Status) : Decidable (noRecovery s) := by unfold noRecovery; infer_instance

/-- The bypasses: the first swaps the devices if a recovery was possible. -/
theorem bypassLoop_spec (h : Host) (allow : Bool) (t : List Call) : ∃ bs : List Bool,
    bypassLoop h allow 2 false (t, h t) = (t ++ bs.map Call.bypass, h (t ++ bs.map Call.bypass)) ∧ bs.length ≤ 2 ∧ bs.count true ≤ 1 ∧
    (bs ≠ [] → allow = true ∧ h t ≠ .ok ∧ (bs.head? = some true ↔ ¬ noRecovery (h t))) ∧
    (allow = true → h (t ++ bs.map Call.bypass) ≠ .ok → bs.length = 2) := by
  have e : ∀ s : Status, (s ≠ .recoveryUnsupported ∧ s ≠ .noRecoveryImage ∧ s ≠ .flashNotSupported) ↔ ¬ noRecovery s := by
    intro s; unfold noRecovery; cases s <;> simp
  simp only [bypassLoop, call, e]
  by_cases ha : allow = true ∧ h t ≠ .ok
  · rw [if_pos ha]
    by_cases hn : noRecovery (h t)
    · rw [if_neg (fun x => x.2 hn)]
      by_cases hb : allow = true ∧ h (t ++ [.bypass false]) ≠ .ok
      · rw [if_pos hb]
        by_cases hm : noRecovery (h (t ++ [.bypass false]))
        · rw [if_neg (fun x => x.2 hm)]
          exact ⟨[false, false], by simp, by decide, by decide, fun _ => ⟨ha.1, ha.2, by simp [hn]⟩, fun _ _ => rfl⟩
        · rw [if_pos ⟨rfl, hm⟩]
          exact ⟨[false, true], by simp, by decide, by decide, fun _ => ⟨ha.1, ha.2, by simp [hn]⟩, fun _ _ => rfl⟩
      · rw [if_neg hb]
        exact ⟨[false], by simp, by decide, by decide, fun _ => ⟨ha.1, ha.2, by simp [hn]⟩, fun x y => absurd ⟨x, y⟩ hb⟩
    · rw [if_pos ⟨rfl, hn⟩]
      by_cases hb : allow = true ∧ h (t ++ [.bypass true]) ≠ .ok
      · rw [if_pos hb, if_neg (by simp)]
        exact ⟨[true, false], by simp, by decide, by decide, fun _ => ⟨ha.1, ha.2, by simp [hn]⟩, fun _ _ => rfl⟩
      · rw [if_neg hb]
        exact ⟨[true], by simp, by decide, by decide, fun _ => ⟨ha.1, ha.2, by simp [hn]⟩, fun x y => absurd ⟨x, y⟩ hb⟩
  · rw [if_neg ha]
    exact ⟨[], by simp, by decide, by decide, fun x => absurd rfl x, fun x y => absurd ⟨x, by simpa using y⟩ ha⟩

end Verif.HostIrq
