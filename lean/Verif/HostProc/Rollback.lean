import Verif.HostProc.Ops
/-! Rollback to the other flash device. -/
namespace Verif.HostProc
variable {P C : Type} {c : Cfg P C} {e : Nat → Resp C} {a : P} {x : C} {d : Cs}

theorem Selected.interfere {s : St P C} (h : Selected d x s) (r : Resp C) : Selected d x (interfere r s) := by
  have hw : ∀ t : St P C, Selected d x t → Selected d x (hostWrite r.junk t) := by
    intro t h
    unfold hostWrite
    rw [h.mode]
    have hd : d ≠ t.filter.ro.other := by
      rw [h.filter]
      exact Cs.other_ne d
    exact ⟨h.mode, h.filter, h.ro, by simp only [St.write]; rw [if_neg hd]; exact h.data, h.bypass, h.cur⟩
  have hd : Selected d x (s.setDirty true) := ⟨h.mode, h.filter, h.ro, h.data, h.bypass, h.cur⟩
  unfold HostProc.interfere
  cases r.irq <;> simp only [Bool.false_eq_true, if_false, if_true]
  · split
    · exact hw s h
    · exact h
  · split
    · exact hw _ hd
    · exact hd

theorem Selected.stab : Stab (fun _ : St P C => True) (Selected d x) := fun _ h => ⟨trivial, h.interfere⟩

theorem Selected.access {s : St P C} (h : Selected d x s) (y z : Bool) : Selected d x { s with ctl := y, filter := { s.filter with enabled := z } } :=
  ⟨h.mode, h.filter, h.ro, h.data, h.bypass, h.cur⟩

theorem hostAccess_sel {er : St P C → Prop} : Tri (fun _ => True) (Selected d x) (hostAccess c e) (fun _ => Selected d x) er := by
  unfold hostAccess
  refine Tri.forever ?_ _
  exact (Tri.call' (fun r s hs => hs.access _ _) Selected.stab).bind fun _ => Tri.call' (fun r s hs => hs.access _ _) Selected.stab

theorem hold_sel {er : St P C → Prop} (y : Bool) : Tri (fun _ => True) (Selected d x) (hold e y) (fun _ => Selected d x) er :=
  Tri.step (fun _ h => ⟨h.mode, h.filter, h.ro, h.data, h.bypass, h.cur⟩) Selected.stab

theorem giveBack_sel {er : St P C → Prop} (n : Bool) : Tri (fun _ => True) (Selected d x) (giveBack c e n) (fun _ => Selected d x) er := by
  unfold giveBack
  refine hostAccess_sel.bind fun _ => ?_
  exact (Tri.onlyIf (fun _ => hold_sel true) (fun _ _ h => h)).bind fun _ => Tri.onlyIf (fun _ => hold_sel false) (fun _ _ h => h)

theorem rotAccess_sel : Tri (fun _ => True) (Selected (P := P) d x) (rotAccess e) (fun _ s => Selected d x s ∧ Off s) (Selected d x) := by
  have st : Stab (fun _ : St P C => True) (fun s => Selected d x s ∧ Off s) := by
    intro s h
    refine ⟨trivial, fun r => ⟨h.1.interfere r, ?_⟩⟩
    rcases h.2.interfere r with h' | h' <;> rw [h'] <;> exact h.2
  unfold rotAccess
  refine (Tri.call' (fun r s hs => hs.access _ _) Selected.stab).bind fun _ => ?_
  refine (Tri.call (q := fun s => Selected d x s ∧ Off s) (fun r s hs => ⟨hs.access _ _, .inl rfl⟩) (fun _ h => h) (fun r s hs => hs.access _ _) st Selected.stab).bind fun _ => ?_
  exact (Tri.probe st).conseq (fun _ h => h) (fun _ _ h => h) (fun _ h => h.1)

/-- While the devices are swapped, without access of the host. -/
structure Swap (c : Cfg P C) (a : P) (d : Cs) (s : St P C) : Prop where
  off : Off s
  mode : s.filter.mode = .dual
  ov : s.override = none
  good : c.passes a true (s.flash d) = true
  bypass : s.bypass = false
  cur : s.active.isSome = true

theorem Swap.stab : Stab (fun _ : St P C => True) (Swap c a d) := by
  intro s h
  refine ⟨trivial, fun r => ?_⟩
  rcases h.off.interfere r with h' | h' <;> rw [h']
  · exact h
  · exact ⟨h.off, h.mode, h.ov, h.good, h.bypass, h.cur⟩

theorem Swap.stab' {f : St P C → Prop} (hf : ∀ s, f s → f (s.setDirty true)) : Stab (fun _ : St P C => True) (fun s => Swap c a d s ∧ f s) := by
  intro s h
  refine ⟨trivial, fun r => ⟨(Swap.stab s h.1).2 r, ?_⟩⟩
  rcases h.1.off.interfere r with h' | h' <;> rw [h']
  · exact h.2
  · exact hf s h.2

theorem validateRw_sel : Tri (fun _ => True) (fun s : St P C => Selected d x s ∧ Off s) (validateRw c e a) (fun _ s => Swap c a d.other s ∧ s.nvRo = d) (Selected d x) := by
  have st : Stab (fun _ : St P C => True) (fun s => Selected d x s ∧ Off s) := by
    intro s h
    refine ⟨trivial, fun r => ⟨h.1.interfere r, ?_⟩⟩
    rcases h.2.interfere r with h' | h' <;> rw [h'] <;> exact h.2
  unfold validateRw verify
  refine Tri.bind (mid := fun _ s => Selected d x s ∧ Off s) ((Tri.probe st).conseq (fun _ h => h) (fun _ _ h => h) (fun _ h => h.1)) fun _ => ?_
  refine Tri.get fun s h => ?_
  split
  · rename_i hp
    refine Tri.step ?_ (Swap.stab' (fun _ h => h))
    intro t ht
    subst ht
    have hro : t.ro = d := by simp [St.ro, h.1.ro.1, h.1.ro.2]
    exact ⟨⟨h.2, h.1.mode, h.1.ro.1, by rw [← hro]; exact hp, h.1.bypass, h.1.cur⟩, h.1.ro.2⟩
  · refine Tri.throw ?_
    rintro _ rfl
    exact h.1

theorem swapOnce_sel : Tri (fun _ => True) (fun s : St P C => Swap c a d.other s ∧ s.nvRo = d) (swapOnce e false false)
    (fun _ s => Swap c a d.other s ∧ s.nvRo = d.other ∧ s.filter.ro = d.other) (fun s => Swap c a d.other s ∧ s.nvRo = d) := by
  unfold swapOnce
  refine (Tri.call' (f := fun _ s => s.clearDirty) (q := fun s : St P C => Swap c a d.other s ∧ s.nvRo = d) (fun r s h => ⟨⟨h.1.off, h.1.mode, h.1.ov, h.1.good, h.1.bypass, h.1.cur⟩, h.2⟩) (Swap.stab' (fun _ h => h))).bind fun _ => ?_
  refine Tri.get fun s h => ?_
  have hro : s.ro = d := by simp [St.ro, h.1.ov, h.2]
  refine Tri.weaken (pre := fun s : St P C => Swap c a d.other s ∧ s.nvRo = d) ?_ (by rintro _ rfl; exact h)
  simp only [hro]
  refine (Tri.call (q := fun s : St P C => Swap c a d.other s ∧ s.nvRo = d ∧ s.filter.ro = d.other)
    (fun r s h => ⟨⟨h.1.off, h.1.mode, h.1.ov, h.1.good, h.1.bypass, h.1.cur⟩, h.2, rfl⟩) (fun _ h => h)
    (fun r s h => ⟨⟨h.1.off, h.1.mode, h.1.ov, h.1.good, h.1.bypass, h.1.cur⟩, h.2⟩) (Swap.stab' (fun _ h => h)) (Swap.stab' (fun _ h => h))).bind fun _ => ?_
  refine (Tri.onlyIf (q := fun s : St P C => Swap c a d.other s ∧ s.nvRo = d ∧ s.filter.ro = d.other) nofun (fun _ _ h => h)).bind fun _ => ?_
  refine (Tri.step (q := fun s : St P C => Swap c a d.other s ∧ s.nvRo = d.other ∧ s.filter.ro = d.other)
    (fun s h => ⟨⟨h.1.off, h.1.mode, h.1.ov, h.1.good, h.1.bypass, h.1.cur⟩, rfl, h.2.2⟩) (Swap.stab' (fun _ h => h))).bind fun _ => ?_
  exact Tri.onlyIf nofun (fun _ _ h => h)

theorem configRw_sel {er : St P C → Prop} : Tri (fun _ => True) (fun s : St P C => Swap c a d s ∧ s.nvRo = d ∧ s.filter.ro = d) (configRw c e)
    (fun _ s => Swap c a d s ∧ s.nvRo = d ∧ s.filter.ro = d) er := by
  have st : Stab (fun _ : St P C => True) (fun s : St P C => Swap c a d s ∧ s.nvRo = d ∧ s.filter.ro = d) := Swap.stab' (fun _ h => h)
  unfold configRw
  refine Tri.forever ?_ _
  unfold configRwOnce
  refine (Tri.call' (fun r s h => ⟨⟨h.1.off, h.1.mode, h.1.ov, h.1.good, h.1.bypass, h.1.cur⟩, h.2⟩) st).bind fun _ => ?_
  refine (Tri.status (Tri.probe st)).bind fun y => ?_
  cases y with
  | none => exact Tri.pure fun _ h => h
  | some y =>
    simp only
    split
    · exact Tri.pure fun _ h => h
    · exact Tri.throw fun _ h => h

theorem swapFlash_sel {er : St P C → Prop} : Tri (fun _ => True) (fun s : St P C => Swap c a d.other s ∧ s.nvRo = d) (swapFlash c e false false)
    (fun _ s => Swap c a d.other s ∧ s.nvRo = d.other ∧ s.filter.ro = d.other) er := by
  unfold swapFlash
  refine (Tri.forever swapOnce_sel _).bind fun _ => configRw_sel.bind fun _ => ?_
  exact Tri.step (fun s h => ⟨⟨h.1.off, h.1.mode, h.1.ov, h.1.good, h.1.bypass, h.1.cur⟩, h.2⟩) (Swap.stab' (fun _ h => h))

theorem Swap.selected {s : St P C} (h : Swap c a d s ∧ s.nvRo = d ∧ s.filter.ro = d) : Selected d (s.flash d) s :=
  ⟨h.1.mode, h.2.2, ⟨h.1.ov, h.2.1⟩, rfl, h.1.bypass, h.1.cur⟩

/-- The whole rollback. -/
theorem flashRollback_sel (n b : Bool) :
    Tri (fun _ => True) (fun s : St P C => Selected d x s ∧ s.active = some a) (flashRollback c e b n)
      (fun _ s => ∃ y, c.passes a true y = true ∧ Selected d.other y s) (Selected d x) := by
  unfold flashRollback
  refine Tri.get fun s h => ?_
  have hth : ∀ z, Tri (fun _ => True) (fun t => t = s) (M.throw z : M P C Unit) (fun _ s => ∃ y, c.passes a true y = true ∧ Selected d.other y s) (Selected d x) := by
    intro z
    refine Tri.throw ?_
    rintro _ rfl
    exact h.1
  split
  · exact hth _
  split
  · split
    · exact hth _
    · refine Tri.bind (mid := fun _ => Selected d x) (Tri.onlyIf (fun _ => (hold_sel true).weaken ?_) (fun _ => ?_)) fun _ => ?_
      · rintro _ rfl; exact h.1
      · rintro _ rfl; exact h.1
      refine Tri.bind (mid := fun st s => match st with | none => ∃ y, c.passes a true y = true ∧ Selected d.other y s | some _ => Selected d x s) ?_ fun st => ?_
      · rw [h.2]
        unfold rollbackBody
        refine (Tri.status rotAccess_sel).bind fun y => ?_
        cases y with
        | some y => exact Tri.pure fun _ h => h
        | none =>
          refine Tri.get fun t ht => ?_
          have ht : Selected d x t ∧ Off t := ht
          simp only [ht.1.bypass, Bool.false_eq_true, if_false]
          refine Tri.weaken (pre := fun s : St P C => Selected d x s ∧ Off s) ?_ (by rintro _ rfl; exact ht)
          refine (Tri.status validateRw_sel).bind fun y => ?_
          cases y with
          | some y => exact Tri.pure fun _ h => h
          | none => exact swapFlash_sel.bind fun _ => Tri.pure fun s h => ⟨s.flash d.other, h.1.good, Swap.selected h⟩
      · cases st with
        | some y => exact (giveBack_sel n).bind fun _ => Tri.ofStatus nofun (fun _ _ h => h)
        | none =>
          refine Tri.bind (mid := fun _ s => ∃ y, c.passes a true y = true ∧ Selected d.other y s) ?_ fun _ => Tri.ofStatus (fun _ _ h => h) (fun h => absurd rfl h)
          intro r hr hl
          obtain ⟨y, hy, hs⟩ := hr
          exact (giveBack_sel (c := c) (e := e) (er := Selected d x) n).conseq (ok' := fun _ s => ∃ y, c.passes a true y = true ∧ Selected d.other y s) (fun _ h => h)
            (fun _ _ h => ⟨y, hy, h⟩) (fun _ h => h) r hs hl
  split
  · exact hth _
  · exact hth _

end Verif.HostProc
