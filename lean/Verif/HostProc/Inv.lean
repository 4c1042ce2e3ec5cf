import Verif.HostProc.Lemmas
/-! The invariants, and the parts of the operations that run while the host does not. -/
namespace Verif.HostProc
variable {P C : Type}

section
variable (c : Cfg P C) (T : P → Prop)

/-- What always holds. -/
structure TP (s : St P C) : Prop where
  act : ∀ p, s.active = some p → T p
  pend : ∀ p, s.pending = some p → T p
  preval : s.preval = .none
  fb : c.fullBypass = false → s.filter.mode = .dual

/-- The read-only flash is good for `p`. -/
def Gd (p : P) (s : St P C) : Prop :=
  s.recov s.ro = true ∨ ∃ q, T q ∧ c.passes q false (s.flash s.ro) = true ∧ (s.lapse = false → q = p)

/-- The protected state. -/
structure Kf (s : St P C) : Prop where
  rw : s.filter.fullRw = false
  ro : s.filter.ro = s.ro
  ok : ∀ a, s.active = some a → Gd c T a s

/-- The invariant; with `b` the protected state is established. -/
structure Inv (b : Bool) (s : St P C) : Prop where
  tp : TP c T s
  mode : s.bypass = false → s.filter.mode = .dual
  kf : b = true → s.bypass = false → Kf c T s

/-- The invariant while the host may run; with `hd` it is held in reset. -/
structure H (b hd : Bool) (s : St P C) : Prop where
  inv : Inv c T b s
  hld : hd = true → s.held = true
  bhd : b = false → hd = true
  ov : s.bypass = false → s.override = none

/-- The same without the condition about the override. -/
structure H' (b hd : Bool) (s : St P C) : Prop where
  inv : Inv c T b s
  hld : hd = true → s.held = true
  bhd : b = false → hd = true

/-- While the host does not run. -/
structure Base (b hd o bp : Bool) (act pnd : Option P) (s : St P C) : Prop where
  off : Off s
  inv : Inv c T b s
  hld : hd = true → s.held = true
  ov : o = true → s.override = none
  bp : s.bypass = bp
  act : s.active = act
  pnd : s.pending = pnd

/-- After a successful verification. -/
structure Done (hd o : Bool) (s : St P C) : Prop where
  off : Off s
  inv : Inv c T true s
  hld : hd = true → s.held = true
  ov : o = true → s.override = none
end

variable {c : Cfg P C} {T : P → Prop} {e : Nat → Resp C} {b hd o bp : Bool} {act pnd : Option P}

theorem TP.dirty {s : St P C} (h : TP c T s) : TP c T (s.setDirty true) := ⟨h.act, h.pend, rfl, h.fb⟩
theorem TP.dirty' {s : St P C} (h : TP c T s) (d : Bool) : TP c T (s.setDirty d) := by
  refine ⟨h.act, h.pend, ?_, h.fb⟩
  cases d
  · exact h.preval
  · rfl
theorem TP.pfmDirty {s : St P C} (h : TP c T s) (d : Bool) : TP c T (s.setPfmDirty d) := by
  refine ⟨h.act, h.pend, ?_, h.fb⟩
  show (if _ then _ else _) = _
  split
  · rfl
  · exact h.preval
theorem Kf.dirty {s : St P C} (h : Kf c T s) (d : Bool) : Kf c T (s.setDirty d) := ⟨h.rw, h.ro, h.ok⟩
theorem Kf.pfmDirty {s : St P C} (h : Kf c T s) (d : Bool) : Kf c T (s.setPfmDirty d) := ⟨h.rw, h.ro, h.ok⟩
theorem Inv.dirty {s : St P C} (h : Inv c T b s) (d : Bool) : Inv c T b (s.setDirty d) := ⟨h.tp.dirty' d, h.mode, fun x y => (h.kf x y).dirty d⟩
theorem Inv.pfmDirty {s : St P C} (h : Inv c T b s) (d : Bool) : Inv c T b (s.setPfmDirty d) := ⟨h.tp.pfmDirty d, h.mode, fun x y => (h.kf x y).pfmDirty d⟩
theorem Base.dirty {s : St P C} (h : Base c T b hd o bp act pnd s) (d : Bool) : Base c T b hd o bp act pnd (s.setDirty d) :=
  ⟨h.off, h.inv.dirty d, h.hld, h.ov, h.bp, h.act, h.pnd⟩
theorem Base.pfmDirty {s : St P C} (h : Base c T b hd o bp act pnd s) (d : Bool) : Base c T b hd o bp act pnd (s.setPfmDirty d) :=
  ⟨h.off, h.inv.pfmDirty d, h.hld, h.ov, h.bp, h.act, h.pnd⟩
theorem Done.dirty {s : St P C} (h : Done c T hd o s) (d : Bool) : Done c T hd o (s.setDirty d) := ⟨h.off, h.inv.dirty d, h.hld, h.ov⟩
theorem Done.pfmDirty {s : St P C} (h : Done c T hd o s) (d : Bool) : Done c T hd o (s.setPfmDirty d) := ⟨h.off, h.inv.pfmDirty d, h.hld, h.ov⟩

theorem Base.stab : Stab (RunsVerified c T) (Base c T b hd o bp act pnd) := Stab.off (fun _ h => h.off) (fun _ h => h.dirty true)
theorem Done.stab : Stab (RunsVerified c T) (Done c T hd o) := Stab.off (fun _ h => h.off) (fun _ h => h.dirty true)

theorem Cs.other_ne (d : Cs) : d ≠ d.other := by cases d <;> simp [Cs.other]
theorem Cs.other_other (d : Cs) : d.other.other = d := by cases d <;> rfl

/-- A write to the read/write flash. -/
theorem Inv.writeRw {s : St P C} (h : Inv c T b s) (x : C) : Inv c T b (s.write s.ro.other x) := by
  refine ⟨⟨h.tp.act, h.tp.pend, h.tp.preval, h.tp.fb⟩, h.mode, fun hb hp => ?_⟩
  have k := h.kf hb hp
  refine ⟨k.rw, k.ro, fun a ha => ?_⟩
  rcases k.ok a ha with h1 | ⟨q, h1, h2, h3⟩
  · exact .inl h1
  · refine .inr ⟨q, h1, ?_, h3⟩
    show c.passes q false (if s.ro = s.ro.other then x else s.flash s.ro) = true
    rw [if_neg (Cs.other_ne _)]
    exact h2

theorem Inv.safe {s : St P C} (h : Inv c T true s) : RunsVerified c T s := by
  intro hr hb a ha
  have k := h.kf rfl hb
  refine ⟨h.mode hb, k.rw, ?_⟩
  rw [k.ro]
  exact k.ok a ha

theorem Inv.hostWrite {s : St P C} (h : Inv c T true s) (j : Cs → C) : Inv c T true (hostWrite j s) := by
  unfold HostProc.hostWrite
  split
  · rename_i d hd
    have hb : s.bypass ≠ false := fun hb => by rw [h.mode hb] at hd; simp at hd
    exact ⟨⟨h.tp.act, h.tp.pend, h.tp.preval, h.tp.fb⟩, h.mode, fun _ hp => absurd hp hb⟩
  · cases hb : s.bypass with
    | true =>
      exact ⟨⟨h.tp.act, h.tp.pend, h.tp.preval, h.tp.fb⟩, fun hp => absurd (hb.symm.trans hp) (by simp), fun _ hp => absurd (hb.symm.trans hp) (by simp)⟩
    | false =>
      have k := h.kf rfl hb
      have h1 := h.writeRw (j s.filter.ro.other)
      rw [← k.ro] at h1
      have k1 := h1.kf rfl hb
      exact ⟨⟨h.tp.act, h.tp.pend, h.tp.preval, h.tp.fb⟩, h.mode, fun _ _ => ⟨k1.rw, k1.ro, k1.ok⟩⟩

theorem hostWrite_frame (j : Cs → C) (s : St P C) : (hostWrite j s).held = s.held ∧ (hostWrite j s).bypass = s.bypass ∧
    (hostWrite j s).override = s.override := by
  unfold hostWrite
  split <;> exact ⟨rfl, rfl, rfl⟩

theorem interfere_frame (r : Resp C) (s : St P C) : (interfere r s).held = s.held ∧ (interfere r s).bypass = s.bypass ∧
    (interfere r s).override = s.override := by
  unfold interfere
  have h1 := hostWrite_frame r.junk (s.setDirty true)
  have h2 := hostWrite_frame r.junk s
  cases r.irq <;> simp only [Bool.false_eq_true, if_false, if_true]
  · split
    · exact h2
    · exact ⟨rfl, rfl, rfl⟩
  · split
    · exact h1
    · exact ⟨rfl, rfl, rfl⟩

theorem Inv.interfere {s : St P C} (h : Inv c T true s) (r : Resp C) : Inv c T true (interfere r s) := by
  unfold HostProc.interfere
  cases r.irq <;> simp only [Bool.false_eq_true, if_false, if_true]
  · split
    · exact h.hostWrite _
    · exact h
  · split
    · exact (h.dirty true).hostWrite _
    · exact h.dirty true

theorem H'.stab : Stab (RunsVerified c T) (H' c T b hd) := by
  intro s h
  cases b with
  | true => exact ⟨h.inv.safe, fun r => ⟨h.inv.interfere r, fun x => (interfere_frame r s).1.trans (h.hld x), h.bhd⟩⟩
  | false =>
    have hh := h.hld (h.bhd rfl)
    refine ⟨fun hr => ?_, fun r => ?_⟩
    · rw [Off.not_running (.inr hh)] at hr; simp at hr
    · rcases Off.interfere (.inr hh) r with h1 | h1 <;> rw [h1]
      · exact h
      · exact ⟨h.inv.dirty true, h.hld, h.bhd⟩

theorem H.stab : Stab (RunsVerified c T) (H c T b hd) := by
  intro s h
  have := H'.stab s (⟨h.inv, h.hld, h.bhd⟩ : H' c T b hd s)
  refine ⟨this.1, fun r => ?_⟩
  have h2 := this.2 r
  obtain ⟨h3, h4, h5⟩ := interfere_frame r s
  exact ⟨h2.inv, h2.hld, h2.bhd, fun hb => h5.trans (h.ov (h4 ▸ hb))⟩

/-! ### Locked parts -/

theorem Base.write {s : St P C} (h : Base c T b hd o bp act pnd s) (x : C) : Base c T b hd o bp act pnd (s.write s.ro.other x) :=
  ⟨h.off, h.inv.writeRw x, h.hld, h.ov, h.bp, h.act, h.pnd⟩

theorem Base.preval {s : St P C} (h : Base c T b hd o bp act pnd s) : Base c T b hd o bp act pnd { s with preval := .none } :=
  ⟨h.off, ⟨⟨h.inv.tp.act, h.inv.tp.pend, rfl, h.inv.tp.fb⟩, h.inv.mode, fun x y => ⟨(h.inv.kf x y).rw, (h.inv.kf x y).ro, (h.inv.kf x y).ok⟩⟩, h.hld, h.ov, h.bp, h.act, h.pnd⟩

theorem Base.clearDirty {s : St P C} (h : Base c T b hd o bp act pnd s) : Base c T b hd o bp act pnd s.clearDirty :=
  ⟨h.off, ⟨⟨h.inv.tp.act, h.inv.tp.pend, h.inv.tp.preval, h.inv.tp.fb⟩, h.inv.mode, fun x y => ⟨(h.inv.kf x y).rw, (h.inv.kf x y).ro, (h.inv.kf x y).ok⟩⟩, h.hld, h.ov, h.bp, h.act, h.pnd⟩

theorem Done.clearDirty {s : St P C} (h : Done c T hd o s) : Done c T hd o s.clearDirty :=
  ⟨h.off, ⟨⟨h.inv.tp.act, h.inv.tp.pend, h.inv.tp.preval, h.inv.tp.fb⟩, h.inv.mode, fun x y => ⟨(h.inv.kf x y).rw, (h.inv.kf x y).ro, (h.inv.kf x y).ok⟩⟩, h.hld, h.ov⟩

theorem restoreRw_base (find : Bool) :
    Tri (RunsVerified c T) (Base c T b hd o bp act pnd) (restoreRw e find) (fun _ => Base c T b hd o bp act pnd) (Base c T b hd o bp act pnd) := by
  unfold restoreRw
  refine (Tri.onlyIf (q := Base c T b hd o bp act pnd) (fun _ => Tri.probe Base.stab) (fun _ _ h => h)).bind fun _ => Tri.retry ?_ _
  unfold restoreOnce
  exact (Tri.step (fun s h => h.preval) Base.stab).bind fun _ => Tri.call' (fun r s h => h.write _) Base.stab

/-- The read/write flash was verified with `p`. -/
structure RwOk (c : Cfg P C) (T : P → Prop) (b hd bp : Bool) (act pnd : Option P) (p : P) (d : Cs) (s : St P C) : Prop where
  base : Base c T b hd true bp act pnd s
  dev : s.ro.other = d
  ok : c.passes p false (s.flash d) = true

theorem RwOk.dirty {s : St P C} {p : P} {d : Cs} (h : RwOk c T b hd bp act pnd p d s) (x : Bool) : RwOk c T b hd bp act pnd p d (s.setDirty x) :=
  ⟨h.base.dirty x, h.dev, h.ok⟩
theorem RwOk.stab {p : P} {d : Cs} : Stab (RunsVerified c T) (RwOk c T b hd bp act pnd p d) := Stab.off (fun _ h => h.base.off) (fun _ h => h.dirty true)

/-- Verifying the read/write flash. -/
theorem validateRw_base (snd : Sound c) (p : P) (d : Cs) :
    Tri (RunsVerified c T) (fun s => Base c T b hd true bp act pnd s ∧ s.ro.other = d) (validateRw c e p)
      (fun _ => RwOk c T b hd bp act pnd p d) (Base c T b hd true bp act pnd) := by
  have st : Stab (RunsVerified c T) (fun s => Base c T b hd true bp act pnd s ∧ s.ro.other = d) :=
    Stab.off (fun _ h => h.1.off) (fun _ h => ⟨h.1.dirty true, h.2⟩)
  unfold validateRw verify
  refine ((Tri.probe st).conseq (fun _ h => h) (fun _ _ h => h) (fun _ h => h.1)).bind fun _ => Tri.get fun s hs => ?_
  split
  · rename_i hp
    refine Tri.step ?_ RwOk.stab
    intro t ht
    subst ht
    have h := hs.1
    refine ⟨⟨h.off, ⟨⟨h.inv.tp.act, h.inv.tp.pend, h.inv.tp.preval, h.inv.tp.fb⟩, h.inv.mode, fun x y => ?_⟩, h.hld, h.ov, h.bp, h.act, h.pnd⟩, hs.2, ?_⟩
    · have k := h.inv.kf x y
      refine ⟨k.rw, k.ro, fun a ha => ?_⟩
      rcases k.ok a ha with h1 | h1
      · left
        show (if t.ro = t.ro.other then false else t.recov t.ro) = true
        rw [if_neg (Cs.other_ne _)]
        exact h1
      · exact .inr h1
    · simp only [hs.2] at hp
      exact snd.full _ _ hp
  · refine Tri.throw ?_
    rintro _ rfl
    exact hs.1

/-- Forget what was known about the read/write flash. -/
theorem configRw_ro {q : St P C → Prop} {er : St P C → Prop} (hq : ∀ s, q s → q (s.setFullRw false)) (st : Stab (RunsVerified c T) q)
    (st' : Stab (RunsVerified c T) (fun s => q s ∧ s.filter.fullRw = false)) :
    Tri (RunsVerified c T) q (configRw c e) (fun _ s => q s ∧ s.filter.fullRw = false) er := by
  unfold configRw
  refine Tri.forever ?_ _
  unfold configRwOnce
  refine (Tri.call (q := fun s => q s ∧ s.filter.fullRw = false) (fun r s h => ⟨hq s h, rfl⟩) (fun _ h => h) (fun r s h => hq s h) st' st).bind fun _ => ?_
  refine (Tri.status (Tri.probe st')).bind fun x => ?_
  cases x with
  | none => exact Tri.pure (fun _ h => h)
  | some x =>
    simp only
    split
    · exact Tri.pure (fun _ h => h)
    · exact Tri.throw (fun _ h => h.1)

/-- After the filter was set up except for the regions. -/
structure Almost (c : Cfg P C) (T : P → Prop) (hd o : Bool) (s : St P C) : Prop where
  off : Off s
  tp : TP c T s
  hld : hd = true → s.held = true
  ov : o = true → s.override = none
  bp : s.bypass = false
  mode : s.filter.mode = .dual
  ro : s.filter.ro = s.ro
  ok : ∀ a, s.active = some a → Gd c T a s

theorem Almost.stab : Stab (RunsVerified c T) (Almost c T hd o) :=
  Stab.off (fun _ h => h.off) (fun _ h => ⟨h.off, h.tp.dirty, h.hld, h.ov, h.bp, h.mode, h.ro, h.ok⟩)

theorem configRw_almost {er : St P C → Prop} : Tri (RunsVerified c T) (Almost c T hd o) (configRw c e) (fun _ => Done c T hd o) er := by
  refine (configRw_ro (q := Almost c T hd o) ?_ Almost.stab ?_).conseq (fun _ h => h) ?_ (fun _ h => h)
  · intro s h
    exact ⟨h.off, ⟨h.tp.act, h.tp.pend, h.tp.preval, h.tp.fb⟩, h.hld, h.ov, h.bp, h.mode, h.ro, h.ok⟩
  · refine Stab.off (fun _ h => h.1.off) ?_
    rintro s ⟨h, h1⟩
    exact ⟨⟨h.off, h.tp.dirty, h.hld, h.ov, h.bp, h.mode, h.ro, h.ok⟩, h1⟩
  · rintro _ s ⟨h, h1⟩
    exact ⟨h.off, ⟨h.tp, fun _ => h.mode, fun _ _ => ⟨h1, h.ro, h.ok⟩⟩, h.hld, h.ov⟩

/-- Like `Base` without the state of the filter, for a device `d`. -/
structure Mid (c : Cfg P C) (T : P → Prop) (hd o : Bool) (act pnd : Option P) (p : P) (d : Cs) (s : St P C) : Prop where
  off : Off s
  tp : TP c T s
  hld : hd = true → s.held = true
  ov : o = true → s.override = none
  bp : s.bypass = false
  mode : s.filter.mode = .dual
  act : s.active = act
  pnd : s.pending = pnd
  ok : s.recov d = true ∨ ∃ q, T q ∧ c.passes q false (s.flash d) = true ∧ (s.lapse = false → q = p)

theorem Mid.setDirty {s : St P C} {p : P} {d : Cs} (h : Mid c T hd o act pnd p d s) (x : Bool) : Mid c T hd o act pnd p d (s.setDirty x) :=
  ⟨h.off, h.tp.dirty' x, h.hld, h.ov, h.bp, h.mode, h.act, h.pnd, h.ok⟩
theorem Mid.setNv {s : St P C} {p : P} {d : Cs} (h : Mid c T hd o act pnd p d s) (x : Cs) : Mid c T hd o act pnd p d { s with nvRo := x } :=
  ⟨h.off, ⟨h.tp.act, h.tp.pend, h.tp.preval, h.tp.fb⟩, h.hld, h.ov, h.bp, h.mode, h.act, h.pnd, h.ok⟩
theorem Mid.clearDirty {s : St P C} {p : P} {d : Cs} (h : Mid c T hd o act pnd p d s) : Mid c T hd o act pnd p d s.clearDirty :=
  ⟨h.off, ⟨h.tp.act, h.tp.pend, h.tp.preval, h.tp.fb⟩, h.hld, h.ov, h.bp, h.mode, h.act, h.pnd, h.ok⟩
theorem Mid.setRoCs {s : St P C} {p : P} {d : Cs} (h : Mid c T hd o act pnd p d s) (x : Cs) : Mid c T hd o act pnd p d (s.setRoCs x) :=
  ⟨h.off, ⟨h.tp.act, h.tp.pend, h.tp.preval, h.tp.fb⟩, h.hld, h.ov, h.bp, h.mode, h.act, h.pnd, h.ok⟩
theorem Mid.writeOther {s : St P C} {p : P} {d : Cs} (h : Mid c T hd o act pnd p d s) (x : C) : Mid c T hd o act pnd p d (s.write d.other x) := by
  refine ⟨h.off, ⟨h.tp.act, h.tp.pend, h.tp.preval, h.tp.fb⟩, h.hld, h.ov, h.bp, h.mode, h.act, h.pnd, ?_⟩
  rcases h.ok with h1 | ⟨q, h1, h2, h3⟩
  · exact .inl h1
  · refine .inr ⟨q, h1, ?_, h3⟩
    show c.passes q false (if d = d.other then x else s.flash d) = true
    rw [if_neg (Cs.other_ne _)]
    exact h2

theorem Mid.stab {p : P} {d : Cs} : Stab (RunsVerified c T) (Mid c T hd o act pnd p d) := Stab.off (fun _ h => h.off) (fun _ h => h.setDirty true)

/-- Stability of `Mid` with further conditions on settings that interference does not change. -/
theorem Mid.stab' {p : P} {d : Cs} {q : St P C → Prop} (h : ∀ s, q s → q (s.setDirty true)) :
    Stab (RunsVerified c T) (fun s => Mid c T hd o act pnd p d s ∧ q s) :=
  Stab.off (fun _ h => h.1.off) (fun _ h' => ⟨h'.1.setDirty true, h _ h'.2⟩)

/-- Activation of the pending PFM `p`; its result does not matter. -/
theorem activate_mid {p : P} {q : St P C → Prop} {er : St P C → Prop} (hq : ∀ s, q s → q (s.setDirty true))
    {d : Cs} (hqa : ∀ s : St P C, q s → q { s with lapse := true })
    (hqb : ∀ s : St P C, q s → q { s.setPfmDirty false with active := some p, pending := none }) :
    Tri (RunsVerified c T) (fun s => Mid c T hd o act (some p) p d s ∧ q s) (activate e)
      (fun _ s => (∃ a pn, Mid c T hd o a pn p d s ∧ ∀ x, a = some x → Mid c T hd o a pn x d s) ∧ q s) er := by
  intro r hp hl
  have key : ∀ s : St P C, (∃ a pn, Mid c T hd o a pn p d s ∧ ∀ x, a = some x → Mid c T hd o a pn x d s) ∧ q s →
      RunsVerified c T s ∧ ∀ x, (∃ a pn, Mid c T hd o a pn p d (interfere x s) ∧ ∀ y, a = some y → Mid c T hd o a pn y d (interfere x s)) ∧ q (interfere x s) := by
    refine Stab.off ?_ ?_
    · rintro s ⟨⟨_, _, h, _⟩, _⟩
      exact h.off
    · rintro s ⟨⟨a, pn, h, h1⟩, h2⟩
      exact ⟨⟨a, pn, h.setDirty true, fun x hx => (h1 x hx).setDirty true⟩, hq _ h2⟩
  have main : ∀ s : St P C, (s = { r.st.setPfmDirty false with active := some p, pending := none } ∨ s = { r.st with lapse := true }) →
      (∃ a pn, Mid c T hd o a pn p d s ∧ ∀ x, a = some x → Mid c T hd o a pn x d s) ∧ q s := by
    obtain ⟨h, h2⟩ := hp
    rintro s (rfl | rfl)
    · refine ⟨⟨some p, none, ?_, ?_⟩, hqb _ h2⟩
      · exact ⟨h.off, ⟨fun x hx => h.tp.pend x (h.pnd.trans hx), nofun, (h.tp.pfmDirty false).preval, h.tp.fb⟩, h.hld, h.ov, h.bp, h.mode, rfl, rfl, h.ok⟩
      · rintro x ⟨⟩
        exact ⟨h.off, ⟨fun x hx => h.tp.pend x (h.pnd.trans hx), nofun, (h.tp.pfmDirty false).preval, h.tp.fb⟩, h.hld, h.ov, h.bp, h.mode, rfl, rfl, h.ok⟩
    · have hk : ∀ x, Mid c T hd o act (some p) x d { r.st with lapse := true } := fun x =>
        ⟨h.off, ⟨h.tp.act, h.tp.pend, h.tp.preval, h.tp.fb⟩, h.hld, h.ov, h.bp, h.mode, h.act, h.pnd, by
          rcases h.ok with h1 | ⟨q, h1, h2, _⟩
          · exact .inl h1
          · exact .inr ⟨q, h1, h2, nofun⟩⟩
      exact ⟨⟨act, some p, hk p, fun x _ => hk x⟩, hqa _ h2⟩
  have fin : ∀ s : St P C, (s = { r.st.setPfmDirty false with active := some p, pending := none } ∨ s = { r.st with lapse := true }) →
      (∀ t ∈ (interfere (e r.n) s :: s :: r.log), RunsVerified c T t) ∧
      ((∃ a pn, Mid c T hd o a pn p d (interfere (e r.n) s) ∧ ∀ x, a = some x → Mid c T hd o a pn x d (interfere (e r.n) s)) ∧ q (interfere (e r.n) s)) := by
    intro s hs
    have h1 := main s hs
    have h2 := key s h1
    refine ⟨?_, h2.2 _⟩
    intro t ht
    rcases List.mem_cons.mp ht with rfl | ht
    · exact (key _ (h2.2 _)).1
    rcases List.mem_cons.mp ht with rfl | ht
    · exact h2.1
    · exact hl _ ht
  unfold activate
  simp only
  refine fin _ ?_
  split
  · rename_i x y h1 h2
    have h3 := h2.symm.trans hp.1.pnd
    cases h3
    exact .inl rfl
  · exact .inr rfl

end Verif.HostProc
