import Verif.HostProc.Locked
/-! The operations and histories. -/
namespace Verif.HostProc
variable {P C : Type} {c : Cfg P C} {T : P → Prop} {e : Nat → Resp C} {b hd o bp : Bool} {act pnd : Option P}

/-- The invariant between operations; a host that was not released yet is not in bypass mode. -/
structure HB (c : Cfg P C) (T : P → Prop) (b hd : Bool) (s : St P C) : Prop where
  h : H c T b hd s
  nb : hd = true → s.bypass = false

theorem HB.stab : Stab (RunsVerified c T) (HB c T b hd) := by
  intro s h
  have := H.stab s h.h
  exact ⟨this.1, fun r => ⟨this.2 r, fun x => (interfere_frame r s).2.1.trans (h.nb x)⟩⟩

theorem interfere_pfm (r : Resp C) (s : St P C) : (interfere r s).active = s.active ∧ (interfere r s).pending = s.pending := by
  have hw : ∀ t : St P C, (hostWrite r.junk t).active = t.active ∧ (hostWrite r.junk t).pending = t.pending := by
    intro t
    unfold hostWrite
    split <;> exact ⟨rfl, rfl⟩
  unfold interfere
  cases r.irq <;> simp only [Bool.false_eq_true, if_false, if_true]
  · split
    · exact hw s
    · exact ⟨rfl, rfl⟩
  · split
    · exact hw (s.setDirty true)
    · exact ⟨rfl, rfl⟩

/-- With the PFMs and whether in bypass mode. -/
structure Fix (c : Cfg P C) (T : P → Prop) (b hd bp : Bool) (act pnd : Option P) (s : St P C) : Prop where
  hb : HB c T b hd s
  bp : s.bypass = bp
  act : s.active = act
  pnd : s.pending = pnd

theorem Fix.stab : Stab (RunsVerified c T) (Fix c T b hd bp act pnd) := by
  intro s h
  have := HB.stab s h.hb
  exact ⟨this.1, fun r => ⟨this.2 r, (interfere_frame r s).2.1.trans h.bp, (interfere_pfm r s).1.trans h.act, (interfere_pfm r s).2.trans h.pnd⟩⟩

/-- Changes of the access to the flash do not matter to the invariant. -/
theorem Inv.access {s : St P C} (h : Inv c T b s) (x y : Bool) : Inv c T b { s with ctl := x, filter := { s.filter with enabled := y } } :=
  ⟨⟨h.tp.act, h.tp.pend, h.tp.preval, h.tp.fb⟩, h.mode, fun p q => ⟨(h.kf p q).rw, (h.kf p q).ro, (h.kf p q).ok⟩⟩

theorem HB.access {s : St P C} (h : HB c T b hd s) (x y : Bool) : HB c T b hd { s with ctl := x, filter := { s.filter with enabled := y } } :=
  ⟨⟨h.h.inv.access x y, h.h.hld, h.h.bhd, h.h.ov⟩, h.nb⟩

theorem H.access {s : St P C} (h : H c T b hd s) (x y : Bool) : H c T b hd { s with ctl := x, filter := { s.filter with enabled := y } } :=
  ⟨h.inv.access x y, h.hld, h.bhd, h.ov⟩

theorem H'.access {s : St P C} (h : H' c T b hd s) (x y : Bool) : H' c T b hd { s with ctl := x, filter := { s.filter with enabled := y } } :=
  ⟨h.inv.access x y, h.hld, h.bhd⟩

theorem hostAccess_q {q er : St P C → Prop} (st : Stab (RunsVerified c T) q)
    (h : ∀ s x y, q s → q { s with ctl := x, filter := { s.filter with enabled := y } }) :
    Tri (RunsVerified c T) q (hostAccess c e) (fun _ => q) er := by
  unfold hostAccess
  refine Tri.forever ?_ _
  exact (Tri.call' (fun r s hs => h s _ _ hs) st).bind fun _ => Tri.call' (fun r s hs => h s _ _ hs) st

theorem Base.hb {s : St P C} (h : Base c T b hd (!bp) bp act pnd s) (hb : b = false → hd = true) (hn : hd = true → bp = false) : HB c T b hd s := by
  refine ⟨⟨h.inv, h.hld, hb, fun hp => h.ov ?_⟩, fun x => h.bp.trans (hn x)⟩
  rw [← h.bp, hp]
  rfl

theorem rotAccess_fix (hb : b = false → hd = true) (hn : hd = true → bp = false) :
    Tri (RunsVerified c T) (Fix c T b hd bp act pnd) (rotAccess e) (fun _ => Base c T b hd (!bp) bp act pnd) (HB c T b hd) := by
  unfold rotAccess
  refine (Tri.call (q := Fix c T b hd bp act pnd) (fun r s h => ⟨h.hb.access _ _, h.bp, h.act, h.pnd⟩) (fun _ h => h.hb) (fun r s h => h.hb.access _ _)
    Fix.stab HB.stab).bind fun _ => ?_
  refine (Tri.call (q := Base c T b hd (!bp) bp act pnd) ?_ (fun _ h => h.hb) (fun r s h => h.hb.access _ _) Base.stab HB.stab).bind fun _ => ?_
  · intro r s h
    refine ⟨.inl rfl, h.hb.h.inv.access _ _, h.hb.h.hld, fun x => ?_, h.bp, h.act, h.pnd⟩
    refine h.hb.h.ov (h.bp.trans ?_)
    cases bp
    · rfl
    · simp at x
  · exact (Tri.probe Base.stab).conseq (fun _ h => h) (fun _ _ h => h) (fun _ h => h.hb hb hn)

theorem Done.h {s : St P C} (h : Done c T hd true s) : H c T true hd s := ⟨h.inv, h.hld, nofun, fun _ => h.ov rfl⟩
theorem Done.h' {s : St P C} (h : Done c T hd o s) : H' c T true hd s := ⟨h.inv, h.hld, nofun⟩
theorem Done.hbypass {s : St P C} (h : Done c T hd o s ∧ s.bypass = true) : H c T true hd s :=
  ⟨h.1.inv, h.1.hld, nofun, fun x => absurd (h.2.symm.trans x) (by simp)⟩

/-- Holding and releasing a host that may run. -/
theorem hold_h {er : St P C → Prop} (x : Bool) : Tri (RunsVerified c T) (H c T true false) (hold e x) (fun _ => H c T true false) er := by
  unfold hold
  refine Tri.step (fun s h => ?_) H.stab
  exact ⟨⟨⟨h.inv.tp.act, h.inv.tp.pend, h.inv.tp.preval, h.inv.tp.fb⟩, h.inv.mode, fun p q => ⟨(h.inv.kf p q).rw, (h.inv.kf p q).ro, (h.inv.kf p q).ok⟩⟩, nofun, nofun, h.ov⟩

theorem hold_h' {er : St P C → Prop} (x : Bool) : Tri (RunsVerified c T) (H' c T true false) (hold e x) (fun _ => H' c T true false) er := by
  unfold hold
  refine Tri.step (fun s h => ?_) H'.stab
  exact ⟨⟨⟨h.inv.tp.act, h.inv.tp.pend, h.inv.tp.preval, h.inv.tp.fb⟩, h.inv.mode, fun p q => ⟨(h.inv.kf p q).rw, (h.inv.kf p q).ro, (h.inv.kf p q).ok⟩⟩, nofun, nofun⟩

/-- Like `hold_h`, with a fixed mode. -/
theorem hold_fix {er : St P C → Prop} (x : Bool) : Tri (RunsVerified c T) (Fix c T true false bp act pnd) (hold e x) (fun _ => Fix c T true false bp act pnd) er := by
  unfold hold
  refine Tri.step (fun s h => ?_) Fix.stab
  have k := h.hb.h
  exact ⟨⟨⟨⟨⟨k.inv.tp.act, k.inv.tp.pend, k.inv.tp.preval, k.inv.tp.fb⟩, k.inv.mode, fun p q => ⟨(k.inv.kf p q).rw, (k.inv.kf p q).ro, (k.inv.kf p q).ok⟩⟩, nofun, nofun, k.ov⟩, nofun⟩,
    h.bp, h.act, h.pnd⟩

theorem giveBack_q {q er : St P C → Prop} {noReset : Bool} (st : Stab (RunsVerified c T) q)
    (h : ∀ s x y, q s → q { s with ctl := x, filter := { s.filter with enabled := y } })
    (hh : noReset = false → ∀ x, Tri (RunsVerified c T) q (hold e x) (fun _ => q) er) :
    Tri (RunsVerified c T) q (giveBack c e noReset) (fun _ => q) er := by
  unfold giveBack
  refine (hostAccess_q st h).bind fun _ => ?_
  refine (Tri.onlyIf (q := q) (fun x => hh ?_ true) (fun _ _ h => h)).bind fun _ => Tri.onlyIf (fun x => hh ?_ false) (fun _ _ h => h)
  · cases noReset
    · rfl
    · simp at x
  · cases noReset
    · rfl
    · simp at x

/-! ### Clearing the PFMs -/

theorem clearAll_q {q : Option P → Option P → St P C → Prop} (st : ∀ a p, Stab (RunsVerified c T) (q a p))
    (hq : ∀ s a p, q act pnd s → (a = none ∨ a = act) → (p = none ∨ p = pnd) → q a p { s with active := a, pending := p })
    (hs : ∀ s, q act pnd s → s.active = act ∧ s.pending = pnd) :
    Tri (RunsVerified c T) (q act pnd) (clearAll e) (fun _ => q none none) (fun s => ∃ a p, q a p s) := by
  intro r hp hl
  have fin : ∀ a p (s : St P C), q a p s → (∀ t ∈ (interfere (e r.n) s :: s :: r.log), RunsVerified c T t) ∧ q a p (interfere (e r.n) s) := by
    intro a p s h
    have h2 := st a p s h
    refine ⟨?_, h2.2 _⟩
    intro t ht
    rcases List.mem_cons.mp ht with rfl | ht
    · exact (st a p _ (h2.2 _)).1
    rcases List.mem_cons.mp ht with rfl | ht
    · exact h2.1
    · exact hl _ ht
  unfold clearAll
  cases hx : (e r.n).err with
  | none =>
    simp only [hx]
    exact fin _ _ _ (hq _ _ _ hp (.inl rfl) (.inl rfl))
  | some y =>
    simp only [hx]
    have h1 := hs _ hp
    have h3 : ((if (e r.n).done then none else r.st.active) = none) ∨ ((if (e r.n).done then none else r.st.active) = act) := by
      split
      · exact .inl rfl
      · exact .inr h1.1
    have h4 : ((if (e r.n).flag then none else r.st.pending) = none) ∨ ((if (e r.n).flag then none else r.st.pending) = pnd) := by
      split
      · exact .inl rfl
      · exact .inr h1.2
    have h2 := fin _ _ _ (hq r.st _ _ hp h3 h4)
    exact ⟨h2.1, _, _, h2.2⟩

/-- The PFMs that `check_force_bypass_mode` leaves. -/
theorem checkForce_q {q : Option P → Option P → St P C → Prop} (st : ∀ a p, Stab (RunsVerified c T) (q a p))
    (hq : ∀ s a p, q act pnd s → (a = none ∨ a = act) → (p = none ∨ p = pnd) → q a p { s with active := a, pending := p })
    (hs : ∀ s, q act pnd s → s.active = act ∧ s.pending = pnd) :
    Tri (RunsVerified c T) (q act pnd) (checkForce c e act pnd) (fun x s => ∃ p, q x.1 p s ∧ ∀ y, x.2.1 = some y → p = some y) (fun s => ∃ a p, q a p s) := by
  unfold checkForce
  split
  · exact Tri.pure fun s h => ⟨none, h, nofun⟩
  · rename_i p
    refine (Tri.status (Tri.probe (st act (some p)))).bind fun x => ?_
    cases x with
    | some x => exact Tri.pure fun s h => ⟨some p, h, nofun⟩
    | none =>
      simp only
      split
      · refine (clearAll_q st hq hs).bind fun _ => Tri.pure fun s h => ⟨none, h, nofun⟩
      · exact Tri.pure fun s h => ⟨some p, h, by rintro y ⟨⟩; rfl⟩

/-! ### Power-on -/

theorem Fix.base {s : St P C} (h : Fix c T b true bp act pnd s) : Base c T b true (!bp) bp act pnd s := by
  refine ⟨.inr (h.hb.h.hld rfl), h.hb.h.inv, h.hb.h.hld, fun x => h.hb.h.ov (h.bp.trans ?_), h.bp, h.act, h.pnd⟩
  cases bp
  · rfl
  · simp at x

theorem initialRotAccess_hb : Tri (RunsVerified c T) (HB c T false true) (initialRotAccess e) (fun _ => HB c T false true) (HB c T false true) := by
  have bad : ∀ x, Tri (RunsVerified c T) (HB c T false true) (step e fun s => { s with badFlash := x }) (fun _ => HB c T false true) (HB c T false true) := by
    intro x
    refine Tri.step (fun s h => ?_) HB.stab
    exact ⟨⟨⟨⟨h.h.inv.tp.act, h.h.inv.tp.pend, h.h.inv.tp.preval, h.h.inv.tp.fb⟩, h.h.inv.mode, nofun⟩, h.h.hld, h.h.bhd, h.h.ov⟩, h.nb⟩
  have rot : Tri (RunsVerified c T) (HB c T false true) (rotAccess e) (fun _ => HB c T false true) (HB c T false true) := by
    unfold rotAccess
    refine (Tri.call' (fun r s h => h.access _ _) HB.stab).bind fun _ => ?_
    exact (Tri.call' (fun r s h => h.access _ _) HB.stab).bind fun _ => Tri.probe HB.stab
  unfold initialRotAccess
  refine (Tri.status (Tri.retry rot _)).bind fun x => ?_
  cases x with
  | some x => exact (bad true).bind fun _ => Tri.throw fun _ h => h
  | none =>
    refine (Tri.status (Tri.retry (Tri.probe HB.stab) _)).bind fun x => ?_
    cases x with
    | some x => exact (bad true).bind fun _ => Tri.throw fun _ h => h
    | none => exact bad false

theorem noPfm_any {er : St P C → Prop} : Tri (RunsVerified c T) (Any c T hd) (noPfm c e true) (fun _ s => Done c T hd false s ∧ s.bypass = true) er := by
  unfold noPfm
  refine (Tri.ignore (Tri.call' (fun r s h => h.filter _ h.tp.fb) Any.stab)).bind fun _ => ?_
  refine (Tri.step (q := Any c T hd) (fun s h => ⟨h.off, (h.tp.dirty' _).pfmDirty _, h.hld⟩) Any.stab).bind fun _ => ?_
  exact configBypass_any

theorem porMain_ok (snd : Sound c) (p' : Option P) (x : Option P × Option P × Option Err) (hx : ∀ y, x.2.1 = some y → p' = some y) :
    Tri (RunsVerified c T) (Base c T false true true false x.1 p') (porMain c e x.1 x.2.1 x.2.2) (fun _ => H c T true true) (HB c T false true) := by
  obtain ⟨a, p, em⟩ := x
  simp only at hx ⊢
  have hbase : ∀ s, Base c T false true true false a p' s → HB c T false true s := fun s h => Base.hb (bp := false) h (fun _ => rfl) (fun _ => rfl)
  have last : ∀ (q : P), a = some q → Tri (RunsVerified c T) (Base c T false true true false a p')
      (do let st ← validateFlash c e ⟨q, none, false, false, false, false, false, true, false⟩; M.ofStatus st) (fun _ => H c T true true) (HB c T false true) := by
    rintro q rfl
    have ok : ArgsOk false true false (some q) p' ⟨q, none, false, false, false, false, false, true, false⟩ :=
      ⟨rfl, rfl, fun _ => ⟨rfl, rfl⟩, nofun, fun _ => rfl, nofun, nofun⟩
    refine (validateFlash_ok snd ok).bind fun st => Tri.ofStatus ?_ ?_
    · rintro rfl s h
      exact Done.h h
    · intro hst s h
      cases st with
      | none => simp at hst
      | some y => exact hbase s h
  unfold porMain
  cases a with
  | some a =>
    cases p with
    | some p =>
      cases hx p rfl
      have ok : ArgsOk false true false (some a) (some p) ⟨p, none, true, false, false, false, false, true, false⟩ :=
        ⟨rfl, rfl, fun _ => ⟨rfl, rfl⟩, fun _ => rfl, nofun, nofun, nofun⟩
      refine (validateFlash_ok snd ok).bind fun st => ?_
      cases st with
      | none => exact Tri.pure fun s h => Done.h h
      | some y => exact last a rfl
    | none =>
      refine (Tri.onlyIf (q := Base c T false true true false (some a) p') (fun _ => Tri.step (fun s h => h.pfmDirty false) Base.stab) (fun _ _ h => h)).bind fun _ => last a rfl
  | none =>
    cases p with
    | some p =>
      cases hx p rfl
      have ok : ArgsOk false true false (none) (some p) ⟨p, none, true, true, false, false, false, true, false⟩ :=
        ⟨rfl, rfl, fun _ => ⟨rfl, rfl⟩, fun _ => rfl, nofun, nofun, nofun⟩
      refine (validateFlash_ok snd ok).bind fun st => ?_
      cases st with
      | none => exact Tri.pure fun s h => Done.h h
      | some y =>
        simp only
        split
        · exact configBypass_any.conseq (fun s h => h.any) (fun _ s h => Done.hbypass h) (fun _ h => h)
        · exact Tri.throw fun s h => hbase s h
    | none => exact noPfm_any.conseq (fun s h => h.any) (fun _ s h => Done.hbypass h) (fun _ h => h)

/-- Running two continuations, for success and error. -/
theorem Tri.handle {α β : Type} {safe pre er er' : St P C → Prop} {mid : α → St P C → Prop} {ok : β → St P C → Prop} {m : M P C α} {f : α → M P C β}
    {g : Err → M P C β} (h : Tri safe pre m mid er) (hf : ∀ a, Tri safe (mid a) (f a) ok er') (hg : ∀ x, Tri safe er (g x) ok er') :
    Tri safe pre (m.handle f g) ok er' := by
  intro r hp hl
  have h1 := h r hp hl
  unfold M.handle
  generalize m r = x at h1
  obtain ⟨y, r'⟩ := x
  cases y with
  | ok a => exact hf a r' h1.2 h1.1
  | error z => cases z with
    | err y => exact hg y r' h1.2 h1.1
    | hang => exact ⟨h1.1, trivial⟩

theorem porRest_ok (snd : Sound c) : Tri (RunsVerified c T) (HB c T false true) (porRest c e) (fun _ => H c T true true) (HB c T false true) := by
  unfold porRest
  refine Tri.get fun s hs => ?_
  have hbase : ∀ (a p : Option P) s, Base c T false true true false a p s → HB c T false true s := fun a p s h => Base.hb (bp := false) h (fun _ => rfl) (fun _ => rfl)
  refine Tri.handle (er := HB c T false true) (mid := fun x s => ∃ p, Base c T false true true false x.1 p s ∧ ∀ y, x.2.1 = some y → p = some y)
    ((checkForce_q (q := fun a p => Base c T false true true false a p) (fun _ _ => Base.stab) ?_ (fun s h => ⟨h.act, h.pnd⟩)).conseq ?_
      (fun _ _ h => h) (by rintro s ⟨a, p, h⟩; exact hbase a p s h)) (fun x => ?_) (fun x => ?_)
  · intro s a p h ha hp
    refine ⟨h.off, ⟨⟨fun x hx => ?_, fun x hx => ?_, h.inv.tp.preval, h.inv.tp.fb⟩, h.inv.mode, nofun⟩, h.hld, h.ov, h.bp, rfl, rfl⟩
    · have hx : a = some x := hx
      rcases ha with rfl | rfl
      · simp at hx
      · exact h.inv.tp.act x (h.act.trans hx)
    · have hx : p = some x := hx
      rcases hp with rfl | rfl
      · simp at hx
      · exact h.inv.tp.pend x (h.pnd.trans hx)
  · rintro _ rfl
    exact Fix.base (bp := false) ⟨hs, hs.nb rfl, rfl, rfl⟩
  · intro r hr hl
    obtain ⟨p, h1, h2⟩ := hr
    exact ((porMain_ok snd p x h2).bind fun _ => hostAccess_q H.stab (fun s _ _ h => h.access _ _)) r h1 hl
  · exact (hostAccess_q HB.stab (fun s _ _ h => h.access _ _)).bind fun _ => Tri.throw fun s h => h

/-- While the host is held in reset. -/
structure Held (c : Cfg P C) (T : P → Prop) (s : St P C) : Prop where
  held : s.held = true
  tp : TP c T s
  mode : s.filter.mode = .dual

theorem Held.stab : Stab (RunsVerified c T) (Held c T) := Stab.off (fun _ h => .inr h.held) (fun _ h => ⟨h.held, h.tp.dirty, h.mode⟩)

theorem HB.held {s : St P C} (h : HB c T b true s) : Held c T s := ⟨h.h.hld rfl, h.h.inv.tp, h.h.inv.mode (h.nb rfl)⟩

theorem powerOnReset_ok (snd : Sound c) : Tri (RunsVerified c T) (Held c T) (powerOnReset c e) (fun _ => H c T true true) (HB c T false true) := by
  unfold powerOnReset
  refine (Tri.step (q := Held c T) (fun s h => ?_) Held.stab).bind fun _ => ?_
  · exact ⟨h.held, ⟨h.tp.act, h.tp.pend, (h.tp.pfmDirty true).preval, h.tp.fb⟩, h.mode⟩
  refine (Tri.step (q := fun s => Held c T s ∧ s.bypass = false) (fun s h => ?_) (Stab.off (fun _ h => .inr h.1.held) (fun _ h => ⟨⟨h.1.held, h.1.tp.dirty, h.1.mode⟩, h.2⟩))).bind fun _ => ?_
  · exact ⟨⟨h.held, ⟨h.tp.act, h.tp.pend, h.tp.preval, h.tp.fb⟩, h.mode⟩, rfl⟩
  refine (Tri.step (q := HB c T false true) (fun s h => ?_) HB.stab).bind fun _ => ?_
  · exact ⟨⟨⟨⟨h.1.tp.act, h.1.tp.pend, h.1.tp.preval, h.1.tp.fb⟩, fun _ => h.1.mode, nofun⟩, fun _ => h.1.held, fun _ => rfl, fun _ => rfl⟩, fun _ => h.2⟩
  refine (Tri.status initialRotAccess_hb).bind fun x => ?_
  cases x with
  | some x => exact (hostAccess_q HB.stab (fun s _ _ h => h.access _ _)).bind fun _ => Tri.throw fun s h => h
  | none => exact porRest_ok snd

/-! ### Rollback and recovery -/

theorem hold_hb {er : St P C → Prop} (hb : hd = false) (hbb : b = false → hd = true) (x : Bool) :
    Tri (RunsVerified c T) (HB c T b hd) (hold e x) (fun _ => HB c T b hd) er := by
  subst hb
  cases b with
  | false => simp at hbb
  | true => exact (hold_h x).conseq (fun s h => h.h) (fun _ s h => ⟨h, nofun⟩) (fun _ h => h)

theorem forceBypass_any {er : St P C → Prop} (x : Bool) :
    Tri (RunsVerified c T) (Any c T hd) (forceBypass c e x) (fun _ s => Done c T hd false s ∧ s.bypass = true) er := by
  unfold forceBypass
  refine (Tri.onlyIf (q := Any c T hd) (fun _ => Tri.step (fun s h => ?_) Any.stab) (fun _ _ h => h)).bind fun _ => configBypass_any
  exact ⟨h.off, ⟨h.tp.act, h.tp.pend, h.tp.preval, h.tp.fb⟩, h.hld⟩

/-- The outcome of an operation that established the protected state, or failed. -/
def Post (c : Cfg P C) (T : P → Prop) (b hd : Bool) (x : Option Err) (s : St P C) : Prop := match x with
  | none => H c T true hd s
  | some _ => HB c T b hd s

theorem rollbackBody_ok {er : St P C → Prop} (snd : Sound c) (hb : b = false → hd = true) (hn : hd = true → bp = false) (hact : act = none → b = true ∧ hd = false) :
    Tri (RunsVerified c T) (Fix c T b hd bp act pnd) (rollbackBody c e act) (Post c T b hd) er := by
  unfold rollbackBody
  refine (Tri.status (rotAccess_fix hb hn)).bind fun x => ?_
  cases x with
  | some x => exact Tri.pure fun s h => h
  | none =>
    refine Tri.get fun s0 h0 => ?_
    cases act with
    | some a =>
      simp only
      split
      · refine Tri.weaken (pre := Any c T hd) ?_ (by rintro _ rfl; exact Base.any h0)
        exact (forceBypass_any true).bind (fun _ => Tri.pure fun s h => Done.hbypass h)
      · rename_i hbp
        have : bp = false := by
          rw [← h0.bp]
          simpa using hbp
        subst this
        refine Tri.bind (Tri.status ((validateRw_base (b := b) (hd := hd) (bp := false) (act := some a) (pnd := pnd) snd a s0.ro.other).weaken ?_)) fun x => ?_
        · rintro _ rfl
          exact ⟨h0, rfl⟩
        cases x with
        | some x => exact Tri.pure fun s h => Base.hb (bp := false) h hb hn
        | none =>
          have sw := swapFlash_ok (c := c) (T := T) (e := e) (er := er) (b := b) (hd := hd) (act := some a) (pnd := pnd) (p := a) (d := s0.ro.other) (pend := false) (migrate := false) nofun (fun _ => rfl)
          exact sw.bind fun _ => Tri.pure fun s h => Done.h h
    | none =>
      obtain ⟨h1, h2⟩ := hact rfl
      subst h1 h2
      refine ((Tri.status (Tri.call' (q := Base c T true false (!bp) bp none pnd) (fun r s h => ?_) Base.stab)).weaken (by rintro _ rfl; exact h0)).conseq
        (fun _ h => h) ?_ (fun _ h => h)
      · refine ⟨h.off, ⟨⟨h.inv.tp.act, h.inv.tp.pend, h.inv.tp.preval, h.inv.tp.fb⟩, h.inv.mode, fun x y => ⟨(h.inv.kf x y).rw, (h.inv.kf x y).ro, fun a ha => ?_⟩⟩,
          h.hld, h.ov, h.bp, h.act, h.pnd⟩
        exact absurd (h.act.symm.trans ha) (by simp)
      · intro x s h
        cases x with
        | none => exact (Base.hb (bp := bp) h nofun nofun).h
        | some x => exact Base.hb (bp := bp) h nofun nofun

/-- Ending an operation. -/
theorem finish_ok {noReset : Bool} (hb : b = false → hd = true) (hr : hd = true → noReset = true) (x : Option Err) :
    Tri (RunsVerified c T) (Post c T b hd x) (giveBack c e noReset >>= fun _ => M.ofStatus x) (fun _ => H c T true hd) (HB c T b hd) := by
  have hd0 : noReset = false → hd = false := fun h => by
    cases hd
    · rfl
    · rw [hr rfl] at h; simp at h
  cases x with
  | none =>
    refine (giveBack_q (q := H c T true hd) H.stab (fun s _ _ h => h.access _ _) (fun h x => ?_)).bind fun _ => Tri.ofStatus (fun _ _ h => h) (fun h => absurd rfl h)
    rw [hd0 h]
    exact hold_h x
  | some y =>
    refine (giveBack_q (q := HB c T b hd) HB.stab (fun s _ _ h => h.access _ _) (fun h x => ?_)).bind fun _ => Tri.ofStatus nofun (fun _ _ h => h)
    exact hold_hb (hd0 h) hb x

theorem flashRollback_ok {noReset disable : Bool} (snd : Sound c) (hb : b = false → hd = true) (hr : hd = true → noReset = true ∧ disable = true) :
    Tri (RunsVerified c T) (HB c T b hd) (flashRollback c e disable noReset) (fun _ => H c T true hd) (HB c T b hd) := by
  unfold flashRollback
  refine Tri.get fun s hs => ?_
  have hth : ∀ x, Tri (RunsVerified c T) (fun t => t = s) (M.throw x : M P C Unit) (fun _ => H c T true hd) (HB c T b hd) := by
    intro x
    refine Tri.throw ?_
    rintro _ rfl
    exact hs
  split
  · exact hth _
  split
  · rename_i hc
    split
    · exact hth _
    · refine Tri.bind (mid := fun _ => Fix c T b hd s.bypass s.active s.pending) ?_ fun _ => ?_
      · refine Tri.onlyIf (fun hx => ?_) (fun _ => ?_)
        · have : hd = false := by
            cases hd
            · rfl
            · simp [(hr rfl).1] at hx
          subst this
          cases b with
          | false => simp at hb
          | true => exact (hold_fix true).weaken (by rintro _ rfl; exact ⟨hs, rfl, rfl, rfl⟩)
        · rintro _ rfl
          exact ⟨hs, rfl, rfl, rfl⟩
      · refine (rollbackBody_ok snd hb hs.nb ?_).bind fun x => finish_ok hb (fun h => (hr h).1) x
        intro ha
        have hd0 : hd = false := by
          cases hd
          · rfl
          · simp [ha, (hr rfl).2] at hc
        refine ⟨?_, hd0⟩
        cases b
        · rw [hb rfl] at hd0; simp at hd0
        · rfl
  split
  · exact hth _
  · exact hth _

/-- With a recovery image. -/
structure Rec (c : Cfg P C) (T : P → Prop) (b hd bp : Bool) (act pnd : Option P) (s : St P C) : Prop where
  base : Base c T b hd (!bp) bp act pnd s
  img : s.recov s.ro = true

theorem Rec.stab : Stab (RunsVerified c T) (Rec c T b hd bp act pnd) := Stab.off (fun _ h => h.base.off) (fun _ h => ⟨h.base.dirty true, h.img⟩)

theorem Rec.write {s : St P C} (h : Rec c T b hd bp act pnd s) (x : C) : Rec c T b hd bp act pnd (s.write s.ro x) := by
  have k := h.base
  exact ⟨⟨k.off, ⟨⟨k.inv.tp.act, k.inv.tp.pend, k.inv.tp.preval, k.inv.tp.fb⟩, k.inv.mode, fun p q => ⟨(k.inv.kf p q).rw, (k.inv.kf p q).ro, fun _ _ => .inl h.img⟩⟩,
    k.hld, k.ov, k.bp, k.act, k.pnd⟩, h.img⟩

theorem recoveryBody_ok (hb : b = false → hd = true) (hn : hd = true → bp = false) :
    Tri (RunsVerified c T) (Fix c T b hd bp act pnd) (recoveryBody c e) (fun _ => H c T true hd) (HB c T b hd) := by
  unfold recoveryBody
  refine (rotAccess_fix hb hn).bind fun _ => ?_
  refine (Tri.step (q := Rec c T b hd bp act pnd) (fun s h => ?_) Rec.stab).bind fun _ => ?_
  · have hr : (if s.ro = s.ro then true else s.recov s.ro) = true := by simp
    refine ⟨⟨h.off, ⟨⟨h.inv.tp.act, h.inv.tp.pend, h.inv.tp.preval, h.inv.tp.fb⟩, h.inv.mode, fun p q => ⟨(h.inv.kf p q).rw, (h.inv.kf p q).ro, fun _ _ => .inl hr⟩⟩,
      h.hld, h.ov, h.bp, h.act, h.pnd⟩, hr⟩
  have wr : Tri (RunsVerified c T) (Rec c T b hd bp act pnd) (call e fun r s => s.write s.ro (r.junk s.ro)) (fun _ => Rec c T b hd bp act pnd) (HB c T b hd) :=
    Tri.call (fun r s h => h.write _) (fun s h => h.base.hb hb hn) (fun r s h => (h.write _).base.hb hb hn) Rec.stab HB.stab
  refine wr.bind fun _ => wr.bind fun _ => Tri.get fun s0 h0 => ?_
  split
  · rename_i hbp
    refine Tri.pure ?_
    rintro _ rfl
    refine ⟨⟨h0.base.inv.tp, h0.base.inv.mode, fun _ hh => absurd (hbp.symm.trans hh) (by simp)⟩, h0.base.hld, nofun, fun hh => absurd (hbp.symm.trans hh) (by simp)⟩
  · rename_i hbp
    have : bp = false := by
      rw [← h0.base.bp]
      simpa using hbp
    subst this
    have st2 : Stab (RunsVerified c T) (fun s => Rec c T b hd false act pnd s ∧ s.filter.fullRw = false) :=
      Stab.off (fun _ h => h.1.base.off) (fun _ h => ⟨⟨h.1.base.dirty true, h.1.img⟩, h.2⟩)
    have fl : ∀ s, Rec c T b hd false act pnd s → Rec c T b hd false act pnd (s.setFullRw false) := fun s h => by
      have k := h.base
      exact ⟨⟨k.off, ⟨⟨k.inv.tp.act, k.inv.tp.pend, k.inv.tp.preval, k.inv.tp.fb⟩, k.inv.mode, fun p q => ⟨rfl, (k.inv.kf p q).ro, fun _ _ => .inl h.img⟩⟩,
        k.hld, k.ov, k.bp, k.act, k.pnd⟩, h.img⟩
    have fr : ∀ s, Rec c T b hd false act pnd s → Rec c T b hd false act pnd (s.setRoCs s.ro) := fun s h => by
      have k := h.base
      exact ⟨⟨k.off, ⟨⟨k.inv.tp.act, k.inv.tp.pend, k.inv.tp.preval, k.inv.tp.fb⟩, k.inv.mode, fun p q => ⟨(k.inv.kf p q).rw, rfl, fun _ _ => .inl h.img⟩⟩,
        k.hld, k.ov, k.bp, k.act, k.pnd⟩, h.img⟩
    refine Tri.bind (mid := fun _ s => Rec c T b hd false act pnd s ∧ s.filter.fullRw = false)
      (Tri.weaken (Tri.forever (pre := Rec c T b hd false act pnd) (Tri.call (fun r s h => ⟨fl s h, rfl⟩) (fun _ h => h) (fun r s h => fl s h) st2 Rec.stab) _)
        (by rintro _ rfl; exact h0)) fun _ => ?_
    unfold configFlash
    refine (Tri.forever (q := Done c T hd true) (Tri.call ?_ (fun _ h => h) (fun r s h => ⟨fr s h.1, h.2⟩) Done.stab st2) _).conseq (fun _ h => h) (fun _ s h => Done.h h) (fun _ h => h)
    rintro r s ⟨h, h1⟩
    have k := (fr s h).base
    exact ⟨k.off, ⟨k.inv.tp, k.inv.mode, fun p q => ⟨h1, rfl, fun _ _ => .inl h.img⟩⟩, k.hld, k.ov⟩

theorem applyRecovery_ok {noReset : Bool} (hb : b = false → hd = true) (hr : hd = true → noReset = true) :
    Tri (RunsVerified c T) (HB c T b hd) (applyRecovery c e noReset) (fun _ => H c T true hd) (HB c T b hd) := by
  unfold applyRecovery
  refine Tri.get fun s hs => ?_
  have hth : ∀ x, Tri (RunsVerified c T) (fun t => t = s) (M.throw x : M P C Unit) (fun _ => H c T true hd) (HB c T b hd) := by
    intro x
    refine Tri.throw ?_
    rintro _ rfl
    exact hs
  split
  · exact hth _
  split
  · exact hth _
  · refine Tri.bind (mid := fun _ t => t = s) (fun r hp hl => ⟨hl, hp⟩) fun f => ?_
    split
    · exact hth _
    · refine Tri.bind (mid := fun _ => Fix c T b hd s.bypass s.active s.pending) ?_ fun _ => ?_
      · refine Tri.onlyIf (fun hx => ?_) (fun _ => ?_)
        · have : hd = false := by
            cases hd
            · rfl
            · simp [hr rfl] at hx
          subst this
          cases b with
          | false => simp at hb
          | true => exact (hold_fix true).weaken (by rintro _ rfl; exact ⟨hs, rfl, rfl, rfl⟩)
        · rintro _ rfl
          exact ⟨hs, rfl, rfl, rfl⟩
      · exact ((Tri.status (recoveryBody_ok hb hs.nb)).conseq (fun _ h => h) (fun x s h => by cases x <;> exact h) (fun _ h => h)).bind fun x => finish_ok hb hr x

theorem bypassMode_ok {er : St P C → Prop} (x : Bool) : Tri (RunsVerified c T) (Any c T hd) (bypassMode c e x) (fun _ => H c T true hd) er := by
  unfold bypassMode
  exact (forceBypass_any x).bind fun _ => (hostAccess_q H.stab (fun s _ _ h => h.access _ _)).weaken (fun s h => Done.hbypass h)

/-- `host_irq_handler_power_on`: afterwards the protected state is established or the host is in bypass mode. -/
theorem powerOn_ok (snd : Sound c) (allow : Bool) : Tri (RunsVerified c T) (Held c T) (powerOn c e allow) (fun _ => H c T true true) (HB c T false true) := by
  unfold powerOn
  have por : Tri (RunsVerified c T) (Held c T) (retry (fun _ => false) (powerOnReset c e) 1).status (Post c T false true) (HB c T false true) := by
    refine ((Tri.status (er := HB c T false true) (oks := H c T true true) ?_)).conseq (fun _ h => h) (fun x s h => by cases x <;> exact h) (fun _ h => h)
    unfold retry
    refine (Tri.status (powerOnReset_ok snd)).bind fun x => ?_
    cases x with
    | none => exact Tri.pure fun s h => h
    | some x =>
      simp only [Bool.false_eq_true, if_false]
      unfold retry
      exact (powerOnReset_ok snd).weaken (fun s h => HB.held h)
  refine por.bind fun x => ?_
  refine ((Tri.again (x := x) (flashRollback_ok (b := false) (hd := true) snd (fun _ => rfl) (fun _ => ⟨rfl, rfl⟩)) 2).conseq (fun s h => by cases x <;> exact h) (ok' := Post c T false true)
    (fun x s h => by cases x <;> exact h) (fun _ h => h)).bind fun x => ?_
  refine ((Tri.again (x := x) (applyRecovery_ok (b := false) (hd := true) (fun _ => rfl) (fun _ => rfl)) 2).conseq (fun s h => by cases x <;> exact h) (ok' := Post c T false true)
    (fun x s h => by cases x <;> exact h) (fun _ h => h)).bind fun x => ?_
  unfold unsecure
  cases x with
  | none => exact Tri.pure fun s h => h
  | some x =>
    simp only
    split
    · exact (bypassMode_ok _).weaken (fun s h => ⟨.inr (HB.held h).held, (HB.held h).tp, fun _ => (HB.held h).held⟩)
    · exact Tri.throw fun s h => h

/-! ### While the host runs -/

theorem finalize_ok {er : St P C → Prop} : Tri (RunsVerified c T) (H' c T true false) (finalize e) (fun _ => H c T true false) er := by
  unfold finalize
  refine Tri.get fun s hs => ?_
  split
  · rename_i hbp
    have hh : H c T true false s := ⟨hs.inv, hs.hld, hs.bhd, fun hh => absurd (hbp.symm.trans hh) (by simp)⟩
    refine Tri.onlyIf (fun _ => Tri.step ?_ H.stab) (fun _ => ?_)
    · rintro t rfl
      exact ⟨⟨⟨hs.inv.tp.act, hs.inv.tp.pend, hs.inv.tp.preval, hs.inv.tp.fb⟩, hs.inv.mode, fun _ hh => absurd (hbp.symm.trans hh) (by simp)⟩, nofun, nofun,
        fun hh => absurd (hbp.symm.trans hh) (by simp)⟩
    · rintro _ rfl
      exact hh
  · rename_i hbp
    have hb : s.bypass = false := by simpa using hbp
    split
    · rename_i ho
      -- the override is saved, then cleared
      refine Tri.bind (mid := fun _ t => H' c T true false t ∧ t.bypass = false ∧ t.nvRo = s.ro ∧ t.ro = s.ro) (Tri.step ?_ ?_) fun _ => ?_
      · rintro t rfl
        have hro : ({ t with nvRo := t.ro } : St P C).ro = t.ro := by
          show t.override.getD t.ro = t.ro
          cases ht : t.override with
          | none => rfl
          | some d => show d = t.override.getD t.nvRo; rw [ht]; rfl
        refine ⟨⟨⟨⟨hs.inv.tp.act, hs.inv.tp.pend, hs.inv.tp.preval, hs.inv.tp.fb⟩, hs.inv.mode, fun p q => ?_⟩, nofun, nofun⟩, hb, rfl, hro⟩
        have k := hs.inv.kf p q
        refine ⟨k.rw, k.ro.trans hro.symm, fun a ha => ?_⟩
        have := k.ok a ha
        unfold Gd at this ⊢
        rw [hro]
        exact this
      · intro t ht
        have := H'.stab t ht.1
        refine ⟨this.1, fun r => ⟨this.2 r, (interfere_frame r t).2.1.trans ht.2.1, ?_⟩⟩
        have hn : (interfere r t).nvRo = t.nvRo := by
          have hw : ∀ u : St P C, (hostWrite r.junk u).nvRo = u.nvRo := by
            intro u
            unfold hostWrite
            split <;> rfl
          unfold interfere
          cases r.irq <;> simp only [Bool.false_eq_true, if_false, if_true]
          · split
            · exact hw t
            · rfl
          · split
            · exact hw (t.setDirty true)
            · rfl
        refine ⟨hn.trans ht.2.2.1, ?_⟩
        show (interfere r t).override.getD (interfere r t).nvRo = s.ro
        rw [(interfere_frame r t).2.2, hn]
        exact ht.2.2.2
      refine (Tri.step (q := H c T true false) ?_ H.stab).bind fun _ => Tri.step (fun t h => ⟨h.inv.dirty _, h.hld, h.bhd, h.ov⟩) H.stab
      rintro t ⟨h1, h2, h3, h4⟩
      have hro : ({ t with override := none } : St P C).ro = t.ro := by
        show t.nvRo = t.ro
        rw [h3, h4]
      refine ⟨⟨⟨h1.inv.tp.act, h1.inv.tp.pend, h1.inv.tp.preval, h1.inv.tp.fb⟩, h1.inv.mode, fun p q => ?_⟩, nofun, nofun, fun _ => rfl⟩
      have k := h1.inv.kf p q
      refine ⟨k.rw, k.ro.trans hro.symm, fun a ha => ?_⟩
      have := k.ok a ha
      unfold Gd at this ⊢
      rw [hro]
      exact this
    · rename_i ho
      refine Tri.pure ?_
      intro t ht
      subst ht
      refine ⟨hs.inv, hs.hld, hs.bhd, fun _ => ?_⟩
      cases hx : t.override with
      | none => rfl
      | some d => simp [hx] at ho

theorem Fix.setDirty {s : St P C} (h : Fix c T b hd bp act pnd s) (x : Bool) : Fix c T b hd bp act pnd (s.setDirty x) :=
  ⟨⟨⟨h.hb.h.inv.dirty x, h.hb.h.hld, h.hb.h.bhd, h.hb.h.ov⟩, h.hb.nb⟩, h.bp, h.act, h.pnd⟩

theorem Fix.setPfmDirty {s : St P C} (h : Fix c T b hd bp act pnd s) (x : Bool) : Fix c T b hd bp act pnd (s.setPfmDirty x) :=
  ⟨⟨⟨h.hb.h.inv.pfmDirty x, h.hb.h.hld, h.hb.h.bhd, h.hb.h.ov⟩, h.hb.nb⟩, h.bp, h.act, h.pnd⟩

theorem Fix.clearDirty {s : St P C} (h : Fix c T b hd bp act pnd s) : Fix c T b hd bp act pnd s.clearDirty := by
  have k := h.hb.h.inv
  exact ⟨⟨⟨⟨⟨k.tp.act, k.tp.pend, k.tp.preval, k.tp.fb⟩, k.mode, fun p q => ⟨(k.kf p q).rw, (k.kf p q).ro, (k.kf p q).ok⟩⟩, h.hb.h.hld, h.hb.h.bhd, h.hb.h.ov⟩, h.hb.nb⟩, h.bp, h.act, h.pnd⟩

/-- In bypass mode the settings for the read-only flash do not matter. -/
theorem Fix.roBypass {s : St P C} (h : Fix c T true false true act pnd s) (x : Cs) (y : Option Cs) :
    Fix c T true false true act pnd { s with nvRo := x, override := y } := by
  have k := h.hb.h.inv
  have hb : s.bypass ≠ false := by rw [h.bp]; simp
  exact ⟨⟨⟨⟨⟨k.tp.act, k.tp.pend, k.tp.preval, k.tp.fb⟩, k.mode, fun _ q => absurd q hb⟩, nofun, nofun, fun q => absurd q hb⟩, nofun⟩, h.bp, h.act, h.pnd⟩

theorem prepare_ok {er : St P C → Prop} (ign : Events) (a p : Option P) :
    Tri (RunsVerified c T) (Fix c T true false bp act pnd) (prepare e ign a p) (fun _ => Fix c T true false bp act pnd) er := by
  unfold prepare
  refine Tri.get fun s hs => ?_
  split
  · exact Tri.pure (by rintro _ rfl; exact hs)
  split
  · rename_i hro
    have hbp : bp = true := by
      cases hh : bp with
      | true => rfl
      | false =>
        exfalso
        apply hro
        have := hs.hb.h.ov (hs.bp.trans hh)
        show s.override.getD s.nvRo = s.nvRo
        rw [this]
        rfl
    subst hbp
    refine Tri.bind (mid := fun _ => Fix c T true false true act pnd) (Tri.onlyIf (fun hx => ?_) (fun _ => by rintro _ rfl; exact hs)) fun _ => ?_
    · simp [hs.bp] at hx
    refine (Tri.step (fun t h => h.setDirty true) Fix.stab).bind fun _ => (Tri.step (q := Fix c T true false true act pnd) (fun t h => h.roBypass _ _) Fix.stab).bind fun _ => Tri.pure fun _ h => h
  · refine Tri.bind (mid := fun _ => Fix c T true false bp act pnd) (Tri.step ?_ Fix.stab) fun _ => Tri.pure fun _ h => h
    rintro t rfl
    cases bp with
    | true => exact hs.roBypass _ _
    | false =>
      have := hs.hb.h.ov hs.bp
      have : ({ t with override := none } : St P C) = t := by
        cases t
        simp only at this
        subst this
        rfl
      rw [this]
      exact hs

theorem clearHostDirty_ok {er : St P C → Prop} (x : Bool) :
    Tri (RunsVerified c T) (Fix c T b hd bp act pnd) (clearHostDirty e x) (fun _ => Fix c T b hd bp act pnd) er := by
  unfold clearHostDirty
  refine (Tri.step (fun s h => h.setPfmDirty false) Fix.stab).bind fun _ => Tri.onlyIf (fun _ => ?_) (fun _ _ h => h)
  exact (Tri.ignore (Tri.call' (fun r s h => h.clearDirty) Fix.stab)).bind fun _ => Tri.step (fun s h => h.setDirty false) Fix.stab

theorem clearHostDirty_base {er : St P C → Prop} (x : Bool) :
    Tri (RunsVerified c T) (Base c T b hd o bp act pnd) (clearHostDirty e x) (fun _ => Base c T b hd o bp act pnd) er := by
  unfold clearHostDirty
  refine (Tri.step (fun s h => h.pfmDirty false) Base.stab).bind fun _ => Tri.onlyIf (fun _ => ?_) (fun _ _ h => h)
  exact (Tri.ignore (Tri.call' (fun r s h => h.clearDirty) Base.stab)).bind fun _ => Tri.step (fun s h => h.dirty false) Base.stab

theorem Base.h' {s : St P C} (h : Base c T true hd o bp act pnd s) : H' c T true hd s := ⟨h.inv, h.hld, nofun⟩

/-- The variables agree with the state. -/
structure UpdOk (u : Upd P) (bp : Bool) (act pnd : Option P) : Prop where
  act : u.active = act
  pend : ∀ p, u.pending = some p → pnd = some p
  bypass : u.bypass = bp

theorem updPending_ok {er : St P C → Prop} {u : Upd P} (snd : Sound c) (h : UpdOk u bp act pnd) :
    Tri (RunsVerified c T) (Base c T true false (!bp) bp act pnd) (updPending c e u .none)
      (fun x s => (x.1 = none ∧ u.pending ≠ none ∧ Done c T false (!bp) s) ∨ ((x.1 = none → u.pending = none) ∧ Base c T true false (!bp) bp act pnd s)) er := by
  unfold updPending
  cases hp : u.pending with
  | none =>
    refine (Tri.onlyIf (q := Base c T true false (!bp) bp act pnd) (fun _ => Tri.step (fun s h => h.pfmDirty false) Base.stab) (fun _ _ h => h)).bind fun _ => ?_
    exact Tri.pure fun s h => .inr ⟨fun _ => rfl, h⟩
  | some p =>
    refine Tri.get fun s hs => ?_
    simp only [reduceCtorEq, decide_false, Bool.and_false, Bool.false_and, Bool.false_eq_true, if_false]
    split
    · rename_i he
      refine Tri.pure ?_
      rintro _ rfl
      refine .inr ⟨fun hh => ?_, hs⟩
      simp only at hh
      simp [hh] at he
    · refine (Tri.weaken (validateFlash_ok (b := true) (hd := false) (o := !bp) (bp := bp) (act := act) (pnd := pnd) snd ?_) (by rintro _ rfl; exact hs)).bind fun st => ?_
      · refine ⟨rfl, rfl, fun hb => ?_, fun _ => h.pend p hp, nofun, fun g hg => ?_, fun _ => .inr rfl⟩
        · have : bp = false := h.bypass.symm.trans hb
          rw [this]
          exact ⟨rfl, rfl⟩
        · have hg : (if u.bypass then none else u.active) = some g := hg
          cases hub : u.bypass with
          | true => simp [hub] at hg
          | false =>
            simp only [hub, Bool.false_eq_true, if_false] at hg
            exact ⟨h.act.symm.trans hg, rfl, rfl⟩
      · refine Tri.pure fun s h => ?_
        cases st with
        | none => exact .inl ⟨rfl, nofun, h⟩
        | some y => exact .inr ⟨nofun, h⟩

theorem updActive_ok {er : St P C → Prop} {u : Upd P} (snd : Sound c) (h : UpdOk u bp act pnd) (x : Option Err × Bool) :
    Tri (RunsVerified c T)
      (fun s => (x.1 = none ∧ u.pending ≠ none ∧ Done c T false (!bp) s) ∨ ((x.1 = none → u.pending = none) ∧ Base c T true false (!bp) bp act pnd s))
      (updActive c e u .none x) (fun _ => H' c T true false) er := by
  have weak : ∀ s, ((x.1 = none ∧ u.pending ≠ none ∧ Done c T false (!bp) s) ∨ ((x.1 = none → u.pending = none) ∧ Base c T true false (!bp) bp act pnd s)) → H' c T true false s := by
    rintro s (⟨_, _, hs⟩ | ⟨_, hs⟩)
    · exact hs.h'
    · exact hs.h'
  unfold updActive
  cases ha : u.active with
  | some a =>
    simp only
    split
    · rename_i hc
      refine (Tri.weaken (validateFlash_ok (b := true) (hd := false) (o := !bp) (bp := bp) (act := act) (pnd := pnd) snd ?_) ?_).conseq (fun _ h => h)
        (fun st s hs => by
          cases st with
          | none => exact Done.h' hs
          | some y => exact Base.h' hs) (fun _ h => h)
      · refine ⟨rfl, rfl, fun hb => ?_, nofun, fun _ => h.act.symm.trans ha, nofun, fun _ => .inr rfl⟩
        have : bp = false := h.bypass.symm.trans hb
        rw [this]
        exact ⟨rfl, rfl⟩
      · rintro s (⟨h1, h2, hs⟩ | ⟨_, hs⟩)
        · exfalso
          rw [h1] at hc
          cases hp : u.pending with
          | none => exact h2 hp
          | some p => simp [hp] at hc
        · exact hs
    · exact Tri.pure weak
  | none =>
    simp only
    split
    · rename_i hc
      have hn : u.pending = none := by simpa using hc
      refine Tri.bind (mid := fun _ => H' c T true false) (Tri.weaken (pre := Base c T true false (!bp) bp act pnd) ?_ ?_) fun _ => Tri.pure fun _ h => h
      · cases hgo : (!u.bypass || u.force) with
        | true => exact noPfm_any.conseq (fun s hs => hs.any) (fun _ s hs => hs.1.h') (fun _ h => h)
        | false =>
          unfold noPfm
          refine (Tri.ignore (Tri.call' (fun r s h => h.clearDirty) Base.stab)).bind fun _ => ?_
          refine (Tri.step (fun s h => (h.dirty false).pfmDirty false) Base.stab).bind fun _ => ?_
          exact Tri.pure' fun s hs => hs.h'
      · rintro s (⟨_, h2, _⟩ | ⟨_, hs⟩)
        · exact absurd hn h2
        · exact hs
    · exact Tri.pure weak

theorem updVerify_ok {er : St P C → Prop} {u : Upd P} (snd : Sound c) (h : UpdOk u bp act pnd) :
    Tri (RunsVerified c T) (Base c T true false (!bp) bp act pnd) (updVerify c e u) (fun _ => H' c T true false) er := by
  unfold updVerify
  split
  · exact Tri.pure fun s hs => hs.h'
  · refine Tri.get fun s hs => ?_
    have hck : (if u.bypass then Preval.none else s.preval) = .none := by
      split
      · rfl
      · exact hs.inv.tp.preval
    simp only [hck]
    refine (Tri.step (q := Base c T true false (!bp) bp act pnd) (by rintro _ rfl; exact hs.preval) Base.stab).bind fun _ => ?_
    exact (updPending_ok snd h).bind fun x => updActive_ok snd h x

theorem updFlash_ok {er : St P C → Prop} {u : Upd P} (snd : Sound c) (h : UpdOk u bp act pnd) (nc reset : Bool) :
    Tri (RunsVerified c T) (Fix c T true false bp act pnd) (updFlash c e u nc reset) (fun _ => H' c T true false) er := by
  have weak : ∀ s, HB c T true false s → H' c T true false s := fun s h => ⟨h.h.inv, h.h.hld, h.h.bhd⟩
  unfold updFlash
  refine (Tri.status (rotAccess_fix (b := true) (hd := false) nofun nofun)).bind fun x => ?_
  have rest : Tri (RunsVerified c T) (fun s => H' c T true false s) (hostAccess c e >>= fun _ => (hold e true).onlyIf (reset && c.pulse)) (fun _ => H' c T true false) er :=
    (hostAccess_q H'.stab (fun s _ _ h => h.access _ _)).bind fun _ => Tri.onlyIf (fun _ => hold_h' true) (fun _ _ h => h)
  cases x with
  | some x =>
    refine (Tri.onlyIf (q := HB c T true false) (fun hx => ?_) (fun _ _ h => h)).bind fun _ => ?_
    · simp at hx
    simp only [Option.isSome_some, Bool.true_or, if_true]
    refine Tri.bind (mid := fun _ => HB c T true false) (Tri.bind (mid := fun _ => HB c T true false) (Tri.onlyIf (fun _ => ?_) (fun _ _ h => h)) fun _ => Tri.pure fun _ h => h) fun _ => ?_
    · intro r hp hl
      exact (clearHostDirty_ok (b := true) (hd := false) (bp := r.st.bypass) (act := r.st.active) (pnd := r.st.pending) _).conseq (fun _ h => h) (fun _ _ h => h.hb) (fun _ h => h) r ⟨hp, rfl, rfl, rfl⟩ hl
    · refine (Tri.weaken (hostAccess_q (q := H' c T true false) H'.stab (fun s _ _ h => h.access _ _)) weak).bind fun _ => ?_
      exact (Tri.onlyIf (fun _ => hold_h' true) (fun _ _ h => h)).bind fun _ => Tri.pure fun _ h => h
  | none =>
    refine (Tri.onlyIf (q := Base c T true false (!bp) bp act pnd) (fun _ => Tri.ignore (Tri.retry (Tri.probe Base.stab) _)) (fun _ _ h => h)).bind fun _ => ?_
    refine Tri.bind (mid := fun _ => H' c T true false) ?_ fun _ => ?_
    · split
      · refine (Tri.onlyIf (q := Base c T true false (!bp) bp act pnd) (fun _ => clearHostDirty_base _) (fun _ _ h => h)).bind fun _ => Tri.pure fun s h => h.h'
      · exact updVerify_ok snd h
    · refine (hostAccess_q H'.stab (fun s _ _ h => h.access _ _)).bind fun _ => ?_
      exact (Tri.onlyIf (fun _ => hold_h' true) (fun _ _ h => h)).bind fun _ => Tri.pure fun _ h => h

theorem updBody_ok {er : St P C → Prop} (snd : Sound c) (reset : Bool) (ign : Events) (a p : Option P) (x y : Option Err) (ha : a = act) (hp : ∀ q, p = some q → pnd = some q) :
    Tri (RunsVerified c T) (Fix c T true false bp act pnd) (updBody c e reset ign a p x y) (fun _ => H' c T true false) er := by
  have weak : ∀ s, Fix c T true false bp act pnd s → H' c T true false s := fun s h => ⟨h.hb.h.inv, h.hb.h.hld, h.hb.h.bhd⟩
  unfold updBody
  refine (prepare_ok ign a p).bind fun h => Tri.get fun s hs => ?_
  refine Tri.weaken (pre := Fix c T true false bp act pnd) ?_ (by rintro _ rfl; exact hs)
  simp only
  split
  · split
    · exact Tri.pure weak
    · exact updFlash_ok snd ⟨ha, hp, hs.bp⟩ _ _
  · exact (clearHostDirty_ok _).bind fun _ => Tri.pure weak

theorem clear_h {s : St P C} {a p : Option P} (h : HB c T true false s) (ha : a = none ∨ a = s.active) (hp : p = none ∨ p = s.pending) :
    HB c T true false { s with active := a, pending := p } := by
  have k := h.h.inv
  refine ⟨⟨⟨⟨fun x hx => ?_, fun x hx => ?_, k.tp.preval, k.tp.fb⟩, k.mode, fun q r => ⟨(k.kf q r).rw, (k.kf q r).ro, fun x hx => ?_⟩⟩, nofun, nofun, h.h.ov⟩, nofun⟩
  · have hx : a = some x := hx
    rcases ha with rfl | rfl
    · simp at hx
    · exact k.tp.act x hx
  · have hx : p = some x := hx
    rcases hp with rfl | rfl
    · simp at hx
    · exact k.tp.pend x hx
  · have hx : a = some x := hx
    rcases ha with rfl | rfl
    · simp at hx
    · exact (k.kf q r).ok x hx

theorem updPfms_ok {er : St P C → Prop} (snd : Sound c) (reset : Bool) (ign : Events) (y : Option Err) :
    Tri (RunsVerified c T) (HB c T true false) (updPfms c e reset ign y) (fun _ => H' c T true false) er := by
  unfold updPfms
  refine Tri.get fun s hs => ?_
  refine Tri.handle (er := HB c T true false) (mid := fun x t => ∃ p, Fix c T true false s.bypass x.1 p t ∧ ∀ y, x.2.1 = some y → p = some y)
    ((checkForce_q (q := fun a p => Fix c T true false s.bypass a p) (fun _ _ => Fix.stab) ?_ (fun s h => ⟨h.act, h.pnd⟩)).conseq ?_
      (fun _ _ h => h) (by rintro s ⟨a, p, h⟩; exact h.hb)) (fun x => ?_) (fun x => ?_)
  · intro t a p h ha hp
    rw [← h.act] at ha
    rw [← h.pnd] at hp
    exact ⟨clear_h h.hb ha hp, h.bp, rfl, rfl⟩
  · rintro _ rfl
    exact ⟨hs, rfl, rfl, rfl⟩
  · intro r hr hl
    obtain ⟨p, h1, h2⟩ := hr
    exact updBody_ok snd reset ign x.1 x.2.1 x.2.2 _ rfl h2 r h1 hl
  · exact Tri.pure fun s h => ⟨h.h.inv, h.h.hld, h.h.bhd⟩

theorem H.hb {s : St P C} (h : H c T true false s) : HB c T true false s := ⟨h, nofun⟩

theorem updateVerification_ok (snd : Sound c) (reset : Bool) (ign : Events) (y : Option Err) :
    Tri (RunsVerified c T) (H c T true false) (updateVerification c e reset ign y) (fun _ => H c T true false) (H c T true false) := by
  unfold updateVerification
  refine Tri.get fun s hs => ?_
  split
  · exact Tri.throw (by rintro _ rfl; exact hs)
  · refine Tri.weaken (pre := H c T true false) ?_ (by rintro _ rfl; exact hs)
    refine (Tri.onlyIf (fun _ => hold_h true) (fun _ _ h => h)).bind fun _ => ?_
    refine (Tri.weaken (updPfms_ok snd reset ign y) (fun s h => h.hb)).bind fun st => ?_
    refine finalize_ok.bind fun _ => ?_
    refine (Tri.onlyIf (fun _ => hold_h false) (fun _ _ h => h)).bind fun _ => ?_
    exact Tri.ofStatus (fun _ _ h => h) (fun _ _ h => h)

theorem recoverRw_ok : Tri (RunsVerified c T) (H c T true false) (recoverRw c e) (fun _ => H c T true false) (H c T true false) := by
  unfold recoverRw
  refine Tri.get fun s hs => ?_
  split
  · refine Tri.bind (mid := fun _ => Fix c T true false s.bypass s.active s.pending) (Tri.onlyIf (fun _ => ?_) (fun _ => ?_)) fun _ => ?_
    · exact (hold_fix true).weaken (by rintro _ rfl; exact ⟨hs.hb, rfl, rfl, rfl⟩)
    · rintro _ rfl
      exact ⟨hs.hb, rfl, rfl, rfl⟩
    refine Tri.bind (mid := fun _ => H c T true false) ((Tri.status (er := H c T true false) (oks := H c T true false) ?_).conseq (fun _ h => h)
      (fun x s h => by cases x <;> exact h) (fun _ h => h)) fun x => ?_
    · refine ((rotAccess_fix (b := true) (hd := false) nofun nofun).conseq (fun _ h => h) (fun _ _ h => h) (fun _ h => h.h)).bind fun _ => ?_
      exact (restoreRw_base true).conseq (fun _ h => h) (fun _ s h => (Base.hb (b := true) (hd := false) h nofun nofun).h)
        (fun s h => (Base.hb (b := true) (hd := false) h nofun nofun).h)
    · exact (giveBack_q H.stab (fun s _ _ h => h.access _ _) (fun _ x => hold_h x)).bind fun _ => Tri.ofStatus (fun _ _ h => h) (fun _ _ h => h)
  · exact Tri.throw (by rintro _ rfl; exact hs)

theorem configRo_ok (cur next : Option Cs) (ev : Option Events) :
    Tri (RunsVerified c T) (H c T true false) (configRo c e cur next ev) (fun _ => H c T true false) (H c T true false) := by
  unfold configRo
  refine Tri.get fun s hs => ?_
  have hs' : Fix c T true false s.bypass s.active s.pending s := ⟨hs.hb, rfl, rfl, rfl⟩
  -- the first part keeps whether the host is in bypass mode
  refine Tri.bind (mid := fun _ t => H c T true false t ∧ t.bypass = s.bypass) ?_ fun _ => ?_
  · unfold configCurrent
    split
    · exact Tri.pure (by rintro _ rfl; exact ⟨hs, rfl⟩)
    · rename_i d
      split
      · exact Tri.throw (by rintro _ rfl; exact hs)
      · rename_i hbp
        have hb : s.bypass = true := by simpa using hbp
        split
        · exact Tri.pure (by rintro _ rfl; exact ⟨hs, rfl⟩)
        · rw [hb] at hs' ⊢
          refine Tri.bind (mid := fun _ => Fix c T true false true s.active s.pending) (Tri.step (by rintro t rfl; exact hs'.roBypass _ _) Fix.stab) fun _ => ?_
          refine Tri.bind (mid := fun x t => match x with | none => Base c T true false false true s.active s.pending t | some _ => H c T true false t)
            ((Tri.status ((rotAccess_fix (b := true) (hd := false) (bp := true) nofun nofun).conseq (fun _ h => h) (fun _ _ h => h) (fun _ h => h.h))).conseq (fun _ h => h) (fun x s h => by cases x <;> exact h) (fun _ h => h)) fun x => ?_
          cases x with
          | none =>
            refine (Tri.onlyIf (q := fun t => H c T true false t ∧ t.bypass = true) (fun _ => ?_) (fun hx => by simp at hx)).bind fun _ => ?_
            · exact configBypass_any.conseq (fun s h => h.any) (fun _ s h => ⟨Done.hbypass h, h.2⟩) (fun _ h => h)
            · refine (hostAccess_q (q := fun t => H c T true false t ∧ t.bypass = true) ?_ (fun s _ _ h => ⟨h.1.access _ _, h.2⟩)).bind fun _ => Tri.pure' fun _ h => h
              intro t ht
              have := H.stab t ht.1
              exact ⟨this.1, fun r => ⟨this.2 r, (interfere_frame r t).2.1.trans ht.2⟩⟩
          | some x =>
            refine (Tri.onlyIf (q := H c T true false) (fun hx => by simp at hx) (fun _ _ h => h)).bind fun _ => ?_
            exact (hostAccess_q H.stab (fun s _ _ h => h.access _ _)).bind fun _ => Tri.throw fun _ h => h
  refine Tri.bind (mid := fun _ => H c T true false) ?_ fun _ => ?_
  · unfold configNext
    split
    · exact Tri.pure fun _ h => h.1
    · rename_i d
      split
      · rename_i hb
        refine Tri.get fun t ht => ?_
        have hf : Fix c T true false true t.active t.pending t := ⟨ht.1.hb, ht.2.trans hb, rfl, rfl⟩
        refine Tri.bind (mid := fun _ => Fix c T true false true t.active t.pending) (Tri.onlyIf (fun _ => Tri.step ?_ Fix.stab) (fun _ => ?_)) fun _ => ?_
        · rintro _ rfl
          exact hf.roBypass _ _
        · rintro _ rfl
          exact hf
        · exact Tri.conseq (Tri.step (q := Fix c T true false true t.active t.pending) (fun u h => h.roBypass _ _) Fix.stab) (fun _ h => h) (fun _ s h => h.hb.h) (fun _ h => h)
      · exact Tri.step (fun t h => ⟨h.1.inv.dirty _, h.1.hld, h.1.bhd, h.1.ov⟩) H.stab
  split
  · exact Tri.pure fun _ h => h
  · refine Tri.step (fun t h => ?_) H.stab
    have k := h.inv
    exact ⟨⟨⟨k.tp.act, k.tp.pend, k.tp.preval, k.tp.fb⟩, k.mode, fun p q => ⟨(k.kf p q).rw, (k.kf p q).ro, (k.kf p q).ok⟩⟩, h.hld, h.bhd, h.ov⟩

theorem exec_ok (snd : Sound c) (x : Ev P) (hx : x.Genuine T) :
    Tri (RunsVerified c T) (H c T true false) (exec c e x) (fun _ => H c T true false) (H c T true false) := by
  cases x with
  | softReset => exact updateVerification_ok snd _ _ _
  | runTime => exact updateVerification_ok snd _ _ _
  | rollback d n => exact (flashRollback_ok (b := true) (hd := false) snd nofun nofun).conseq (fun _ h => h.hb) (fun _ _ h => h) (fun _ h => h.h)
  | recoverRw => exact recoverRw_ok
  | applyRecovery n => exact (applyRecovery_ok (b := true) (hd := false) nofun nofun).conseq (fun _ h => h.hb) (fun _ _ h => h) (fun _ h => h.h)
  | configRo a b x => exact configRo_ok _ _ _
  | pfmVerified p =>
    refine Tri.step (fun s h => ?_) H.stab
    have k := h.inv
    refine ⟨⟨⟨k.tp.act, ?_, (k.tp.pfmDirty true).preval, k.tp.fb⟩, k.mode, fun p q => ⟨(k.kf p q).rw, (k.kf p q).ro, (k.kf p q).ok⟩⟩, h.hld, h.bhd, h.ov⟩
    rintro x ⟨⟩
    exact hx
  | pfmCleared =>
    intro r hp hl
    refine (clearAll_q (act := r.st.active) (pnd := r.st.pending) (q := fun a p => Fix c T true false r.st.bypass a p) (fun _ _ => Fix.stab) ?_ (fun s h => ⟨h.act, h.pnd⟩)).conseq (fun _ h => h)
      (fun _ s h => h.hb.h) (by rintro s ⟨a, p, h⟩; exact h.hb.h) r ⟨hp.hb, rfl, rfl, rfl⟩ hl
    intro t a p h ha hp
    rw [← h.act] at ha
    rw [← h.pnd] at hp
    exact ⟨clear_h h.hb ha hp, h.bp, rfl, rfl⟩
  | pulseReset => exact (hold_h true).bind fun _ => hold_h false
  | idle => exact Tri.step (fun s h => h) H.stab

theorem session_ok {er : St P C → Prop} (snd : Sound c) (l : List (Ev P)) (hl : ∀ x ∈ l, x.Genuine T) :
    Tri (RunsVerified c T) (H c T true false) (session c e l) (fun _ => H c T true false) er := by
  induction l with
  | nil => exact Tri.pure fun _ h => h
  | cons x l ih =>
    exact (Tri.ignore (exec_ok snd x (hl x List.mem_cons_self))).bind fun _ => ih fun y hy => hl y (List.mem_cons_of_mem _ hy)

/-- Between boots. -/
structure Between (c : Cfg P C) (T : P → Prop) (s : St P C) : Prop where
  tp : TP c T s

/-- One boot, whatever the host does before it. -/
theorem boot_ok {er : St P C → Prop} (snd : Sound c) (allow : Bool) (l : List (Ev P)) (hl : ∀ x ∈ l, x.Genuine T) :
    Tri (RunsVerified c T) (fun s => TP c T s ∧ s.filter.mode = .dual) (boot c e allow l) (fun _ s => TP c T s) er := by
  unfold boot
  refine (Tri.step (q := Held c T) (fun s h => ⟨rfl, ⟨h.1.act, h.1.pend, h.1.preval, h.1.fb⟩, h.2⟩) Held.stab).bind fun _ => ?_
  refine (Tri.status (powerOn_ok snd allow)).bind fun x => ?_
  cases x with
  | some x => exact Tri.pure fun s h => h.h.inv.tp
  | none =>
    refine Tri.bind (mid := fun _ => H c T true false) (Tri.weaken (hold_h false) (fun s h => ⟨h.inv, nofun, nofun, h.ov⟩)) fun _ => ?_
    exact (session_ok snd l hl).conseq (fun _ h => h) (fun _ s h => h.inv.tp) (fun _ h => h)

theorem boots_ok {er : St P C → Prop} (snd : Sound c) (hf : c.fullBypass = false) (l : List (Bool × List (Ev P))) (hl : ∀ b ∈ l, ∀ x ∈ b.2, x.Genuine T) :
    Tri (RunsVerified c T) (TP c T) (boots c e l) (fun _ => TP c T) er := by
  induction l with
  | nil => exact Tri.pure fun _ h => h
  | cons x l ih =>
    refine Tri.bind (mid := fun _ => TP c T) (Tri.weaken (boot_ok snd x.1 x.2 (hl x List.mem_cons_self)) (fun s h => ⟨h, h.fb hf⟩)) fun _ => ?_
    exact ih fun y hy => hl y (List.mem_cons_of_mem _ hy)

end Verif.HostProc
