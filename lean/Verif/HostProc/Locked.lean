import Verif.HostProc.Inv
/-! Verification of the flash while the host does not run. -/
namespace Verif.HostProc
variable {P C : Type} {c : Cfg P C} {T : P → Prop} {e : Nat → Resp C} {b hd o bp : Bool} {act pnd : Option P}

/-- From the device `d`, good for the active PFM, to the protected state. -/
theorem Mid.almost {s : St P C} {p : P} {d : Cs} (h : Mid c T hd o act pnd p d s) (ha : ∀ x, act = some x → Mid c T hd o act pnd x d s)
    (hr : s.ro = d) (hf : s.filter.ro = d) : Almost c T hd o s := by
  refine ⟨h.off, h.tp, h.hld, h.ov, h.bp, h.mode, hf.trans hr.symm, fun a h1 => ?_⟩
  have := (ha a (h.act.symm.trans h1)).ok
  unfold Gd
  rw [hr]
  exact this

theorem swapOnce_mid {p : P} {d : Cs} {pend migrate : Bool} (hp : pend = true → pnd = some p) (ha : pend = false → act = some p) :
    Tri (RunsVerified c T) (fun s => Mid c T hd true act pnd p d s ∧ s.ro.other = d) (swapOnce e pend migrate) (fun _ => Almost c T hd true)
      (fun s => Mid c T hd true act pnd p d s ∧ s.ro.other = d) := by
  have st1 : Stab (RunsVerified c T) (fun s => Mid c T hd true act pnd p d s ∧ s.ro.other = d) := Mid.stab' (fun _ h => h)
  have st2 : Stab (RunsVerified c T) (fun s => Mid c T hd true act pnd p d s ∧ (s.ro.other = d ∧ s.filter.ro = d)) := Mid.stab' (fun _ h => h)
  have st3 : Stab (RunsVerified c T) (fun s => Mid c T hd true act pnd p d s ∧ (s.ro = d ∧ s.filter.ro = d)) := Mid.stab' (fun _ h => h)
  unfold swapOnce
  refine (Tri.call' (fun r s h => ⟨h.1.clearDirty, h.2⟩) st1).bind fun _ => Tri.get fun s0 h0 => ?_
  have hd0 := h0.2
  simp only [hd0]
  refine Tri.weaken (pre := fun s => Mid c T hd true act pnd p d s ∧ s.ro.other = d) ?_ (by rintro _ rfl; exact h0)
  refine (Tri.call (q := fun s => Mid c T hd true act pnd p d s ∧ (s.ro.other = d ∧ s.filter.ro = d))
    (fun r s h => ⟨h.1.setRoCs d, h.2, rfl⟩) (fun _ h => h) (fun r s h => ⟨h.1.setRoCs d, h.2⟩) st2 st1).bind fun _ => ?_
  refine (Tri.onlyIf (q := fun s => Mid c T hd true act pnd p d s ∧ (s.ro.other = d ∧ s.filter.ro = d))
    (fun _ => Tri.call (fun r s h => ⟨h.1.writeOther _, h.2⟩) (fun _ h => ⟨h.1, h.2.1⟩) (fun r s h => ⟨h.1.writeOther _, h.2.1⟩) st2 st1) (fun _ _ h => h)).bind fun _ => ?_
  refine (Tri.step (q := fun s => Mid c T hd true act pnd p d s ∧ (s.ro = d ∧ s.filter.ro = d)) ?_ st3).bind fun _ => ?_
  · intro s h
    refine ⟨(h.1.setDirty false).setNv d, ?_, h.2.2⟩
    show s.override.getD d = d
    rw [h.1.ov rfl]
    rfl
  cases pend with
  | true =>
    cases hp rfl
    refine (activate_mid (q := fun s => s.ro = d ∧ s.filter.ro = d) (fun _ h => h) (fun _ h => h) (fun _ h => h)).conseq (fun _ h => h) ?_ (fun _ h => h)
    rintro _ s ⟨⟨a, pn, h, h1⟩, h2, h3⟩
    exact h.almost h1 h2 h3
  | false =>
    cases ha rfl
    refine Tri.pure' ?_
    rintro s ⟨h, h1, h2⟩
    exact h.almost (by rintro x ⟨⟩; exact h) h1 h2

/-- Exchanging the devices after the read/write flash was verified with `p`. -/
theorem swapFlash_ok {er : St P C → Prop} {p : P} {d : Cs} {pend migrate : Bool} (hp : pend = true → pnd = some p) (ha : pend = false → act = some p) :
    Tri (RunsVerified c T) (RwOk c T b hd false act pnd p d) (swapFlash c e pend migrate) (fun _ => Done c T hd true) er := by
  unfold swapFlash
  refine (Tri.weaken (Tri.forever (swapOnce_mid (hd := hd) (p := p) (d := d) hp ha) _) ?_).bind fun _ => ?_
  · intro s h
    have hT : T p := by
      cases pend with
      | true => exact h.base.inv.tp.pend p (h.base.pnd.trans (hp rfl))
      | false => exact h.base.inv.tp.act p (h.base.act.trans (ha rfl))
    exact ⟨⟨h.base.off, h.base.inv.tp, h.base.hld, h.base.ov, h.base.bp, h.base.inv.mode h.base.bp, h.base.act, h.base.pnd, .inr ⟨p, hT, h.ok, fun _ => rfl⟩⟩, h.dev⟩
  refine configRw_almost.bind fun _ => Tri.step ?_ Done.stab
  intro s h
  exact ⟨h.off, ⟨⟨h.inv.tp.act, h.inv.tp.pend, rfl, h.inv.tp.fb⟩, h.inv.mode, fun x y => ⟨(h.inv.kf x y).rw, (h.inv.kf x y).ro, (h.inv.kf x y).ok⟩⟩, h.hld, h.ov⟩

/-! ### Setting up the protection -/

/-- Without the mode and with the device. -/
structure Pre (c : Cfg P C) (T : P → Prop) (hd o : Bool) (act pnd : Option P) (p : P) (d : Cs) (s : St P C) : Prop where
  off : Off s
  tp : TP c T s
  hld : hd = true → s.held = true
  ov : o = true → s.override = none
  ro : s.ro = d
  act : s.active = act
  pnd : s.pending = pnd
  ok : s.recov d = true ∨ ∃ q, T q ∧ c.passes q false (s.flash d) = true ∧ (s.lapse = false → q = p)

theorem Pre.setDirty {s : St P C} {p : P} {d : Cs} (h : Pre c T hd o act pnd p d s) (x : Bool) : Pre c T hd o act pnd p d (s.setDirty x) :=
  ⟨h.off, h.tp.dirty' x, h.hld, h.ov, h.ro, h.act, h.pnd, h.ok⟩

theorem Pre.filter {s : St P C} {p : P} {d : Cs} (h : Pre c T hd o act pnd p d s) (f : Filter) (hf : c.fullBypass = false → f.mode = .dual) :
    Pre c T hd o act pnd p d { s with filter := f } :=
  ⟨h.off, ⟨h.tp.act, h.tp.pend, h.tp.preval, hf⟩, h.hld, h.ov, h.ro, h.act, h.pnd, h.ok⟩

theorem Pre.write {s : St P C} {p : P} {d : Cs} (h : Pre c T hd o act pnd p d s) (x : C) : Pre c T hd o act pnd p d (s.write s.ro.other x) := by
  refine ⟨h.off, ⟨h.tp.act, h.tp.pend, h.tp.preval, h.tp.fb⟩, h.hld, h.ov, h.ro, h.act, h.pnd, ?_⟩
  rcases h.ok with h1 | ⟨q, h1, h2, h3⟩
  · exact .inl h1
  · refine .inr ⟨q, h1, ?_, h3⟩
    show c.passes q false (if d = s.ro.other then x else s.flash d) = true
    rw [h.ro, if_neg (Cs.other_ne _)]
    exact h2

theorem initProtection_pre {er : St P C → Prop} {p : P} {d : Cs} :
    Tri (RunsVerified c T) (Pre c T hd o act pnd p d) (initProtection c e)
      (fun _ s => Mid c T hd o act pnd p d s ∧ (s.ro = d ∧ s.filter.ro = d)) er := by
  have st0 : Stab (RunsVerified c T) (Pre c T hd o act pnd p d) := Stab.off (fun _ h => h.off) (fun _ h => h.setDirty true)
  have st1 : Stab (RunsVerified c T) (fun s => Pre c T hd o act pnd p d s ∧ s.filter.mode = .dual) :=
    Stab.off (fun _ h => h.1.off) (fun _ h => ⟨h.1.setDirty true, h.2⟩)
  have st2 : Stab (RunsVerified c T) (fun s => Pre c T hd o act pnd p d s ∧ s.filter.mode = .dual ∧ s.filter.ro = d) :=
    Stab.off (fun _ h => h.1.off) (fun _ h => ⟨h.1.setDirty true, h.2⟩)
  have st3 : Stab (RunsVerified c T) (fun s => Mid c T hd o act pnd p d s ∧ (s.ro = d ∧ s.filter.ro = d)) := Mid.stab' (fun _ h => h)
  unfold initProtection
  refine (Tri.forever (q := fun s => Pre c T hd o act pnd p d s ∧ s.filter.mode = .dual ∧ s.filter.ro = d) ?_ _).bind fun _ => ?_
  · unfold initProtectionOnce
    refine (Tri.probe st0).bind fun _ => ?_
    refine (Tri.call' (fun r s h => h.write _) st0).bind fun _ => ?_
    refine (Tri.call' (fun r s h => h.filter _ h.tp.fb) st0).bind fun _ => ?_
    refine (Tri.step (fun s h => h.setDirty false) st0).bind fun _ => ?_
    refine (Tri.probe st0).bind fun _ => ?_
    refine (Tri.call (q := fun s => Pre c T hd o act pnd p d s ∧ s.filter.mode = .dual) (fun r s h => ⟨h.filter _ (fun _ => rfl), rfl⟩) (fun _ h => h)
      (fun r s h => h.filter _ (fun _ => rfl)) st1 st0).bind fun _ => ?_
    exact Tri.call (fun r s h => ⟨h.1.filter _ h.1.tp.fb, h.2, h.1.ro⟩) (fun _ h => h.1) (fun r s h => h.1.filter _ h.1.tp.fb) st2 st0
  · refine Tri.step ?_ st3
    rintro s ⟨h, h1, h2⟩
    exact ⟨⟨h.off, ⟨h.tp.act, h.tp.pend, h.tp.preval, h.tp.fb⟩, h.hld, h.ov, rfl, h1, h.act, h.pnd, h.ok⟩, h.ro, h2⟩

/-! ### `validate_flash` -/

/-- The arguments that are used. -/
structure ArgsOk (b o bp : Bool) (act pnd : Option P) (a : Args P) : Prop where
  apply : a.apply = true
  notValidated : a.isValidated = false
  bypass : a.isBypass = false → bp = false ∧ o = true
  pend : a.isPending = true → pnd = some a.pfm
  cur : a.isPending = false → act = some a.pfm
  good : ∀ g, a.active = some g → act = some g ∧ a.isBypass = false ∧ b = true
  skip : a.skipRoConfig = true → a.isBypass = true ∨ b = true

theorem ArgsOk.genuine {s : St P C} {a : Args P} (h : ArgsOk b o bp act pnd a) (hs : Base c T b hd o bp act pnd s) : T a.pfm := by
  cases hi : a.isPending with
  | true => exact hs.inv.tp.pend _ (hs.pnd.trans (h.pend hi))
  | false => exact hs.inv.tp.act _ (hs.act.trans (h.cur hi))

/-- The read-only flash was verified. -/
structure RoOk (c : Cfg P C) (T : P → Prop) (b hd o bp : Bool) (act pnd : Option P) (p : P) (s : St P C) : Prop where
  base : Base c T false hd o bp act pnd s
  ro : b = true → bp = false → s.filter.ro = s.ro
  ok : Gd c T p s

theorem RoOk.stab {p : P} : Stab (RunsVerified c T) (RoOk c T b hd o bp act pnd p) :=
  Stab.off (fun _ h => h.base.off) (fun _ h => ⟨h.base.dirty true, h.ro, h.ok⟩)

theorem Base.weaken {s : St P C} (h : Base c T b hd o bp act pnd s) : Base c T false hd o bp act pnd s :=
  ⟨h.off, ⟨h.inv.tp, h.inv.mode, nofun⟩, h.hld, h.ov, h.bp, h.act, h.pnd⟩

theorem validateRo_base {a : Args P} (snd : Sound c) (h : ArgsOk b o bp act pnd a) :
    Tri (RunsVerified c T) (Base c T b hd o bp act pnd) (validateRo c e a.pfm a.active a.isBypass) (fun _ => RoOk c T b hd o bp act pnd a.pfm)
      (Base c T b hd o bp act pnd) := by
  have plain : ∀ full, Tri (RunsVerified c T) (Base c T b hd o bp act pnd)
      (verify e (fun s => c.passes a.pfm full (s.flash s.ro)) fun s => { s with recov := fun d => if d = s.ro then false else s.recov d })
      (fun _ => RoOk c T b hd o bp act pnd a.pfm) (Base c T b hd o bp act pnd) := by
    intro full
    unfold verify
    refine (Tri.probe Base.stab).bind fun _ => Tri.get fun s hs => ?_
    split
    · rename_i hp
      refine Tri.step ?_ RoOk.stab
      intro t ht
      subst ht
      have hp' : c.passes a.pfm false (t.flash t.ro) = true := by
        cases full
        · exact hp
        · exact snd.full _ _ hp
      exact ⟨⟨hs.off, ⟨⟨hs.inv.tp.act, hs.inv.tp.pend, hs.inv.tp.preval, hs.inv.tp.fb⟩, hs.inv.mode, nofun⟩, hs.hld, hs.ov, hs.bp, hs.act, hs.pnd⟩,
        fun x y => (hs.inv.kf x (hs.bp.trans y)).ro, .inr ⟨a.pfm, h.genuine hs, hp', fun _ => rfl⟩⟩
    · refine Tri.throw ?_
      rintro _ rfl
      exact hs
  unfold validateRo
  split
  · rename_i g h1 h2
    obtain ⟨hg, hb, hbb⟩ := h.good g h1
    have hbp := (h.bypass hb).1
    unfold verify
    refine (Tri.probe Base.stab).bind fun _ => Tri.get fun s hs => ?_
    split
    · rename_i hq
      refine Tri.step ?_ RoOk.stab
      intro t ht
      subst ht
      have k := hs.inv.kf hbb (hs.bp.trans hbp)
      refine ⟨hs.weaken, fun _ _ => k.ro, ?_⟩
      rcases k.ok g (hs.act.trans hg) with h3 | ⟨q, h3, h4, h5⟩
      · exact .inl h3
      · cases hl : t.lapse with
        | true => exact .inr ⟨q, h3, h4, fun hh => absurd (hl.symm.trans hh) (by simp)⟩
        | false =>
          cases h5 hl
          exact .inr ⟨a.pfm, h.genuine hs, snd.quick _ _ _ hq h4, fun _ => rfl⟩
    · refine Tri.throw ?_
      rintro _ rfl
      exact hs
  · exact plain _

/-- `Base` without the protected state, with a good read-only flash. -/
structure Good (c : Cfg P C) (T : P → Prop) (hd o : Bool) (act pnd : Option P) (p : P) (d : Cs) (s : St P C) : Prop where
  mid : Mid c T hd o act pnd p d s
  ro : s.ro = d

theorem Good.setDirty {s : St P C} {p : P} {d : Cs} (h : Good c T hd o act pnd p d s) (x : Bool) : Good c T hd o act pnd p d (s.setDirty x) :=
  ⟨h.mid.setDirty x, h.ro⟩

theorem restoreRw_good {p : P} {d : Cs} (find f : Bool) :
    Tri (RunsVerified c T) (fun s => Good c T hd o act pnd p d s ∧ (f = true → s.filter.ro = d)) (restoreRw e find)
      (fun _ s => Good c T hd o act pnd p d s ∧ (f = true → s.filter.ro = d)) (fun s => Good c T hd o act pnd p d s ∧ (f = true → s.filter.ro = d)) := by
  have st : Stab (RunsVerified c T) (fun s => Good c T hd o act pnd p d s ∧ (f = true → s.filter.ro = d)) :=
    Stab.off (fun _ h => h.1.mid.off) (fun _ h => ⟨h.1.setDirty true, h.2⟩)
  unfold restoreRw
  refine (Tri.onlyIf (q := fun s => Good c T hd o act pnd p d s ∧ (f = true → s.filter.ro = d)) (fun _ => Tri.probe st) (fun _ _ h => h)).bind fun _ => Tri.retry ?_ _
  unfold restoreOnce
  refine (Tri.step (fun s h => ?_) st).bind fun _ => Tri.call' (fun r s h => ?_) st
  · have m := h.1.mid
    exact ⟨⟨⟨m.off, ⟨m.tp.act, m.tp.pend, rfl, m.tp.fb⟩, m.hld, m.ov, m.bp, m.mode, m.act, m.pnd, m.ok⟩, h.1.ro⟩, h.2⟩
  · have h1 := h.1.ro
    refine ⟨⟨?_, h.1.ro⟩, h.2⟩
    rw [h1]
    exact h.1.mid.writeOther _

theorem roGood_ok {er : St P C → Prop} {a : Args P} (h : ArgsOk b o bp act pnd a) (out : RwOut) :
    Tri (RunsVerified c T) (RoOk c T b hd o bp act pnd a.pfm) (roGood c e a out) (fun _ => Done c T hd o) er := by
  intro r0 hr0 hl0
  refine Tri.weaken (pre := fun s => RoOk c T b hd o bp act pnd a.pfm s ∧ s.ro = r0.st.ro) ?_ (fun _ h => h) r0 ⟨hr0, rfl⟩ hl0
  generalize r0.st.ro = d
  clear hr0 hl0 r0
  unfold roGood
  have st1 : Stab (RunsVerified c T) (fun s => Good c T hd o act pnd a.pfm d s ∧ ((a.isBypass || b) = true → s.filter.ro = d)) :=
    Stab.off (fun _ h => h.1.mid.off) (fun _ h => ⟨h.1.setDirty true, h.2⟩)
  refine (Tri.onlyIf (q := fun s => Good c T hd o act pnd a.pfm d s ∧ ((a.isBypass || b) = true → s.filter.ro = d)) ?_ ?_).bind fun _ => ?_
  · intro hb
    refine (initProtection_pre (hd := hd) (o := o) (act := act) (pnd := pnd) (p := a.pfm) (d := d)).conseq ?_ ?_ (fun _ h => h)
    · rintro s ⟨h1, h2⟩
      have := h1.ok
      unfold Gd at this
      rw [h2] at this
      exact ⟨h1.base.off, h1.base.inv.tp, h1.base.hld, h1.base.ov, h2, h1.base.act, h1.base.pnd, this⟩
    · rintro _ s ⟨h1, h2, h3⟩
      exact ⟨⟨h1, h2⟩, fun _ => h3⟩
  · rintro hb s ⟨h1, h2⟩
    have hbp := (h.bypass hb).1
    have := h1.ok
    unfold Gd at this
    rw [h2] at this
    have hb1 := h1.base.bp.trans hbp
    refine ⟨⟨⟨h1.base.off, h1.base.inv.tp, h1.base.hld, h1.base.ov, hb1, h1.base.inv.mode hb1, h1.base.act, h1.base.pnd, this⟩, h2⟩, fun hh => ?_⟩
    rw [hb] at hh
    exact (h1.ro hh hbp).trans h2
  refine (Tri.onlyIf (q := fun s => Good c T hd o act pnd a.pfm d s ∧ ((a.isBypass || b) = true → s.filter.ro = d))
    (fun _ => Tri.ignore (restoreRw_good false _)) (fun _ _ h => h)).bind fun _ => ?_
  refine (Tri.onlyIf (q := fun s => (∃ x pn, Good c T hd o x pn a.pfm d s ∧ ∀ y, x = some y → Good c T hd o x pn y d s) ∧ ((a.isBypass || b) = true → s.filter.ro = d))
    ?_ ?_).bind fun _ => ?_
  · intro hp
    cases h.pend hp
    refine (activate_mid (q := fun s => s.ro = d ∧ ((a.isBypass || b) = true → s.filter.ro = d)) (fun _ h => h) (d := d) (fun _ h => h) (fun _ h => h)).conseq
      (fun s h => ⟨h.1.mid, h.1.ro, h.2⟩) ?_ (fun _ h => h)
    rintro _ s ⟨⟨x, pn, h1, h2⟩, h3, h4⟩
    exact ⟨⟨x, pn, ⟨h1, h3⟩, fun y hy => ⟨h2 y hy, h3⟩⟩, h4⟩
  · rintro hp s ⟨h1, h2⟩
    cases h.cur hp
    exact ⟨⟨_, _, h1, by rintro y ⟨⟩; exact h1⟩, h2⟩
  have st2 : Stab (RunsVerified c T)
      (fun s => (∃ x pn, Good c T hd o x pn a.pfm d s ∧ ∀ y, x = some y → Good c T hd o x pn y d s) ∧ ((a.isBypass || b) = true → s.filter.ro = d)) := by
    refine Stab.off ?_ ?_
    · rintro s ⟨⟨x, pn, h1, _⟩, _⟩
      exact h1.mid.off
    · rintro s ⟨⟨x, pn, h1, h2⟩, h3⟩
      exact ⟨⟨x, pn, h1.setDirty true, fun y hy => (h2 y hy).setDirty true⟩, h3⟩
  refine (Tri.onlyIf (q := Almost c T hd o) ?_ ?_).bind fun _ => ?_
  · intro hc
    unfold configFlash
    refine Tri.forever (Tri.call ?_ (fun _ h => h) ?_ Almost.stab st2) _
    · rintro r s ⟨⟨x, pn, h1, h2⟩, h3⟩
      exact Mid.almost (h1.mid.setRoCs _) (fun y hy => ((h2 y hy).mid.setRoCs _)) h1.ro h1.ro
    · rintro r s ⟨⟨x, pn, h1, h2⟩, h3⟩
      exact ⟨⟨x, pn, ⟨h1.mid.setRoCs _, h1.ro⟩, fun y hy => ⟨(h2 y hy).mid.setRoCs _, h1.ro⟩⟩, fun _ => h1.ro⟩
  · rintro hc s ⟨⟨x, pn, h1, h2⟩, h3⟩
    refine Mid.almost h1.mid (fun y hy => (h2 y hy).mid) h1.ro (h3 ?_)
    rw [h.apply] at hc
    simp only [Bool.true_and, Bool.and_eq_false_iff, Bool.not_eq_false'] at hc
    rcases hc with hc | hc
    · simp [hc]
    · rcases h.skip hc with h4 | h4 <;> simp [h4]
  rw [h.apply]
  exact configRw_almost

theorem rwBad_base {er : St P C → Prop} {a : Args P} (x : Err) :
    Tri (RunsVerified c T) (Base c T b hd o bp act pnd) (rwBad e a x)
      (fun out s => Base c T b hd o bp act pnd s ∧ out.exit = false ∧ out.status = some x) er := by
  unfold rwBad
  refine (Tri.onlyIf (q := Base c T b hd o bp act pnd) (fun _ => Tri.ignore (restoreRw_base true)) (fun _ _ h => h)).bind fun _ => ?_
  refine (Tri.onlyIf (q := Base c T b hd o bp act pnd) (fun _ => Tri.step (fun s h => h.pfmDirty true) Base.stab) (fun _ _ h => h)).bind fun _ => ?_
  exact Tri.pure (fun s h => ⟨h, rfl, rfl⟩)

theorem rwPart_ok {er : St P C → Prop} {a : Args P} (snd : Sound c) (h : ArgsOk b o bp act pnd a) :
    Tri (RunsVerified c T) (Base c T b hd o bp act pnd) (rwPart c e a)
      (fun out s => out.exit = false ∧ (match out.status with | none => Done c T hd o s | some _ => Base c T b hd o bp act pnd s)) er := by
  unfold rwPart
  refine Tri.get fun s hs => ?_
  split
  · rename_i hc
    have hb : a.isBypass = false := by
      cases hh : a.isBypass
      · rfl
      · simp [hh] at hc
    obtain ⟨hbp, ho⟩ := h.bypass hb
    cases hbp; cases ho
    refine Tri.bind (mid := fun x t => match x with | none => RwOk c T b hd false act pnd a.pfm s.ro.other t | some _ => Base c T b hd true false act pnd t)
      (Tri.status ?_) fun x => ?_
    · unfold rwCheck
      rw [h.notValidated]
      simp only [Bool.false_eq_true, if_false]
      refine (Tri.step (q := fun t => Base c T b hd true false act pnd t ∧ t.ro.other = s.ro.other) ?_ ?_).bind fun _ => validateRw_base snd _ _
      · rintro _ rfl
        exact ⟨hs.preval, rfl⟩
      · exact Stab.off (fun _ h => h.1.off) (fun _ h => ⟨h.1.dirty true, h.2⟩)
    · cases x with
      | none =>
        simp only
        unfold rwGood
        rw [h.apply]
        simp only [if_true]
        refine (swapFlash_ok h.pend h.cur).bind fun _ => Tri.pure fun s hs => ⟨rfl, hs⟩
      | some x =>
        refine (rwBad_base x).conseq (fun _ h => h) ?_ (fun _ h => h)
        rintro out s ⟨h1, h2, h3⟩
        rw [h3]
        exact ⟨h2, h1⟩
  · refine Tri.pure ?_
    rintro _ rfl
    exact ⟨rfl, hs⟩

/-- A flash verification: after a success the protected state is established, after a failure nothing has changed. -/
theorem validateFlash_ok {er : St P C → Prop} {a : Args P} (snd : Sound c) (h : ArgsOk b o bp act pnd a) :
    Tri (RunsVerified c T) (Base c T b hd o bp act pnd) (validateFlash c e a)
      (fun st s => match st with | none => Done c T hd o s | some _ => Base c T b hd o bp act pnd s) er := by
  unfold validateFlash
  refine Tri.get fun s0 hs0 => ?_
  refine Tri.bind ((rwPart_ok (er := er) snd h).weaken (by rintro _ rfl; exact hs0)) fun out => ?_
  by_cases hx : out.exit = true
  · rw [if_pos hx]
    refine Tri.pure fun s hs => ?_
    exfalso
    rw [hx] at hs
    split at hs <;> simp at hs
  rw [if_neg hx]
  refine Tri.bind (mid := fun st s => match st with | none => Done c T hd o s | some _ => Base c T b hd o bp act pnd s) ?_ fun st => ?_
  · unfold roPart
    by_cases hc : (!a.skipRo && out.status.isSome && (!a.isPending || a.isBypass || s0.pfmDirty)) = true
    · rw [if_pos hc]
      have hn : ∃ x, out.status = some x := by
        cases hh : out.status with
        | none => simp [hh] at hc
        | some x => exact ⟨x, rfl⟩
      obtain ⟨x, hx⟩ := hn
      simp only [hx]
      refine Tri.bind ((Tri.status (validateRo_base snd h)).weaken (fun s hs => hs.2)) fun y => ?_
      cases y with
      | none => exact (roGood_ok h out).bind fun _ => Tri.pure fun s hs => hs
      | some y =>
        refine (Tri.onlyIf (q := Base c T b hd o bp act pnd) (fun _ => Tri.step (fun s h => h.pfmDirty false) Base.stab) (fun _ _ h => h)).bind fun _ => ?_
        exact Tri.pure fun s hs => hs
    · rw [if_neg hc]
      exact Tri.pure fun s hs => hs.2
  · have fin : ∀ q : St P C → Prop, Stab (RunsVerified c T) q → (∀ s, q s → q s.clearDirty) → (∀ s d, q s → q (s.setDirty d)) →
        Tri (RunsVerified c T) q (dirtyPart e a out st) (fun _ => q) er := by
      intro q hq h1 h2
      unfold dirtyPart
      refine Tri.onlyIf (fun _ => Tri.ignore ?_) (fun _ _ h => h)
      exact (Tri.call' (fun r s h => h1 s h) hq).bind fun _ => Tri.step (fun s h => h2 s _ h) hq
    cases st with
    | none => exact (fin _ Done.stab (fun _ h => h.clearDirty) (fun _ d h => h.dirty d)).bind fun _ => Tri.pure fun s hs => hs
    | some x => exact (fin _ Base.stab (fun _ h => h.clearDirty) (fun _ d h => h.dirty d)).bind fun _ => Tri.pure fun s hs => hs

/-! ### Bypass mode -/

/-- Whatever the filter is, the host does not run. -/
structure Any (c : Cfg P C) (T : P → Prop) (hd : Bool) (s : St P C) : Prop where
  off : Off s
  tp : TP c T s
  hld : hd = true → s.held = true

theorem Any.stab : Stab (RunsVerified c T) (Any c T hd) := Stab.off (fun _ h => h.off) (fun _ h => ⟨h.off, h.tp.dirty, h.hld⟩)

theorem Base.any {s : St P C} (h : Base c T b hd o bp act pnd s) : Any c T hd s := ⟨h.off, h.inv.tp, h.hld⟩

theorem Any.filter {s : St P C} (h : Any c T hd s) (f : Filter) (hf : c.fullBypass = false → f.mode = .dual) : Any c T hd { s with filter := f } :=
  ⟨h.off, ⟨h.tp.act, h.tp.pend, h.tp.preval, hf⟩, h.hld⟩

theorem configBypass_any {er : St P C → Prop} :
    Tri (RunsVerified c T) (Any c T hd) (configBypass c e) (fun _ s => Done c T hd false s ∧ s.bypass = true) er := by
  unfold configBypass
  refine (Tri.forever (q := Any c T hd) ?_ _).bind fun _ => ?_
  · unfold enableBypass
    split
    · rename_i hf
      refine Tri.call' (fun r s h => h.filter _ (fun h => absurd (hf.symm.trans h) (by simp))) Any.stab
    · refine (Tri.call' (fun r s h => h.filter _ h.tp.fb) Any.stab).bind fun _ => ?_
      refine (Tri.call' (fun r s h => h.filter _ h.tp.fb) Any.stab).bind fun _ => ?_
      exact Tri.call' (fun r s h => h.filter _ h.tp.fb) Any.stab
  · refine Tri.step ?_ (Stab.off (fun _ h => h.1.off) (fun _ h => ⟨h.1.dirty true, h.2⟩))
    intro s h
    exact ⟨⟨h.off, ⟨⟨h.tp.act, h.tp.pend, h.tp.preval, h.tp.fb⟩, nofun, fun _ => nofun⟩, h.hld, nofun⟩, rfl⟩

end Verif.HostProc
