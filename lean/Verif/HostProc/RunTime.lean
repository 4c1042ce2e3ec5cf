import Verif.HostProc.Ops
/-! Run-time verification when new firmware is only applied at resets. -/
namespace Verif.HostProc
variable {P C : Type} {c : Cfg P C} {e : Nat → Resp C} {d : Cs}

theorem interfere_nv (r : Resp C) (s : St P C) : (interfere r s).nvRo = s.nvRo ∧ (interfere r s).events = s.events := by
  have hw : ∀ u : St P C, (hostWrite r.junk u).nvRo = u.nvRo ∧ (hostWrite r.junk u).events = u.events := by
    intro u
    unfold hostWrite
    split <;> exact ⟨rfl, rfl⟩
  unfold interfere
  cases r.irq <;> simp only [Bool.false_eq_true, if_false, if_true]
  · split
    · exact hw s
    · exact ⟨rfl, rfl⟩
  · split
    · exact hw (s.setDirty true)
    · exact ⟨rfl, rfl⟩

/-- The saved read-only flash, the override and the setting for activation. -/
structure Nv (d : Cs) (o : Option Cs) (v : Events) (s : St P C) : Prop where
  nv : s.nvRo = d
  ov : s.override = o
  ev : s.events = v

variable {o : Option Cs} {v : Events} {er : St P C → Prop}

theorem Nv.stab : Stab (fun _ : St P C => True) (Nv d o v) := fun s h => ⟨trivial, fun r =>
  ⟨(interfere_nv r s).1.trans h.nv, (interfere_frame r s).2.2.trans h.ov, (interfere_nv r s).2.trans h.ev⟩⟩

/-- A step that does not concern them. -/
macro "nvs" : tactic => `(tactic| exact Tri.step (fun _ h => ⟨h.nv, h.ov, h.ev⟩) Nv.stab)
/-- A call that does not concern them. -/
macro "nvc" : tactic => `(tactic| exact Tri.call' (fun _ _ h => ⟨h.nv, h.ov, h.ev⟩) Nv.stab)

theorem activate_nv : Tri (fun _ => True) (Nv d o v) (activate e : M P C Unit) (fun _ => Nv d o v) er := by
  intro r hp _
  refine ⟨fun _ _ => trivial, ?_⟩
  unfold activate
  simp only
  refine (Nv.stab _ ?_).2 _
  split <;> exact ⟨hp.nv, hp.ov, hp.ev⟩

theorem verify_nv {ok : St P C → Bool} {f : St P C → St P C} (hf : ∀ s, Nv d o v s → Nv d o v (f s)) :
    Tri (fun _ => True) (Nv d o v) (verify e ok f) (fun _ => Nv d o v) (Nv d o v) := by
  unfold verify
  refine (Tri.probe Nv.stab).bind fun _ => Tri.get fun s h => ?_
  refine Tri.weaken (pre := Nv d o v) ?_ (by rintro _ rfl; exact h)
  split
  · exact Tri.step hf Nv.stab
  · exact Tri.throw fun _ h => h

theorem restoreRw_nv (f : Bool) : Tri (fun _ => True) (Nv d o v) (restoreRw e f : M P C Unit) (fun _ => Nv d o v) (Nv d o v) := by
  unfold restoreRw
  refine (Tri.onlyIf (fun _ => Tri.probe Nv.stab) (fun _ _ h => h)).bind fun _ => Tri.retry ?_ _
  unfold restoreOnce
  refine Tri.bind (mid := fun _ => Nv d o v) (by nvs) fun _ => by nvc

theorem configRw_nv : Tri (fun _ => True) (Nv d o v) (configRw c e) (fun _ => Nv d o v) er := by
  unfold configRw
  refine Tri.forever ?_ _
  unfold configRwOnce
  refine Tri.bind (mid := fun _ => Nv d o v) (by nvc) fun _ => ?_
  refine (Tri.status (Tri.probe Nv.stab)).bind fun y => ?_
  cases y with
  | none => exact Tri.pure fun _ h => h
  | some y =>
    simp only
    split
    · exact Tri.pure fun _ h => h
    · exact Tri.throw fun _ h => h

theorem initProtection_nv : Tri (fun _ => True) (Nv d o v) (initProtection c e) (fun _ => Nv d o v) er := by
  unfold initProtection
  refine Tri.bind (mid := fun _ => Nv d o v) (Tri.forever ?_ _) fun _ => by nvs
  unfold initProtectionOnce
  refine (Tri.probe Nv.stab).bind fun _ => ?_
  refine Tri.bind (mid := fun _ => Nv d o v) (by nvc) fun _ => ?_
  refine Tri.bind (mid := fun _ => Nv d o v) (by nvc) fun _ => ?_
  refine Tri.bind (mid := fun _ => Nv d o v) (by nvs) fun _ => ?_
  refine (Tri.probe Nv.stab).bind fun _ => ?_
  refine Tri.bind (mid := fun _ => Nv d o v) (by nvc) fun _ => by nvc

theorem configFlash_nv : Tri (fun _ => True) (Nv d o v) (configFlash c e) (fun _ => Nv d o v) er := by
  unfold configFlash
  exact Tri.forever (by nvc) _

theorem configBypass_nv : Tri (fun _ => True) (Nv d o v) (configBypass c e) (fun _ => Nv d o v) er := by
  unfold configBypass
  refine Tri.bind (mid := fun _ => Nv d o v) (Tri.forever ?_ _) fun _ => by nvs
  unfold enableBypass
  split
  · nvc
  · refine Tri.bind (mid := fun _ => Nv d o v) (by nvc) fun _ => ?_
    exact Tri.bind (mid := fun _ => Nv d o v) (by nvc) fun _ => by nvc

theorem hostAccess_nv : Tri (fun _ => True) (Nv d o v) (hostAccess c e) (fun _ => Nv d o v) er := by
  unfold hostAccess
  refine Tri.forever ?_ _
  exact Tri.bind (mid := fun _ => Nv d o v) (by nvc) fun _ => by nvc

theorem rotAccess_nv : Tri (fun _ => True) (Nv d o v) (rotAccess e : M P C Unit) (fun _ => Nv d o v) (Nv d o v) := by
  unfold rotAccess
  refine Tri.bind (mid := fun _ => Nv d o v) (by nvc) fun _ => ?_
  exact Tri.bind (mid := fun _ => Nv d o v) (by nvc) fun _ => Tri.probe Nv.stab

theorem hold_nv (x : Bool) : Tri (fun _ => True) (Nv d o v) (hold e x : M P C Unit) (fun _ => Nv d o v) er := by
  unfold hold
  nvs

theorem validateRo_nv (p : P) (g : Option P) (f : Bool) : Tri (fun _ => True) (Nv d o v) (validateRo c e p g f) (fun _ => Nv d o v) (Nv d o v) := by
  unfold validateRo
  split
  · exact verify_nv fun _ h => h
  · exact verify_nv fun _ h => ⟨h.nv, h.ov, h.ev⟩

/-- Without a check of the read/write flash. -/
theorem validateFlash_nv (a : Args P) (hs : a.skipRw = true) : Tri (fun _ => True) (Nv d o v) (validateFlash c e a) (fun _ => Nv d o v) er := by
  unfold validateFlash
  refine Tri.get fun s h => ?_
  refine Tri.weaken (pre := Nv d o v) ?_ (by rintro _ rfl; exact h)
  refine Tri.bind (mid := fun _ => Nv d o v) ?_ fun out => ?_
  · unfold rwPart
    refine Tri.get fun s h => ?_
    simp only [hs, Bool.not_true, Bool.false_and, Bool.false_eq_true, if_false]
    exact Tri.pure (by rintro _ rfl; exact h)
  split
  · exact Tri.pure fun _ h => h
  refine Tri.bind (mid := fun _ => Nv d o v) ?_ fun st => ?_
  · unfold roPart
    split
    · refine ((Tri.status (validateRo_nv _ _ _)).conseq (fun _ h => h) (ok' := fun _ => Nv d o v) (fun x s h => by cases x <;> exact h) (fun _ h => h)).bind fun y => ?_
      cases y with
      | none =>
        refine Tri.bind (mid := fun _ => Nv d o v) ?_ fun _ => Tri.pure fun _ h => h
        unfold roGood
        refine (Tri.onlyIf (fun _ => initProtection_nv) (fun _ _ h => h)).bind fun _ => ?_
        refine (Tri.onlyIf (fun _ => Tri.ignore (restoreRw_nv _)) (fun _ _ h => h)).bind fun _ => ?_
        refine (Tri.onlyIf (fun _ => activate_nv) (fun _ _ h => h)).bind fun _ => ?_
        refine (Tri.onlyIf (fun _ => configFlash_nv) (fun _ _ h => h)).bind fun _ => ?_
        exact Tri.onlyIf (fun _ => configRw_nv) (fun _ _ h => h)
      | some y =>
        exact Tri.bind (mid := fun _ => Nv d o v) (Tri.onlyIf (fun _ => by nvs) (fun _ _ h => h)) fun _ => Tri.pure fun _ h => h
    · exact Tri.pure fun _ h => h
  · refine Tri.bind (mid := fun _ => Nv d o v) ?_ fun _ => Tri.pure fun _ h => h
    unfold dirtyPart
    refine Tri.onlyIf (fun _ => Tri.ignore ?_) (fun _ _ h => h)
    exact Tri.bind (mid := fun _ => Nv d o v) (by nvc) fun _ => by nvs

theorem noPfm_nv (go : Bool) : Tri (fun _ => True) (Nv d o v) (noPfm c e go) (fun _ => Nv d o v) er := by
  unfold noPfm
  refine Tri.bind (mid := fun _ => Nv d o v) (Tri.ignore (by nvc)) fun _ => ?_
  refine Tri.bind (mid := fun _ => Nv d o v) (by nvs) fun _ => ?_
  exact Tri.onlyIf (fun _ => configBypass_nv) (fun _ _ h => h)

theorem updVerify_nv (u : Upd P) (hu : u.ignoreDirty = true) : Tri (fun _ => True) (Nv d o v) (updVerify c e u) (fun _ => Nv d o v) er := by
  unfold updVerify
  split
  · exact Tri.pure fun _ h => h
  refine Tri.get fun s h => ?_
  refine Tri.weaken (pre := Nv d o v) ?_ (by rintro _ rfl; exact h)
  generalize (if u.bypass then Preval.none else s.preval) = ck
  refine Tri.bind (mid := fun _ => Nv d o v) (by nvs) fun _ => ?_
  refine Tri.bind (mid := fun _ => Nv d o v) ?_ fun st => ?_
  · unfold updPending
    generalize (if u.bypass then none else u.active) = act
    split
    · exact Tri.bind (mid := fun _ => Nv d o v) (Tri.onlyIf (fun _ => by nvs) (fun _ _ h => h)) fun _ => Tri.pure fun _ h => h
    · refine Tri.get fun s h => ?_
      refine Tri.weaken (pre := Nv d o v) ?_ (by rintro _ rfl; exact h)
      split
      · exact Tri.pure fun _ h => h
      split
      · exact Tri.pure fun _ h => h
      · exact (validateFlash_nv _ hu).bind fun _ => Tri.pure fun _ h => h
  · unfold updActive
    split
    · split
      · exact validateFlash_nv _ hu
      · exact Tri.pure fun _ h => h
    · split
      · exact (noPfm_nv _).bind fun _ => Tri.pure fun _ h => h
      · exact Tri.pure fun _ h => h

theorem clearHostDirty_nv (x : Bool) : Tri (fun _ => True) (Nv d o v) (clearHostDirty e x : M P C Unit) (fun _ => Nv d o v) er := by
  unfold clearHostDirty
  refine Tri.bind (mid := fun _ => Nv d o v) (by nvs) fun _ => ?_
  refine Tri.onlyIf (fun _ => ?_) (fun _ _ h => h)
  exact Tri.bind (mid := fun _ => Nv d o v) (Tri.ignore (by nvc)) fun _ => by nvs

theorem updFlash_nv (u : Upd P) (nc reset : Bool) (hu : u.ignoreDirty = true) : Tri (fun _ => True) (Nv d o v) (updFlash c e u nc reset) (fun _ => Nv d o v) er := by
  unfold updFlash
  refine ((Tri.status rotAccess_nv).conseq (fun _ h => h) (ok' := fun _ => Nv d o v) (fun x s h => by cases x <;> exact h) (fun _ h => h)).bind fun st => ?_
  refine (Tri.onlyIf (fun _ => Tri.ignore (Tri.retry (Tri.probe Nv.stab) _)) (fun _ _ h => h)).bind fun _ => ?_
  refine Tri.bind (mid := fun _ => Nv d o v) ?_ fun _ => ?_
  · split
    · exact (Tri.onlyIf (fun _ => clearHostDirty_nv _) (fun _ _ h => h)).bind fun _ => Tri.pure fun _ h => h
    · exact updVerify_nv u hu
  · refine hostAccess_nv.bind fun _ => ?_
    exact (Tri.onlyIf (fun _ => hold_nv true) (fun _ _ h => h)).bind fun _ => Tri.pure fun _ h => h

theorem clearAll_nv : Tri (fun _ => True) (Nv d o v) (clearAll e : M P C Unit) (fun _ => Nv d o v) (Nv d o v) := by
  intro r hp _
  refine ⟨fun _ _ => trivial, ?_⟩
  unfold clearAll
  cases hx : (e r.n).err <;> simp only [hx] <;> refine (Nv.stab _ ?_).2 _ <;> exact ⟨hp.nv, hp.ov, hp.ev⟩

theorem checkForce_nv (a p : Option P) : Tri (fun _ => True) (Nv d o v) (checkForce c e a p) (fun _ => Nv d o v) (Nv d o v) := by
  unfold checkForce
  split
  · exact Tri.pure fun _ h => h
  · refine ((Tri.status (Tri.probe Nv.stab)).conseq (fun _ h => h) (ok' := fun _ => Nv d o v) (fun x s h => by cases x <;> exact h) (fun _ h => h)).bind fun y => ?_
    cases y with
    | some y => exact Tri.pure fun _ h => h
    | none =>
      simp only
      split
      · exact clearAll_nv.bind fun _ => Tri.pure fun _ h => h
      · exact Tri.pure fun _ h => h

/-- An update whose source is not among those that activate new firmware. -/
theorem updateVerification_nv (reset : Bool) (ign : Events) (y : Option Err) (hv : v = .porOnly ∨ v = ign) :
    Tri (fun _ => True) (Nv d none v) (updateVerification c e reset ign y) (fun _ => Nv d none v) (Nv d none v) := by
  unfold updateVerification
  refine Tri.get fun s hs => ?_
  refine Tri.weaken (pre := Nv d none v) ?_ (by rintro _ rfl; exact hs)
  split
  · exact Tri.throw fun _ h => h
  refine (Tri.onlyIf (fun _ => hold_nv true) (fun _ _ h => h)).bind fun _ => ?_
  refine Tri.bind (mid := fun _ => Nv d none v) ?_ fun st => ?_
  · unfold updPfms
    refine Tri.get fun s hs => ?_
    refine Tri.handle (mid := fun _ => Nv d none v) (er := Nv d none v) ((checkForce_nv _ _).weaken (by rintro _ rfl; exact hs)) (fun x => ?_) (fun x => Tri.pure fun _ h => h)
    unfold updBody
    refine Tri.bind (mid := fun h s => h = .ignore ∧ Nv d none v s) ?_ fun h => ?_
    · unfold prepare
      refine Tri.get fun s hs => ?_
      rw [if_pos (by rw [hs.ev]; exact hv)]
      exact Tri.pure (by rintro _ rfl; exact ⟨rfl, hs⟩)
    · refine Tri.get fun s hs => ?_
      obtain ⟨rfl, hs⟩ := hs
      refine Tri.weaken (pre := Nv d none v) ?_ (by rintro _ rfl; exact hs)
      simp only
      split
      · split
        · exact Tri.pure fun _ h => h
        · exact updFlash_nv _ _ _ (by simp)
      · exact (clearHostDirty_nv _).bind fun _ => Tri.pure fun _ h => h
  · refine Tri.bind (mid := fun _ => Nv d none v) ?_ fun _ => ?_
    · unfold finalize
      refine Tri.get fun s hs => ?_
      refine Tri.weaken (pre := Nv d none v) ?_ (by rintro _ rfl; exact hs)
      split
      · exact Tri.onlyIf (fun _ => Tri.step (fun _ h => ⟨h.nv, rfl, h.ev⟩) Nv.stab) (fun _ _ h => h)
      split
      · rename_i ho
        rw [hs.ov] at ho
        simp at ho
      · exact Tri.pure fun _ h => h
    · refine (Tri.onlyIf (fun _ => hold_nv false) (fun _ _ h => h)).bind fun _ => ?_
      exact Tri.ofStatus (fun _ _ h => h) (fun _ _ h => h)

end Verif.HostProc
