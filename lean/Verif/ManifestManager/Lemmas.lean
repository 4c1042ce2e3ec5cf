import Verif.ManifestManager.Spec
namespace Verif.ManifestManager

/-- Nothing in force is unverified, an update goes to an unused pending region, and references are counted. -/
structure Inv (W : World) (s : State) (held : Bool → Nat) : Prop where
  refs : ∀ r, (s.region r).refs = held r
  upd : ∀ r, s.updating = some r → r = !s.active ∧ (s.region r).valid = false ∧ (s.region r).refs = 0
  good : ∀ r, (s.region r).valid = true → (s.region r).loaded = some (s.region r).content ∧ W.good (s.region r).content = true
  order : (s.region s.active).valid = true → (s.region (!s.active)).valid = true →
    W.id (s.region s.active).content < W.id (s.region (!s.active)).content ∧
    samePlatform W (s.region s.active).content (s.region (!s.active)).content = true

@[simp] theorem set_same (s : State) (r : Bool) (x : Region) : (s.set r x).region r = x := by simp [State.set]
@[simp] theorem set_other (s : State) (r : Bool) (x : Region) : (s.set r x).region (!r) = s.region (!r) := by
  cases r <;> simp [State.set]
@[simp] theorem set_other' (s : State) (r : Bool) (x : Region) : (s.set (!r) x).region r = s.region r := by
  cases r <;> simp [State.set]
@[simp] theorem set_active (s : State) (r : Bool) (x : Region) : (s.set r x).active = s.active := rfl
@[simp] theorem set_up (s : State) (r : Bool) (x : Region) : (s.set r x).up = s.up := rfl
@[simp] theorem set_updating (s : State) (r : Bool) (x : Region) : (s.set r x).updating = s.updating := rfl
theorem set_region (s : State) (r q : Bool) (x : Region) : (s.set r x).region q = if q = r then x else s.region q := rfl

/-- A region is only touched by accesses that find it invalid, without references, and not active unless everything is cleared. -/
def TraceOk (all : Bool) (held : Bool → Nat) (t : Trace) : Prop :=
  ∀ x ∈ t, (x.1.region x.2).valid = false ∧ (x.1.region x.2).refs = 0 ∧ held x.2 = 0 ∧ (all = true ∨ x.2 = !x.1.active)

theorem trace_nil (all : Bool) (held : Bool → Nat) : TraceOk all held [] := by intro x hx; cases hx

theorem trace_append {all : Bool} {held : Bool → Nat} {t u : Trace} (h1 : TraceOk all held t) (h2 : TraceOk all held u) : TraceOk all held (t ++ u) := by
  intro x hx
  rcases List.mem_append.mp hx with h | h
  · exact h1 x h
  · exact h2 x h

theorem clearManifest_spec {W : World} {s : State} {held : Bool → Nat} (h : Inv W s held) (r : Bool) (ie : Err) (e : Erase)
    {s' : State} {res : Result} {t : Trace} (he : clearManifest s r ie e = (s', res, t)) :
    Inv W s' held ∧ TraceOk true held t ∧ s'.up = s.up ∧ s'.active = s.active ∧ s'.updating = s.updating ∧
      (∀ q, (s'.region q).refs = (s.region q).refs) ∧
      (s'.region (!r) = s.region (!r)) ∧ ((s'.region r = s.region r ∧ t = [] ∧ res = .error ie) ∨ ((s'.region r).valid = false ∧ (s.region r).refs = 0)) := by
  unfold clearManifest at he
  by_cases hr : (s.region r).refs ≠ 0
  · rw [if_pos hr] at he
    cases he
    exact ⟨h, trace_nil _ _, rfl, rfl, rfl, fun _ => rfl, rfl, .inl ⟨rfl, rfl, rfl⟩⟩
  · rw [if_neg hr] at he
    simp only [setValid] at he
    have hr : (s.region r).refs = 0 := by omega
    cases he
    obtain ⟨h1, h2, h3, h4⟩ := h
    have hq : ∀ q, q = r ∨ q = !r := by cases r <;> simp
    refine ⟨⟨?_, ?_, ?_, ?_⟩, ?_, rfl, rfl, rfl, ?_, ?_, .inr ⟨?_, hr⟩⟩
    · intro q
      rcases hq q with rfl | rfl
      · simp [← h1]
      · simp [← h1]
    · intro q hu
      rcases hq q with rfl | rfl
      · simp only [set_same, set_active]
        exact ⟨(h2 _ hu).1, trivial, hr⟩
      · simp only [set_other, set_active]
        exact h2 _ hu
    · intro q hv
      rcases hq q with rfl | rfl
      · simp at hv
      · simp only [set_other] at hv ⊢
        exact h3 _ hv
    · simp only [set_active]
      intro ha hp
      exfalso
      rcases hq s.active with h | h
      · rw [h] at ha; simp at ha
      · rw [h, Bool.not_not] at hp; simp at hp
    · intro x hx
      simp only [List.mem_singleton] at hx
      subst hx
      simp [hr, ← h1]
    · intro q
      rcases hq q with rfl | rfl <;> simp
    · simp
    · simp

theorem pick_true (s : State) : s.pick true = s.active := rfl
theorem pick_false (s : State) : s.pick false = !s.active := rfl

theorem clearAll_spec {W : World} {s : State} {held : Bool → Nat} (h : Inv W s held) (e1 e2 : Erase)
    {s' : State} {res : Result} {t : Trace} (he : clearAll s e1 e2 = (s', res, t)) :
    Inv W s' held ∧ TraceOk true held t ∧ s'.up = s.up ∧ s'.active = s.active ∧
      (s'.region s.active = s.region s.active ∨ (s'.region s.active).valid = false) := by
  unfold clearAll at he
  generalize hc : clearManifest s (s.pick false) .pendingInUse e1 = c at he
  obtain ⟨s1, r1, t1⟩ := c
  obtain ⟨hi, ht, hu, ha, -, -, ho, -⟩ := clearManifest_spec h _ _ _ hc
  rw [pick_false, Bool.not_not] at ho
  cases r1 with
  | error e =>
    cases he
    exact ⟨hi, ht, hu, ha, .inl ho⟩
  | ok u =>
    simp only [pick_true] at he
    generalize hd : clearManifest { s1 with updating := none } s1.active .activeInUse e2 = d at he
    obtain ⟨s2, r2, t2⟩ := d
    cases he
    have hi' : Inv W { s1 with updating := none } held := ⟨hi.refs, fun r hr => by simp at hr, hi.good, hi.order⟩
    obtain ⟨hi2, ht2, hu2, ha2, -, -, -, hx⟩ := clearManifest_spec hi' _ _ _ hd
    refine ⟨hi2, trace_append ht ht2, hu2.trans hu, ha2.trans ha, ?_⟩
    simp only at hx
    rw [ha] at hx
    rcases hx with ⟨hx, -, -⟩ | ⟨hx, -⟩
    · exact .inl (hx.trans ho)
    · exact .inr hx


theorem setValid_same (s : State) (r v : Bool) : (setValid s r v).region r = { s.region r with valid := v } := set_same ..
theorem setValid_other (s : State) (r v : Bool) : (setValid s r v).region (!r) = s.region (!r) := set_other ..
theorem setValid_other' (s : State) (r v : Bool) : (setValid s (!r) v).region r = s.region r := set_other' ..

/-- The parts of the invariant that hold while a manifest is being verified. -/
structure Mid (W : World) (s : State) (held : Bool → Nat) : Prop where
  refs : ∀ r, (s.region r).refs = held r
  good : ∀ r, (s.region r).valid = true → (s.region r).loaded = some (s.region r).content ∧ W.good (s.region r).content = true

theorem bcases (r q : Bool) : q = r ∨ q = !r := by cases r <;> cases q <;> simp

theorem mid_invalid {W : World} {s : State} {held : Bool → Nat} (h : Mid W s held) (r : Bool) : Mid W (setValid s r false) held := by
  constructor
  · intro q
    rcases bcases r q with rfl | rfl
    · rw [setValid_same]; exact h.refs _
    · rw [setValid_other]; exact h.refs _
  · intro q hv
    rcases bcases r q with rfl | rfl
    · rw [setValid_same] at hv; cases hv
    · rw [setValid_other] at hv ⊢; exact h.good _ hv

theorem checkId_eq (W : World) (s : State) : checkId W s =
    if ((s.region s.active).valid && (s.region (!s.active)).valid) = true then
      if compareId W (s.region s.active).loaded (s.region (!s.active)).loaded then (s, .ok ())
      else (setValid s (!s.active) false, .error .invalidId)
    else (s, .ok ()) := rfl

theorem checkPlatform_eq (W : World) (s : State) : checkPlatform W s =
    if ((s.region s.active).valid && (s.region (!s.active)).valid) = true then
      match comparePlatform W (s.region s.active).loaded (s.region (!s.active)).loaded with
      | .ok true => (s, .ok ())
      | .ok false => (setValid s (!s.active) false, .error .incompatible)
      | .error e => (setValid s (!s.active) false, .error e)
    else (s, .ok ()) := rfl

theorem verifyNew_eq (W : World) (s : State) (fail : Bool) : verifyNew W s fail =
    if (!(s.region (!s.active)).valid) = true then
      if s.updating.isSome = true then
        match verify W s (!s.active) fail with
        | (s1, .ok) => (setValid s1 (!s.active) true, .ok ())
        | (s1, .bad) => (s1, .error .verifyBad)
        | (s1, .failed) => (s1, .error .verifyFailed)
      else (s, .error .nonePending)
    else (s, .error .hasPending) := rfl

theorem checkId_spec {W : World} {s : State} {held : Bool → Nat} (h : Mid W s held) {s' : State} {r : Result} (he : checkId W s = (s', r)) :
    (s' = s ∧ r = .ok () ∧ ((s.region s.active).valid = true → (s.region (!s.active)).valid = true →
      W.id (s.region s.active).content < W.id (s.region (!s.active)).content)) ∨
    (s' = setValid s (!s.active) false ∧ r = .error .invalidId) := by
  rw [checkId_eq] at he
  by_cases hb : ((s.region s.active).valid && (s.region (!s.active)).valid) = true
  · rw [if_pos hb] at he
    simp only [Bool.and_eq_true] at hb
    rw [(h.good _ hb.1).1, (h.good _ hb.2).1] at he
    simp only [compareId, decide_eq_true_eq] at he
    split at he
    · cases he; exact .inl ⟨rfl, rfl, fun _ _ => by assumption⟩
    · cases he; exact .inr ⟨rfl, rfl⟩
  · rw [if_neg hb] at he
    cases he
    refine .inl ⟨rfl, rfl, fun h1 h2 => ?_⟩
    rw [h1, h2] at hb
    exact absurd rfl hb

theorem checkPlatform_spec {W : World} {s : State} {held : Bool → Nat} (h : Mid W s held) {s' : State} {r : Result} (he : checkPlatform W s = (s', r)) :
    (s' = s ∧ r = .ok () ∧ ((s.region s.active).valid = true → (s.region (!s.active)).valid = true →
      samePlatform W (s.region s.active).content (s.region (!s.active)).content = true)) ∨
    (s' = setValid s (!s.active) false ∧ r = .error .incompatible) := by
  rw [checkPlatform_eq] at he
  by_cases hb : ((s.region s.active).valid && (s.region (!s.active)).valid) = true
  · rw [if_pos hb] at he
    simp only [Bool.and_eq_true] at hb
    rw [(h.good _ hb.1).1, (h.good _ hb.2).1] at he
    simp only [comparePlatform] at he
    generalize hp : samePlatform W (s.region s.active).content (s.region (!s.active)).content = p at he
    cases p with
    | true => cases he; exact .inl ⟨rfl, rfl, fun _ _ => rfl⟩
    | false => cases he; exact .inr ⟨rfl, rfl⟩
  · rw [if_neg hb] at he
    cases he
    refine .inl ⟨rfl, rfl, fun h1 h2 => ?_⟩
    rw [h1, h2] at hb
    exact absurd rfl hb

theorem verify_spec {W : World} {s : State} {held : Bool → Nat} (h : Mid W s held) (r : Bool) (hv : (s.region r).valid = false) (fail : Bool)
    {s' : State} {v : Verdict} (he : verify W s r fail = (s', v)) :
    Mid W s' held ∧ (v = .ok → Mid W (setValid s' r true) held) ∧ s'.up = s.up ∧ s'.active = s.active ∧ s'.updating = s.updating ∧
      s'.region (!r) = s.region (!r) ∧ (s'.region r).valid = false ∧ (s'.region r).content = (s.region r).content ∧
      (v = .ok ↔ fail = false ∧ W.good (s.region r).content = true) := by
  have hm : ∀ l, Mid W (s.set r { s.region r with loaded := l }) held := by
    intro l
    constructor
    · intro q
      rcases bcases r q with rfl | rfl
      · rw [set_same]; exact h.refs _
      · rw [set_other]; exact h.refs _
    · intro q hq
      rcases bcases r q with rfl | rfl
      · rw [set_same] at hq
        simp only at hq
        rw [hv] at hq; cases hq
      · rw [set_other] at hq ⊢; exact h.good _ hq
  unfold verify at he
  cases fail with
  | true =>
    rw [if_pos rfl] at he
    cases he
    exact ⟨hm _, fun hc => (nomatch hc), rfl, rfl, rfl, set_other .., by rw [set_same]; exact hv, by rw [set_same], ⟨(nomatch ·), fun hc => (nomatch hc.1)⟩⟩
  | false =>
    rw [if_neg Bool.false_ne_true] at he
    by_cases hg : W.good (s.region r).content = true
    · simp only [if_pos hg] at he
      cases he
      refine ⟨hm _, fun _ => ?_, rfl, rfl, rfl, set_other .., by rw [set_same]; exact hv, by rw [set_same], ⟨fun _ => ⟨rfl, hg⟩, fun _ => rfl⟩⟩
      constructor
      · intro q
        rcases bcases r q with rfl | rfl
        · rw [setValid_same, set_same]; exact h.refs _
        · rw [setValid_other, set_other]; exact h.refs _
      · intro q hq
        rcases bcases r q with rfl | rfl
        · rw [setValid_same, set_same]; exact ⟨rfl, hg⟩
        · rw [setValid_other, set_other] at hq ⊢; exact h.good _ hq
    · simp only [if_neg hg] at he
      cases he
      exact ⟨hm _, fun hc => (nomatch hc), rfl, rfl, rfl, set_other .., by rw [set_same]; exact hv, by rw [set_same], ⟨(nomatch ·), fun hc => absurd hc.2 hg⟩⟩

/-- Facts that survive the two checks: the pending manifest stays or is dropped, and if both are valid they are ordered. -/
theorem checks_spec {W : World} {s : State} {held : Bool → Nat} (h : Mid W s held) :
    let s1 := (checkId W s).1
    let s2 := (checkPlatform W s1).1
    (s2 = s ∧ (checkId W s).2 = .ok () ∧ (checkPlatform W s1).2 = .ok () ∧ ((s.region s.active).valid = true → (s.region (!s.active)).valid = true →
      W.id (s.region s.active).content < W.id (s.region (!s.active)).content ∧
      samePlatform W (s.region s.active).content (s.region (!s.active)).content = true)) ∨
    (s2 = setValid s (!s.active) false ∧ ((checkPlatform W s1).2 = .ok () ∨ (checkPlatform W s1).2 = .error .incompatible) ∧
      ((checkId W s).2 = .ok () → (checkPlatform W s1).2 = .error .incompatible)) := by
  intro s1 s2
  rcases checkId_spec h (show checkId W s = ((checkId W s).1, (checkId W s).2) from rfl) with ⟨e1, r1, c1⟩ | ⟨e1, r1⟩
  · have e1' : s1 = s := e1
    rcases checkPlatform_spec h (show checkPlatform W s = ((checkPlatform W s).1, (checkPlatform W s).2) from rfl) with ⟨e2, r2, c2⟩ | ⟨e2, r2⟩
    · refine .inl ⟨by show (checkPlatform W s1).1 = s; rw [e1']; exact e2, r1, by rw [e1']; exact r2, fun a b => ⟨c1 a b, c2 a b⟩⟩
    · exact .inr ⟨by show (checkPlatform W s1).1 = _; rw [e1']; exact e2, .inr (by rw [e1']; exact r2), fun _ => by rw [e1']; exact r2⟩
  · have e1' : s1 = setValid s (!s.active) false := e1
    have hn : checkPlatform W s1 = (s1, .ok ()) := by
      rw [checkPlatform_eq, if_neg]
      rw [e1']
      simp only [Bool.and_eq_true, not_and]
      intro _
      show ¬ ((setValid s (!s.active) false).region (!s.active)).valid = true
      rw [setValid_same]; simp
    refine .inr ⟨by show (checkPlatform W s1).1 = _; rw [hn]; exact e1', .inl (by rw [hn]), fun hc => by rw [r1] at hc; cases hc⟩

/-- What a verification of the pending manifest does. -/
def VP (W : World) (held : Bool → Nat) (s s' : State) (res : Result) : Prop :=
  Inv W s' held ∧ s'.up = s.up ∧ s'.active = s.active ∧ s'.region s.active = s.region s.active ∧
    (s'.region (!s.active)).content = (s.region (!s.active)).content ∧
    (res = .ok () → (s'.region (!s.active)).valid = true)

theorem verifyPending_spec {W : World} {s : State} {held : Bool → Nat} (h : Inv W s held) (fail post : Bool)
    {s' : State} {res : Result} (he : verifyPending W s fail post = (s', res)) : VP W held s s' res := by
  have fin : ∀ t : State, Mid W t held → (((t.region t.active).valid = true → (t.region (!t.active)).valid = true →
      W.id (t.region t.active).content < W.id (t.region (!t.active)).content ∧
      samePlatform W (t.region t.active).content (t.region (!t.active)).content = true)) → Inv W { t with updating := none } held :=
    fun t hm ho => ⟨hm.refs, fun r hr => (nomatch hr), hm.good, ho⟩
  have hm : Mid W s held := ⟨h.refs, h.good⟩
  unfold verifyPending at he
  by_cases hr : remaining s > 0
  · simp only [if_pos hr] at he
    cases he
    exact ⟨fin _ hm h.order, rfl, rfl, rfl, rfl, fun hc => (nomatch hc)⟩
  simp only [if_neg hr] at he
  rw [verifyNew_eq] at he
  by_cases hv : (s.region (!s.active)).valid = true
  · simp only [hv, Bool.not_true, Bool.false_eq_true, if_false] at he
    cases he
    exact ⟨fin _ hm h.order, rfl, rfl, rfl, rfl, fun hc => (nomatch hc)⟩
  · have hv : (s.region (!s.active)).valid = false := by cases hx : (s.region (!s.active)).valid <;> simp_all
    simp only [hv, Bool.not_false, if_true] at he
    by_cases hu : s.updating.isSome = true
    · simp only [if_pos hu] at he
      generalize hve : verify W s (!s.active) fail = ve at he
      obtain ⟨s1, v⟩ := ve
      obtain ⟨m1, m2, k1, k2, k3, k4, k5, k6, k7⟩ := verify_spec hm _ hv _ hve
      rw [Bool.not_not] at k4
      have bad : ∀ e : Err, ({ s1 with updating := none }, Except.error e) = (s', res) → VP W held s s' res := fun e hc => by
        cases hc
        exact (show Inv W { s1 with updating := none } held ∧ s1.up = s.up ∧ s1.active = s.active ∧ s1.region s.active = s.region s.active ∧
          (s1.region (!s.active)).content = (s.region (!s.active)).content ∧
          ((Except.error e : Result) = .ok () → (s1.region (!s.active)).valid = true) from
          ⟨fin _ m1 (fun _ hp => by rw [k2, k5] at hp; cases hp), k1, k2, k4, k6, fun hc => (nomatch hc)⟩)
      cases v with
      | bad => cases he; exact bad _ rfl
      | failed => cases he; exact bad _ rfl
      | ok =>
        simp only at he
        have m3 := m2 rfl
        generalize hx : setValid s1 (!s.active) true = x at he m3
        have a1 : x.up = s.up := by rw [← hx]; exact k1
        have a2 : x.active = s.active := by rw [← hx]; exact k2
        have a3 : x.region s.active = s.region s.active := by rw [← hx, setValid_other']; exact k4
        have a4 : (x.region (!s.active)).content = (s.region (!s.active)).content := by rw [← hx, setValid_same]; exact k6
        have a5 : (x.region (!s.active)).valid = true := by rw [← hx, setValid_same]
        have cs := checks_spec (W := W) m3
        simp only at cs
        generalize hi : checkId W x = ci at cs
        obtain ⟨x1, i1⟩ := ci
        simp only at cs
        generalize hpl : checkPlatform W x1 = cp at cs
        obtain ⟨x2, i2⟩ := cp
        simp only at cs
        have drop : ∀ (y : State) (e : Err), y = setValid x (!x.active) false → ({ y with updating := none }, Except.error e) = (s', res) → VP W held s s' res := fun y e hy hc => by
          subst hy
          cases hc
          exact (show Inv W { setValid x (!x.active) false with updating := none } held ∧ x.up = s.up ∧ x.active = s.active ∧
            (setValid x (!x.active) false).region s.active = s.region s.active ∧
            ((setValid x (!x.active) false).region (!s.active)).content = (s.region (!s.active)).content ∧
            ((Except.error e : Result) = .ok () → ((setValid x (!x.active) false).region (!s.active)).valid = true) from by
            refine ⟨fin _ (mid_invalid m3 _) (fun _ hp => ?_), a1, a2, ?_, ?_, fun hc => (nomatch hc)⟩
            · have : ((setValid x (!x.active) false).region (!x.active)).valid = true := hp
              rw [setValid_same] at this; cases this
            · rw [← a2, setValid_other', a2]; exact a3
            · rw [← a2, setValid_same, a2]; exact a4)
        rcases cs with ⟨c1, c2, c3, c4⟩ | ⟨c1, c2, c3⟩
        · subst c2 c3
          rw [show checkNew W x post = (x2, if post then .ok () else .error .postVerify) by unfold checkNew; rw [hi]; simp only; rw [hpl]] at he
          simp only at he
          cases he
          subst c1
          exact ⟨fin _ m3 c4, a1, a2, a3, a4, fun _ => a5⟩
        · rcases checkId_spec m3 hi with ⟨b1, b2, -⟩ | ⟨b1, b2⟩
          · subst b2
            have c3 := c3 rfl
            subst c3
            rw [show checkNew W x post = (x2, .error .incompatible) by unfold checkNew; rw [hi]; simp only; rw [hpl]] at he
            simp only at he
            exact drop _ _ c1 he
          · subst b2
            rw [show checkNew W x post = (x1, .error .invalidId) by unfold checkNew; rw [hi]] at he
            simp only at he
            exact drop _ _ b1 he
    · simp only [if_neg hu] at he
      cases he
      exact ⟨fin _ hm h.order, rfl, rfl, rfl, rfl, fun hc => (nomatch hc)⟩


theorem verifyManifest_spec {W : World} {s : State} {held : Bool → Nat} (h : Mid W s held) (r : Bool) (hv : (s.region r).valid = false) (fail : Bool)
    {s' : State} {res : Result} (he : verifyManifest W s r fail = (s', res)) :
    Mid W s' held ∧ s'.up = s.up ∧ s'.active = s.active ∧ s'.updating = s.updating ∧ s'.region (!r) = s.region (!r) ∧
      (s'.region r).content = (s.region r).content ∧ (res = .ok () → (s'.region r).valid = W.good (s.region r).content) := by
  unfold verifyManifest at he
  generalize hve : verify W s r fail = ve at he
  obtain ⟨s1, v⟩ := ve
  obtain ⟨m1, m2, k1, k2, k3, k4, k5, k6, k7⟩ := verify_spec h _ hv _ hve
  cases v with
  | failed => cases he; exact ⟨m1, k1, k2, k3, k4, k6, fun hc => (nomatch hc)⟩
  | ok =>
    cases he
    exact ⟨m2 rfl, k1, k2, k3, by rw [setValid_other]; exact k4, by rw [setValid_same]; exact k6,
      fun _ => by rw [setValid_same]; exact ((k7.mp rfl).2).symm⟩
  | bad =>
    cases he
    refine ⟨mid_invalid m1 _, k1, k2, k3, by rw [setValid_other]; exact k4, by rw [setValid_same]; exact k6, fun _ => ?_⟩
    rw [setValid_same]
    have hb : fail = false := by
      cases fail with
      | false => rfl
      | true => simp [verify] at hve
    cases hg : W.good (s.region r).content with
    | false => rfl
    | true => exact (nomatch k7.mpr ⟨hb, hg⟩)

/-- What initialization does. -/
structure BootOk (W : World) (s s' : State) (env : BootEnv) (t : Trace) : Prop where
  trace : TraceOk true (fun _ => 0) t
  down : t ≠ [] → W.good (s.region (!env.active)).content = true ∧ W.empty (s.region (!env.active)).content = true ∧
    (W.good (s.region env.active).content = true → W.id (s.region env.active).content < W.id (s.region (!env.active)).content ∧
      samePlatform W (s.region env.active).content (s.region (!env.active)).content = true)
  inv : s'.up = true → Inv W s' (fun _ => 0) ∧ s'.active = env.active
  same : s'.up = true → (s'.region env.active).valid = true → (s'.region env.active).content = (s.region env.active).content

theorem boot_spec (W : World) (s : State) (env : BootEnv) {s' : State} {res : Result} {t : Trace} (he : boot W s env = (s', res, t)) :
    BootOk W s s' env t := by
  have stop : ∀ x : State, x.up = false → BootOk W s x env [] := fun x hx =>
    ⟨trace_nil _ _, fun hc => absurd rfl hc, fun hc => (by rw [hx] at hc; cases hc), fun hc => (by rw [hx] at hc; cases hc)⟩
  unfold boot at he
  simp only at he
  have m0 : Mid W (reset s env.active) (fun _ => 0) := ⟨fun _ => rfl, fun _ hc => (nomatch hc)⟩
  have u0 : (reset s env.active).up = false := rfl
  have a0 : (reset s env.active).active = env.active := rfl
  have d0 : (reset s env.active).updating = none := rfl
  have v0 : ∀ r, ((reset s env.active).region r).valid = false := fun _ => rfl
  have c0 : ∀ r, ((reset s env.active).region r).content = (s.region r).content := fun _ => rfl
  generalize reset s env.active = s0 at he m0 u0 a0 d0 v0 c0
  generalize h1 : verifyManifest W s0 true env.fail1 = x1 at he
  obtain ⟨s1, r1⟩ := x1
  obtain ⟨m1, u1, a1, d1, o1, c1, v1⟩ := verifyManifest_spec m0 _ (v0 _) _ h1
  cases r1 with
  | error e => cases he; exact stop _ (u1.trans u0)
  | ok q =>
  have v1 := v1 rfl
  simp only at he
  generalize h2 : verifyManifest W s1 false env.fail2 = x2 at he
  obtain ⟨s2, r2⟩ := x2
  obtain ⟨m2, u2, a2, d2, o2, c2, v2⟩ := verifyManifest_spec m1 false (by rw [show (false = !true) from rfl, o1]; exact v0 _) _ h2
  cases r2 with
  | error e => cases he; exact stop _ (u2.trans (u1.trans u0))
  | ok q =>
  have v2 := v2 rfl
  simp only at he
  have hu : s2.up = false := u2.trans (u1.trans u0)
  have ha : s2.active = env.active := a2.trans (a1.trans a0)
  have hd : s2.updating = none := d2.trans (d1.trans d0)
  have o2' : s2.region true = s1.region true := o2
  have o1' : s1.region false = s0.region false := o1
  have hc : ∀ r, (s2.region r).content = (s.region r).content := by
    intro r
    cases r with
    | true => rw [o2', c1, c0]
    | false => rw [c2, o1', c0]
  have hg : ∀ r, (s2.region r).valid = W.good (s.region r).content := by
    intro r
    cases r with
    | true => rw [o2', v1, c0]
    | false => rw [v2, o1', c0]
  have cs := checks_spec (W := W) m2
  simp only at cs
  have hf1 : fatal (checkId W s2).2 .invalidId = none := by
    rcases checkId_spec m2 (show checkId W s2 = ((checkId W s2).1, (checkId W s2).2) from rfl) with ⟨-, r, -⟩ | ⟨-, r⟩ <;> rw [r] <;> rfl
  simp only [bootChecks, hf1] at he
  generalize h3 : checkPlatform W (checkId W s2).1 = x3 at he cs
  obtain ⟨s3, r3⟩ := x3
  simp only at cs he
  have key : fatal r3 .incompatible = none ∧ Inv W s3 (fun _ => 0) ∧ s3.up = false ∧ s3.active = env.active ∧ s3.region env.active = s2.region env.active ∧
      (s3.region (!env.active)).content = (s.region (!env.active)).content ∧
      ((s3.region (!env.active)).valid = true → s3 = s2) := by
    rcases cs with ⟨e, -, r, o⟩ | ⟨e, r, -⟩
    · subst e
      refine ⟨by rw [r]; rfl, ⟨m2.refs, fun r hr => ?_, m2.good, o⟩, hu, ha, rfl, hc _, fun _ => rfl⟩
      rw [hd] at hr; cases hr
    · subst e
      refine ⟨?_, ⟨(mid_invalid m2 _).refs, fun r hr => ?_, (mid_invalid m2 _).good, fun _ hp => ?_⟩, hu, ha, ?_, ?_, fun hp => ?_⟩
      · rcases r with r | r <;> rw [r] <;> rfl
      · have : s2.updating = some r := hr
        rw [hd] at this; cases this
      · have : ((setValid s2 (!s2.active) false).region (!s2.active)).valid = true := hp
        rw [setValid_same] at this; cases this
      · rw [← ha, setValid_other']
      · rw [← ha, setValid_same, ha]; exact hc _
      · rw [← ha, setValid_same] at hp; cases hp
  obtain ⟨k1, k2, k3, k4, k5, k6, k7⟩ := key
  simp only [k1] at he
  have fin : ∀ x : State, Inv W x (fun _ => 0) → x.active = env.active →
      (x.region env.active = s3.region env.active ∨ (x.region env.active).valid = false) →
      (Inv W { x with up := true } (fun _ => 0) ∧ x.active = env.active) ∧
        ((x.region env.active).valid = true → (x.region env.active).content = (s.region env.active).content) := fun x hx hxa ho => by
    refine ⟨⟨⟨hx.refs, hx.upd, hx.good, hx.order⟩, hxa⟩, fun hv => ?_⟩
    rcases ho with ho | ho
    · rw [ho, k5, hc]
    · rw [ho] at hv; cases hv
  unfold checkEmpty at he
  by_cases hp : (s3.region (s3.pick false)).valid = true
  · rw [if_pos hp] at he
    have e3 : s3 = s2 := k7 (by rw [← k4]; exact hp)
    cases hf : env.emptyFail with
    | true =>
      rw [hf] at he
      cases he
      exact stop _ k3
    | false =>
      rw [hf, if_neg Bool.false_ne_true] at he
      by_cases hem : W.empty (s3.region (s3.pick false)).content = true
      · rw [if_pos hem] at he
        generalize h4 : clearAll s3 env.e1 env.e2 = x4 at he
        obtain ⟨s4, r4, t4⟩ := x4
        obtain ⟨i4, t4', u4, a4, o4⟩ := clearAll_spec k2 _ _ h4
        rw [k4] at o4
        have dn : W.good (s.region (!env.active)).content = true ∧ W.empty (s.region (!env.active)).content = true ∧
          (W.good (s.region env.active).content = true → W.id (s.region env.active).content < W.id (s.region (!env.active)).content ∧
            samePlatform W (s.region env.active).content (s.region (!env.active)).content = true) := by
          have hp' : (s3.region (!env.active)).valid = true := by rw [← k4]; exact hp
          refine ⟨?_, ?_, fun hga => ?_⟩
          · rw [← hg, ← e3]; exact hp'
          · rw [← hc, ← e3, ← k4]; exact hem
          · have := k2.order (by rw [k4, k5, hg]; exact hga) (by rw [k4]; exact hp')
            rw [k4, k5, k6, hc] at this
            exact this
        cases r4 with
        | error e =>
          cases he
          exact ⟨t4', fun _ => dn, fun hup => (by rw [u4, k3] at hup; cases hup), fun hup => (by rw [u4, k3] at hup; cases hup)⟩
        | ok q =>
          cases he
          have := fin s4 i4 (a4.trans k4) o4
          exact ⟨t4', fun _ => dn, fun _ => this.1, fun _ => this.2⟩
      · rw [if_neg hem] at he
        cases he
        have := fin s3 k2 k4 (.inl rfl)
        exact ⟨trace_nil _ _, fun hc => absurd rfl hc, fun _ => this.1, fun _ => this.2⟩
  · rw [if_neg hp] at he
    cases he
    have := fin s3 k2 k4 (.inl rfl)
    exact ⟨trace_nil _ _, fun hc => absurd rfl hc, fun _ => this.1, fun _ => this.2⟩


/-- What a call other than a restart does to the manifests: the one in force stays, loses its validity, or is replaced by the pending one. -/
def Moves (s s' : State) : Prop :=
  s'.up = s.up ∧
  ((s'.active = s.active ∧ (s'.region s.active).content = (s.region s.active).content ∧ ((s'.region s.active).valid = true → (s.region s.active).valid = true)) ∨
   (s'.active = s.active ∧ (s'.region s.active).valid = false) ∨
   (s'.active = (!s.active) ∧ (s.region (!s.active)).valid = true ∧ (s'.region (!s.active)).content = (s.region (!s.active)).content ∧
      (s'.region s.active).valid = false))

theorem moves_refl (s : State) : Moves s s := ⟨rfl, .inl ⟨rfl, rfl, fun h => h⟩⟩

/-- Changing only the reference count of a region. -/
theorem refs_inv {W : World} {s : State} {held : Bool → Nat} (h : Inv W s held) (r : Bool) (n : Nat)
    (hv : (s.region r).valid = true ∨ n = 0) (g : Bool → Nat) (hg : ∀ q, g q = if q = r then n else held q) :
    Inv W (s.set r { s.region r with refs := n }) g := by
  obtain ⟨h1, h2, h3, h4⟩ := h
  have hf : ∀ q, ((s.set r { s.region r with refs := n }).region q).valid = (s.region q).valid ∧
      ((s.set r { s.region r with refs := n }).region q).loaded = (s.region q).loaded ∧
      ((s.set r { s.region r with refs := n }).region q).content = (s.region q).content := by
    intro q
    rcases bcases r q with rfl | rfl
    · simp only [set_same, and_self]
    · simp only [set_other, and_self]
  refine ⟨fun q => ?_, fun q hq => ?_, fun q hq => ?_, ?_⟩
  · rw [hg]
    rcases bcases r q with rfl | rfl
    · simp only [set_same, if_pos]
    · rw [set_other, if_neg (by cases r <;> simp)]; exact h1 _
  · obtain ⟨a, b, c⟩ := h2 q hq
    refine ⟨a, by rw [(hf q).1]; exact b, ?_⟩
    rcases bcases r q with rfl | rfl
    · rw [set_same]
      rcases hv with hv | hv
      · rw [b] at hv; cases hv
      · exact hv
    · rw [set_other]; exact c
  · rw [(hf q).1] at hq
    rw [(hf q).2.1, (hf q).2.2]
    exact h3 q hq
  · simp only [set_active]
    rw [(hf _).1, (hf _).1, (hf _).2.2, (hf _).2.2]
    exact h4

theorem get_spec {W : World} {s : State} {held : Bool → Nat} (h : Inv W s held) (a : Bool) {s' : State} {o : Option Bool} (he : get s a = (s', o)) :
    Moves s s' ∧ ((o = none ∧ s' = s) ∨
      (o = some (s.pick a) ∧ (s.region (s.pick a)).valid = true ∧ Inv W s' (fun q => if q = s.pick a then held q + 1 else held q))) := by
  unfold get getLocked at he
  simp only at he
  by_cases hv : (s.region (s.pick a)).valid = true
  · simp only [if_pos hv, set_same] at he
    cases he
    refine ⟨⟨rfl, .inl ⟨rfl, ?_, ?_⟩⟩, .inr ⟨rfl, hv, refs_inv h _ _ (.inl hv) _ (fun q => ?_)⟩⟩
    · rcases bcases (s.pick a) s.active with h | h
      · rw [h]; simp
      · rw [h]; simp
    · rcases bcases (s.pick a) s.active with h | h
      · rw [h]; simp
      · rw [h]; simp
    · split
      · rename_i h'; rw [h', h.refs]
      · rfl
  · simp only [if_neg hv] at he
    cases he
    exact ⟨moves_refl _, .inl ⟨rfl, rfl⟩⟩

theorem moves_refs (s : State) (r : Bool) (n : Nat) : Moves s (s.set r { s.region r with refs := n }) := by
  refine ⟨rfl, .inl ⟨rfl, ?_, ?_⟩⟩ <;>
  · rcases bcases r s.active with h | h
    · rw [h]; simp
    · rw [h]; simp

theorem free_spec {W : World} {s : State} {held : Bool → Nat} (h : Inv W s held) (r : Bool) (hp : held r ≠ 0) :
    Inv W (free s (some r)) (fun q => if q = r then held q - 1 else held q) ∧ Moves s (free s (some r)) := by
  have hr : (s.region r).refs > 0 := by rw [h.refs]; omega
  simp only [free, if_pos hr]
  have hnu : s.updating ≠ some r := fun hc => by have := (h.upd r hc).2.2; omega
  refine ⟨⟨fun q => ?_, fun q hq => ?_, fun q hq => ?_, ?_⟩, moves_refs _ _ _⟩
  · rcases bcases r q with rfl | rfl
    · simp only [set_same, if_pos, h.refs]
    · rw [set_other, if_neg (by cases r <;> simp)]; exact h.refs _
  · rcases bcases r q with rfl | rfl
    · exact absurd hq hnu
    · simp only [set_other, set_active]; exact h.upd _ hq
  · rcases bcases r q with rfl | rfl
    · simp only [set_same] at hq ⊢; exact h.good _ hq
    · simp only [set_other] at hq ⊢; exact h.good _ hq
  · have hf : ∀ q, ((s.set r { s.region r with refs := (s.region r).refs - 1 }).region q).valid = (s.region q).valid ∧
      ((s.set r { s.region r with refs := (s.region r).refs - 1 }).region q).content = (s.region q).content := by
      intro q
      rcases bcases r q with rfl | rfl
      · simp only [set_same, and_self]
      · simp only [set_other, and_self]
    simp only [set_active]
    rw [(hf _).1, (hf _).1, (hf _).2, (hf _).2]
    exact h.order

theorem activate_eq (s : State) : activate s =
    if (s.region (!s.active)).valid = false then (s, .error .nonePending)
    else (setValid { s with active := !s.active } s.active false, .ok ()) := by
  unfold activate
  cases ha : s.active <;> cases hv : (s.region true).valid <;> cases hw : (s.region false).valid <;> simp [hv, hw]

theorem activate_spec {W : World} {s : State} {held : Bool → Nat} (h : Inv W s held) {s' : State} {res : Result} (he : activate s = (s', res)) :
    Inv W s' held ∧ Moves s s' ∧ (res = .ok () → s'.active = !s.active) := by
  rw [activate_eq] at he
  by_cases hv : (s.region (!s.active)).valid = false
  · rw [if_pos hv] at he
    cases he
    exact ⟨h, moves_refl _, fun hc => (nomatch hc)⟩
  · rw [if_neg hv] at he
    cases he
    have hv : (s.region (!s.active)).valid = true := by cases hx : (s.region (!s.active)).valid <;> simp_all
    have ho : (setValid { s with active := !s.active } s.active false).region (!s.active) = s.region (!s.active) := setValid_other ..
    have hs : (setValid { s with active := !s.active } s.active false).region s.active = { s.region s.active with valid := false } := setValid_same ..
    have hnu : s.updating = none := by
      cases hu : s.updating with
      | none => rfl
      | some r =>
        obtain ⟨a, b, -⟩ := h.upd r hu
        subst a
        rw [b] at hv; cases hv
    refine ⟨⟨fun q => ?_, fun q hq => ?_, fun q hq => ?_, fun _ hp => ?_⟩, ⟨rfl, .inr (.inr ⟨rfl, hv, by rw [ho], by rw [hs]⟩)⟩, fun _ => rfl⟩
    · rcases bcases s.active q with rfl | rfl
      · rw [hs]; exact h.refs _
      · rw [ho]; exact h.refs _
    · have : s.updating = some q := hq
      rw [hnu] at this; cases this
    · rcases bcases s.active q with rfl | rfl
      · rw [hs] at hq; cases hq
      · rw [ho] at hq ⊢; exact h.good _ hq
    · exfalso
      have : ((setValid { s with active := !s.active } s.active false).region (!!s.active)).valid = true := hp
      rw [Bool.not_not, hs] at this; cases this

/-- Replacing an invalid, unused pending region by another one. -/
theorem pending_inv {W : World} {s : State} {held : Bool → Nat} (h : Inv W s held) (x : Region) (hx : x.valid = false) (hr : x.refs = (s.region (!s.active)).refs) (u : Option Bool)
    (hu : ∀ r, u = some r → r = (!s.active) ∧ x.refs = 0) :
    Inv W { s.set (!s.active) x with updating := u } held ∧ Moves s { s.set (!s.active) x with updating := u } := by
  have hs : ({ s.set (!s.active) x with updating := u } : State).region (!s.active) = x := set_same ..
  have ho : ({ s.set (!s.active) x with updating := u } : State).region s.active = s.region s.active := set_other' ..
  generalize hy : ({ s.set (!s.active) x with updating := u } : State) = y at hs ho
  have ya : y.active = s.active := by rw [← hy]; rfl
  have yu : y.updating = u := by rw [← hy]
  have yup : y.up = s.up := by rw [← hy]; rfl
  refine ⟨⟨fun q => ?_, fun q hq => ?_, fun q hq => ?_, fun _ hp => ?_⟩, yup, .inl ⟨ya, by rw [ho], by rw [ho]; exact fun h => h⟩⟩
  · rcases bcases s.active q with rfl | rfl
    · rw [ho]; exact h.refs _
    · rw [hs, hr]; exact h.refs _
  · obtain ⟨a, b⟩ := hu q (by rw [← yu]; exact hq)
    subst a
    rw [hs, ya]
    exact ⟨rfl, hx, b⟩
  · rcases bcases s.active q with rfl | rfl
    · rw [ho] at hq ⊢; exact h.good _ hq
    · rw [hs, hx] at hq; cases hq
  · rw [ya, hs, hx] at hp; cases hp

theorem set_set (s : State) (r : Bool) (x y : Region) : (s.set r x).set r y = s.set r y := by
  simp only [State.set, State.mk.injEq, true_and, and_true]
  funext q
  split <;> rfl

theorem clearPending_eq (s : State) (size : Nat) (e : Erase) : clearPending s size e =
    if (s.region (!s.active)).refs = 0 then
      if size > maxSize then (s, .error .tooLarge, [])
      else
        let s1 := setValid { s with updating := some (!s.active) } (!s.active) false
        if e.ok then (s1.set (!s.active) { s1.region (!s.active) with content := e.content, remaining := size, offset := 0 }, .ok (), [(s1, !s.active)])
        else (s1.set (!s.active) { s1.region (!s.active) with content := e.content }, .error .flash, [(s1, !s.active)])
    else (s, .error .pendingInUse, []) := rfl

theorem clearPending_spec {W : World} {s : State} {held : Bool → Nat} (h : Inv W s held) (size : Nat) (e : Erase)
    {s' : State} {res : Result} {t : Trace} (he : clearPending s size e = (s', res, t)) :
    Inv W s' held ∧ Moves s s' ∧ TraceOk false held t := by
  rw [clearPending_eq] at he
  by_cases hr : (s.region (!s.active)).refs = 0
  · rw [if_pos hr] at he
    by_cases hz : size > maxSize
    · rw [if_pos hz] at he
      cases he
      exact ⟨h, moves_refl _, trace_nil _ _⟩
    · rw [if_neg hz] at he
      have ht : TraceOk false held [(setValid { s with updating := some (!s.active) } (!s.active) false, !s.active)] := by
        intro x hx
        simp only [List.mem_singleton] at hx
        subst hx
        refine ⟨by rw [setValid_same], by rw [setValid_same]; exact hr, by rw [← h.refs]; exact hr, .inr rfl⟩
      have fin : ∀ x : Region, x.valid = false → x.refs = 0 →
          Inv W ((setValid { s with updating := some (!s.active) } (!s.active) false).set (!s.active) x) held ∧
          Moves s ((setValid { s with updating := some (!s.active) } (!s.active) false).set (!s.active) x) := by
        intro x hv hx
        have e : (setValid { s with updating := some (!s.active) } (!s.active) false).set (!s.active) x =
            { s.set (!s.active) x with updating := some (!s.active) } := by
          unfold setValid
          rw [set_set]; rfl
        rw [e]
        exact pending_inv h x hv (by rw [hx, hr]) _ (fun r hr' => by cases hr'; exact ⟨rfl, hx⟩)
      simp only at he
      cases hok : e.ok with
      | true =>
        rw [hok, if_pos rfl] at he
        cases he
        have := fin { ((setValid { s with updating := some (!s.active) } (!s.active) false).region (!s.active)) with
          content := e.content, remaining := size, offset := 0 } (by rw [setValid_same]) (by rw [setValid_same]; exact hr)
        exact ⟨this.1, this.2, ht⟩
      | false =>
        rw [hok, if_neg Bool.false_ne_true] at he
        cases he
        have := fin { ((setValid { s with updating := some (!s.active) } (!s.active) false).region (!s.active)) with
          content := e.content } (by rw [setValid_same]) (by rw [setValid_same]; exact hr)
        exact ⟨this.1, this.2, ht⟩
  · rw [if_neg hr] at he
    cases he
    exact ⟨h, moves_refl _, trace_nil _ _⟩

theorem writePending_spec {W : World} {s : State} {held : Bool → Nat} (h : Inv W s held) (l : Nat) (c : Bytes) (w : Option Nat)
    {s' : State} {res : Result} {t : Trace} (he : writePending s l c w = (s', res, t)) :
    Inv W s' held ∧ Moves s s' ∧ TraceOk false held t := by
  unfold writePending at he
  cases hu : s.updating with
  | none =>
    rw [hu] at he
    cases he
    exact ⟨h, moves_refl _, trace_nil _ _⟩
  | some r =>
    rw [hu] at he
    simp only at he
    obtain ⟨a, b, d⟩ := h.upd r hu
    subst a
    have fin : ∀ x : Region, x.valid = false → x.refs = 0 → Inv W (s.set (!s.active) x) held ∧ Moves s (s.set (!s.active) x) := by
      intro x hv hx
      have e : s.set (!s.active) x = { s.set (!s.active) x with updating := some (!s.active) } := by rw [← hu]; rfl
      rw [e]
      exact pending_inv h x hv (by rw [hx, d]) _ (fun r hr' => by cases hr'; exact ⟨rfl, hx⟩)
    have ht : TraceOk false held [(s, !s.active)] := by
      intro x hx
      simp only [List.mem_singleton] at hx
      subst hx
      exact ⟨b, d, by rw [← h.refs]; exact d, .inr rfl⟩
    split at he
    · cases he
      exact ⟨h, moves_refl _, trace_nil _ _⟩
    · cases w with
      | none =>
        cases he
        have := fin { s.region (!s.active) with content := c } b d
        exact ⟨this.1, this.2, ht⟩
      | some n =>
        cases he
        have := fin { s.region (!s.active) with content := c, remaining := (s.region (!s.active)).remaining - n, offset := (s.region (!s.active)).offset + n } b d
        exact ⟨this.1, this.2, ht⟩

/-- A call that may erase everything. -/
def Op.all : Op → Bool
  | .clearAll _ _ => true
  | .boot _ => true
  | _ => false

structure StepOk (W : World) (y y' : Sys) (op : Op) (t : Trace) : Prop where
  inv : y'.s.up = true → Inv W y'.s y'.held
  trace : TraceOk op.all y'.held t
  moves : (∃ env, op = .boot env ∧ BootOk W y.s y'.s env t) ∨ (y.s.up = false ∧ y' = y) ∨ Moves y.s y'.s

theorem step_spec {W : World} {y : Sys} (hi : y.s.up = true → Inv W y.s y.held) (op : Op) :
    StepOk W y (step W y op).1 op (step W y op).2.2 := by
  by_cases hb : ∃ env, op = .boot env
  · obtain ⟨env, rfl⟩ := hb
    have hb := boot_spec W y.s env (show boot W y.s env = ((boot W y.s env).1, (boot W y.s env).2.1, (boot W y.s env).2.2) from rfl)
    exact ⟨fun hu => (hb.inv hu).1, hb.trace, .inl ⟨env, rfl, hb⟩⟩
  cases hu : y.s.up with
  | false =>
    have e : step W y op = (y, .ok (), []) := by
      cases op <;> first | exact absurd ⟨_, rfl⟩ hb | (simp only [step, hu, Bool.not_false, if_true])
    rw [e]
    exact ⟨hi, trace_nil _ _, .inr (.inl ⟨hu, rfl⟩)⟩
  | true =>
    have h := hi hu
    have fin : ∀ (s' : State) (g : Bool → Nat) (t : Trace), Inv W s' g → Moves y.s s' → TraceOk op.all g t → StepOk W y ⟨s', g⟩ op t :=
      fun s' g t a b c => ⟨fun _ => a, c, .inr (.inr b)⟩
    cases op with
    | boot env => exact absurd ⟨_, rfl⟩ hb
    | get a =>
      simp only [step, hu, Bool.not_true, Bool.false_eq_true, if_false]
      generalize hg : get y.s a = x
      obtain ⟨s', o⟩ := x
      obtain ⟨hm, ⟨rfl, rfl⟩ | ⟨rfl, -, hi'⟩⟩ := get_spec h a hg
      · exact fin _ _ _ h hm (trace_nil _ _)
      · exact fin _ _ _ hi' hm (trace_nil _ _)
    | free r =>
      simp only [step, hu, Bool.not_true, Bool.false_eq_true, if_false]
      by_cases hp : y.held r = 0
      · rw [if_pos hp]
        exact fin _ _ _ h (moves_refl _) (trace_nil _ _)
      · rw [if_neg hp]
        have := free_spec h r hp
        exact fin _ _ _ this.1 this.2 (trace_nil _ _)
    | activate =>
      simp only [step, hu, Bool.not_true, Bool.false_eq_true, if_false]
      have := activate_spec h (show activate y.s = ((activate y.s).1, (activate y.s).2) from rfl)
      exact fin _ _ _ this.1 this.2.1 (trace_nil _ _)
    | clearPending size e =>
      simp only [step, hu, Bool.not_true, Bool.false_eq_true, if_false]
      have := clearPending_spec h size e (show clearPending y.s size e = ((clearPending y.s size e).1, (clearPending y.s size e).2.1, (clearPending y.s size e).2.2) from rfl)
      exact fin _ _ _ this.1 this.2.1 this.2.2
    | write l c w =>
      simp only [step, hu, Bool.not_true, Bool.false_eq_true, if_false]
      have := writePending_spec h l c w (show writePending y.s l c w = ((writePending y.s l c w).1, (writePending y.s l c w).2.1, (writePending y.s l c w).2.2) from rfl)
      exact fin _ _ _ this.1 this.2.1 this.2.2
    | verify f p =>
      simp only [step, hu, Bool.not_true, Bool.false_eq_true, if_false]
      obtain ⟨a, b, c, d, -, -⟩ := verifyPending_spec h f p (show verifyPending W y.s f p = ((verifyPending W y.s f p).1, (verifyPending W y.s f p).2) from rfl)
      exact fin _ _ _ a ⟨b, .inl ⟨c, by rw [d], by rw [d]; exact fun h => h⟩⟩ (trace_nil _ _)
    | clearAll e1 e2 =>
      simp only [step, hu, Bool.not_true, Bool.false_eq_true, if_false]
      obtain ⟨a, b, c, d, o⟩ := clearAll_spec h e1 e2 (show clearAll y.s e1 e2 = ((clearAll y.s e1 e2).1, (clearAll y.s e1 e2).2.1, (clearAll y.s e1 e2).2.2) from rfl)
      refine fin _ _ _ a ⟨c, ?_⟩ b
      rcases o with o | o
      · exact .inl ⟨d, by rw [o], by rw [o]; exact fun h => h⟩
      · exact .inr (.inl ⟨d, o⟩)

theorem reach_inv {W : World} {y : Sys} (h : Reach W y) : y.s.up = true → Inv W y.s y.held := by
  induction h with
  | start c1 c2 => exact fun hc => (nomatch hc)
  | step op _ ih => exact (step_spec ih op).inv

end Verif.ManifestManager
