import Verif.HostFlash.Filter
/-! Properties of the configuration of the SPI filter and of the access to flash. -/
namespace Verif.HostFlash.Filter

/-! ### Properties -/

/-- Rules. -/
def Tri (P : St → Prop) (m : M α) (Q : α → St → Prop) (E : St → Prop) : Prop :=
  ∀ s, P s → match m s with
    | (.ok a, t) => Q a t
    | (.error _, t) => E t

variable {P : St → Prop} {Q : α → St → Prop} {E : St → Prop} {m : M α} {r : Nat → Res}

theorem Tri.ret {a : α} (h : ∀ s, P s → Q a s) : Tri P (pure a : M α) Q E := fun s hs => h s hs

theorem Tri.fail {x : Err} (h : ∀ s, P s → E s) : Tri P (fail x : M α) Q E := fun s hs => h s hs

theorem Tri.bind {f : α → M β} {R : β → St → Prop} (h : Tri P m Q E) (hf : ∀ a, Tri (Q a) (f a) R E) : Tri P (m >>= f) R E := by
  intro s hs
  have h := h s hs
  show match (match m s with | (.ok a, s) => f a s | (.error e, s) => (.error e, s)) with | (.ok a, t) => R a t | (.error _, t) => E t
  cases e : m s with
  | mk r t =>
    rw [e] at h
    cases r with
    | ok a => exact hf a t h
    | error x => exact h

theorem Tri.state {R : α → St → Prop} {f : St → M α} (h : ∀ s, P s → Tri (· = s) (f s) R E) : Tri P (state >>= f) R E := fun s hs => h s hs s rfl

/-- A call, with anything that does not depend on the number of calls. -/
theorem tri_call {Q : Unit → St → Prop} {f : St → St} (ho : ∀ s n, P s → Q () { f s with n := n }) (he : ∀ s n, P s → E { s with n := n }) : Tri P (call r f) Q E := by
  intro s hs
  unfold call
  cases r s.n with
  | ok => exact ho s _ hs
  | failed => exact he s _ hs
  | unsupported => exact he s _ hs

theorem tri_callOpt {Q : Unit → St → Prop} {f : St → St} (ho : ∀ s n, P s → Q () { f s with n := n }) (hu : ∀ s n, P s → Q () { s with n := n }) (he : ∀ s n, P s → E { s with n := n }) :
    Tri P (callOpt r f) Q E := by
  intro s hs
  unfold callOpt
  cases r s.n with
  | ok => exact ho s _ hs
  | failed => exact he s _ hs
  | unsupported => exact hu s _ hs

theorem tri_cmd {Q : Unit → St → Prop} {f : St → St} (ho : ∀ s n, P s → Q () { f { s with log := (s.mux && s.flt.on) :: s.log } with n := n })
    (he : ∀ s n, P s → E { s with log := (s.mux && s.flt.on) :: s.log, n := n }) : Tri P (cmd r f) Q E := by
  intro s hs
  unfold cmd call
  dsimp only
  cases r s.n with
  | ok => exact ho s _ hs
  | failed => exact he s _ hs
  | unsupported => exact he s _ hs

theorem Tri.conseq {P' : St → Prop} {Q' : α → St → Prop} {E' : St → Prop} (h : Tri P m Q E) (hp : ∀ s, P' s → P s)
    (hq : ∀ a s, Q a s → Q' a s) (he : ∀ s, E s → E' s) : Tri P' m Q' E' := by
  intro s hs
  have h := h s (hp s hs)
  cases e : m s with
  | mk r t =>
    rw [e] at h
    cases r with
    | ok a => exact hq a t h
    | error x => exact he t h

theorem sameDevice_tri {s0 : St} {f : Flt} : Tri (fun s => s.cs0 = s0.cs0 ∧ s.cs1 = s0.cs1 ∧ s.flt = f) (sameDevice r)
    (fun _ s => (s.cs0 = s0.cs0 ∧ s.cs1 = s0.cs1 ∧ s.flt = f) ∧ ∀ c, s0.cs1 = some c → s0.cs0.vendor = c.vendor ∧ s0.cs0.device = c.device) (fun _ => True) := by
  refine Tri.state fun s hs => ?_
  cases e : s.cs1 with
  | none =>
    refine .ret fun _ hx => ?_
    subst hx
    exact ⟨hs, fun c hc => by rw [← hs.2.1, e] at hc; cases hc⟩
  | some c =>
    refine .bind (Q := fun _ t => t.cs0 = s0.cs0 ∧ t.cs1 = s0.cs1 ∧ t.flt = f) (tri_cmd (fun t n ht => ?_) fun _ _ _ => trivial) fun _ => ?_
    · subst ht; exact hs
    · split
      · exact .fail fun _ _ => trivial
      · rename_i h1
        split
        · exact .fail fun _ _ => trivial
        · rename_i h2
          refine .ret fun t ht => ⟨ht, fun d hd => ?_⟩
          rw [← hs.2.1, e] at hd
          injection hd with hd
          subst hd
          rw [← hs.1]
          exact ⟨Decidable.not_not.mp h1, Decidable.not_not.mp h2⟩

theorem sameSize_tri {s0 : St} {f : Flt} : Tri (fun s => s.cs0 = s0.cs0 ∧ s.cs1 = s0.cs1 ∧ s.flt = f) sameSize
    (fun _ s => (s.cs0 = s0.cs0 ∧ s.cs1 = s0.cs1 ∧ s.flt = f) ∧ ∀ c, s0.cs1 = some c → s0.cs0.size = c.size) (fun _ => True) := by
  refine Tri.state fun s hs => ?_
  cases e : s.cs1 with
  | none =>
    refine .ret fun _ hx => ?_
    subst hx
    exact ⟨hs, fun c hc => by rw [← hs.2.1, e] at hc; cases hc⟩
  | some c =>
    dsimp only
    split
    · exact .fail fun _ _ => trivial
    · rename_i h1
      refine .ret fun t ht => ?_
      subst ht
      refine ⟨hs, fun d hd => ?_⟩
      rw [← hs.2.1, e] at hd
      injection hd with hd
      subst hd
      rw [← hs.1]
      exact Decidable.not_not.mp h1

/-- The mode that the filter is told, and the modes of the devices. -/
theorem addressMode_tri {s0 : St} {f : Flt} (hc : ∀ c, s0.cs1 = some c → c.Consistent) :
    Tri (fun s => s.cs0 = s0.cs0 ∧ s.cs1 = s0.cs1 ∧ s.flt = f) (addressMode r)
      (fun b s => Same s0 s ∧ s.flt = f ∧ b = s0.cs0.noted4 ∧ ∀ c, s.cs1 = some c → c.noted4 = b) (fun _ => True) := by
  refine Tri.state fun s hs => ?_
  obtain ⟨h0, h1, hf⟩ := hs
  cases e : s.cs1 with
  | none =>
    refine .ret fun _ hx => ?_
    subst hx
    exact ⟨⟨h0, .inl h1⟩, hf, by rw [h0], fun c hc => by rw [e] at hc; cases hc⟩
  | some c =>
    have e0 : s0.cs1 = some c := h1 ▸ e
    dsimp only
    split
    · rename_i hne
      refine .bind (Q := fun _ t => Same s0 t ∧ t.flt = f ∧ ∀ c, t.cs1 = some c → c.noted4 = s.cs0.noted4) ?_ fun _ =>
        .ret fun t ht => ⟨ht.1, ht.2.1, by rw [h0], ht.2.2⟩
      unfold enable4
      split
      · exact .fail fun _ _ => trivial
      · rename_i hfix
        exact absurd (hc c e0 _ hfix).symm hne
      · refine tri_cmd (fun t n ht => ?_) fun _ _ _ => trivial
        subst ht
        refine ⟨⟨h0, .inr ⟨c, e0, ?_⟩⟩, hf, fun d hd => ?_⟩
        · rw [← h0]
        · injection hd with hd
          subst hd
          rfl
    · rename_i hne
      refine .ret fun t ht => ?_
      subst ht
      refine ⟨⟨h0, .inl h1⟩, hf, by rw [h0], fun d hd => ?_⟩
      rw [e] at hd
      injection hd with hd
      subst hd
      exact (Decidable.not_not.mp hne).symm

theorem resetMode_tri {s1 : St} : Tri (fun s => s.cs0 = s1.cs0 ∧ s.cs1 = s1.cs1 ∧ s.flt = s1.flt) (resetMode r)
    (fun b s => (s.cs0 = s1.cs0 ∧ s.cs1 = s1.cs1 ∧ s.flt = s1.flt) ∧ s1.cs0.onReset = some b ∧ ∀ c, s1.cs1 = some c → c.onReset = some b) (fun _ => True) := by
  refine .bind (Q := fun _ t => t.cs0 = s1.cs0 ∧ t.cs1 = s1.cs1 ∧ t.flt = s1.flt) (tri_cmd (fun t n ht => ht) fun _ _ _ => trivial) fun _ => ?_
  refine Tri.state fun s hs => ?_
  cases e0 : s.cs0.onReset with
  | none => exact .fail fun _ _ => trivial
  | some b =>
    have e0' : s1.cs0.onReset = some b := hs.1 ▸ e0
    cases e : s.cs1 with
    | none =>
      refine .ret fun _ hx => ?_
      subst hx
      exact ⟨hs, e0', fun c hc => by rw [← hs.2.1, e] at hc; cases hc⟩
    | some c =>
      refine .bind (Q := fun _ t => t.cs0 = s1.cs0 ∧ t.cs1 = s1.cs1 ∧ t.flt = s1.flt) (tri_cmd (fun t n ht => ?_) fun _ _ _ => trivial) fun _ => ?_
      · subst ht; exact hs
      · cases ec : c.onReset with
        | none => exact .fail fun _ _ => trivial
        | some b' =>
          dsimp only
          split
          · exact .fail fun _ _ => trivial
          · rename_i hb
            refine .ret fun t ht => ⟨ht, e0', fun d hd => ?_⟩
            rw [← hs.2.1, e] at hd
            injection hd with hd
            subst hd
            rw [ec, Decidable.not_not.mp hb]

/-- What the filter is told of the address modes is so for both devices. -/
theorem addressProperties_tri {s0 : St} {f : Flt} (hc : ∀ c, s0.cs1 = some c → c.Consistent) :
    Tri (fun s => s.cs0 = s0.cs0 ∧ s.cs1 = s0.cs1 ∧ s.flt = f) (addressProperties r)
      (fun a s => Same s0 s ∧ s.flt = f ∧ ∀ c, (c = s.cs0 ∨ s.cs1 = some c) →
        c.noted4 = a.mode4 ∧ c.fixed = a.fixed ∧ (c.switch == .commandWithEnable && !c.fixed) = a.enable ∧ c.onReset = some a.reset4) (fun _ => True) := by
  refine Tri.state fun s hs => ?_
  by_cases he : sameEnable s = true
  · rw [if_pos he]
    refine .bind (Q := fun b t => Same s0 t ∧ t.flt = f ∧ b = s0.cs0.noted4 ∧ ∀ c, t.cs1 = some c → c.noted4 = b)
      ((addressMode_tri hc).conseq (fun t ht => by subst ht; exact hs) (fun _ _ h => h) fun _ h => h) fun b => ?_
    refine .bind (Q := fun b' t => (Same s0 t ∧ t.flt = f ∧ b = s0.cs0.noted4 ∧ ∀ c, t.cs1 = some c → c.noted4 = b) ∧
      t.cs0.onReset = some b' ∧ ∀ c, t.cs1 = some c → c.onReset = some b') ?_ fun b' => .ret fun t ht => ?_
    · intro t ht
      have h := resetMode_tri (r := r) (s1 := t) t ⟨rfl, rfl, rfl⟩
      cases e : resetMode r t with
      | mk x u =>
        rw [e] at h
        cases x with
        | error _ => trivial
        | ok b' =>
          obtain ⟨⟨h0, h1, h2⟩, h3, h4⟩ := h
          exact ⟨⟨⟨h0.trans ht.1.cs0, h1 ▸ ht.1.cs1⟩, h2.trans ht.2.1, ht.2.2.1, h1 ▸ ht.2.2.2⟩, h0 ▸ h3, h1 ▸ h4⟩
    · obtain ⟨⟨hsame, hf, hb, hm⟩, hr0, hr1⟩ := ht
      refine ⟨hsame, hf, fun c hcc => ?_⟩
      have key : c.noted4 = b ∧ c.needsEnable = s.cs0.needsEnable ∧ c.onReset = some b' := by
        rcases hcc with rfl | hcc
        · refine ⟨by rw [hsame.cs0, hb], by rw [hsame.cs0, hs.1], hr0⟩
        · refine ⟨hm c hcc, ?_, hr1 c hcc⟩
          have hd : ∃ d, s.cs1 = some d ∧ d.needsEnable = c.needsEnable := by
            rw [hs.2.1]
            rcases hsame.cs1 with h | ⟨d, hd, h⟩
            · exact ⟨c, h ▸ hcc, rfl⟩
            · rw [hcc] at h
              injection h with h
              subst h
              exact ⟨d, hd, rfl⟩
          obtain ⟨d, hd, hn⟩ := hd
          unfold sameEnable at he
          rw [hd] at he
          rw [← hn]
          exact (of_decide_eq_true he).symm
      obtain ⟨h1, h2, h3⟩ := key
      refine ⟨h1, ?_, ?_, h3⟩
      · show c.fixed = s.cs0.needsEnable.isNone
        rw [← h2]
        simp only [Chip.needsEnable]
        cases c.fixed <;> rfl
      · show _ = s.cs0.needsEnable.getD false
        rw [← h2]
        simp only [Chip.needsEnable]
        cases c.fixed <;> simp
  · rw [if_neg he]
    exact .fail fun _ _ => trivial

/-- Configuring the filter succeeds only if the filter then knows both devices as they are. -/
theorem filter_knows_devices {s t : St} (hc : ∀ c, s.cs1 = some c → c.Consistent) (h : configType r s = (.ok (), t)) :
    Same s t ∧ ∀ c, (c = t.cs0 ∨ t.cs1 = some c) → Knows t.flt c ∧ KnowsMore s.flt t.flt c := by
  have key : Tri (· = s) (configType r) (fun _ t => Same s t ∧ ∀ c, (c = t.cs0 ∨ t.cs1 = some c) → Knows t.flt c ∧ KnowsMore s.flt t.flt c) (fun _ => True) := by
    refine .bind (Q := fun _ u => u.cs0 = s.cs0 ∧ u.cs1 = s.cs1 ∧ u.flt = s.flt) (tri_cmd (fun u n hu => by subst hu; exact ⟨rfl, rfl, rfl⟩) fun _ _ _ => trivial)
      fun _ => ?_
    refine .bind sameDevice_tri fun _ => ?_
    refine .bind (Q := fun _ u => (u.cs0 = s.cs0 ∧ u.cs1 = s.cs1 ∧ u.flt = { s.flt with mfg := some (s.cs0.vendor, s.cs0.device) }) ∧
      ∀ c, s.cs1 = some c → s.cs0.vendor = c.vendor ∧ s.cs0.device = c.device) (tri_call (fun u n hu => ?_) fun _ _ _ => trivial) fun _ => ?_
    · refine ⟨⟨hu.1.1, hu.1.2.1, ?_⟩, hu.2⟩
      simp only [St.setFlt]
      rw [hu.1.2.2, hu.1.1]
    refine .bind (Q := fun _ u => (u.cs0 = s.cs0 ∧ u.cs1 = s.cs1 ∧ u.flt = { s.flt with mfg := some (s.cs0.vendor, s.cs0.device) }) ∧
      (∀ c, s.cs1 = some c → s.cs0.vendor = c.vendor ∧ s.cs0.device = c.device) ∧ ∀ c, s.cs1 = some c → s.cs0.size = c.size) ?_ fun _ => ?_
    · intro u hu
      have h := sameSize_tri (s0 := s) u hu.1
      cases e : sameSize u with
      | mk x v =>
        rw [e] at h
        cases x with
        | error _ => trivial
        | ok _ => exact ⟨h.1, hu.2, h.2⟩
    refine .bind (Q := fun _ u => ∃ z, (z = s.flt.size ∨ z = some s.cs0.size) ∧
      (u.cs0 = s.cs0 ∧ u.cs1 = s.cs1 ∧ u.flt = { s.flt with mfg := some (s.cs0.vendor, s.cs0.device), size := z }) ∧
      (∀ c, s.cs1 = some c → s.cs0.vendor = c.vendor ∧ s.cs0.device = c.device) ∧ ∀ c, s.cs1 = some c → s.cs0.size = c.size)
      (tri_callOpt (fun u n hu => ?_) (fun u n hu => ?_) fun _ _ _ => trivial) fun _ => ?_
    · refine ⟨some s.cs0.size, .inr rfl, ⟨hu.1.1, hu.1.2.1, ?_⟩, hu.2⟩
      simp only [St.setFlt]
      rw [hu.1.2.2, hu.1.1]
    · exact ⟨s.flt.size, .inl rfl, ⟨hu.1.1, hu.1.2.1, hu.1.2.2⟩, hu.2⟩
    intro u ⟨z, hz, hu, hv, hs⟩
    refine (?_ : Tri (fun u => u.cs0 = s.cs0 ∧ u.cs1 = s.cs1 ∧ u.flt = { s.flt with mfg := some (s.cs0.vendor, s.cs0.device), size := z }) _ _ _) u hu
    refine .bind (addressProperties_tri hc) fun a => ?_
    refine .bind (Q := fun _ u => Same s u ∧ u.flt = { s.flt with mfg := some (s.cs0.vendor, s.cs0.device), size := z, mode4 := some a.mode4, fixed := a.fixed } ∧
      ∀ c, (c = u.cs0 ∨ u.cs1 = some c) → c.noted4 = a.mode4 ∧ c.fixed = a.fixed ∧ (c.switch == .commandWithEnable && !c.fixed) = a.enable ∧
        c.onReset = some a.reset4) (tri_call (fun u n hu => ?_) fun _ _ _ => trivial) fun _ => ?_
    · refine ⟨⟨hu.1.cs0, hu.1.cs1⟩, ?_, hu.2.2⟩
      simp only [St.setFlt]
      rw [hu.2.1]
    refine .bind (Q := fun _ u => ∃ y, (y = s.flt.enable ∨ y = some a.enable) ∧ Same s u ∧
      u.flt = { s.flt with mfg := some (s.cs0.vendor, s.cs0.device), size := z, mode4 := some a.mode4, fixed := a.fixed, enable := y } ∧
      ∀ c, (c = u.cs0 ∨ u.cs1 = some c) → c.noted4 = a.mode4 ∧ c.fixed = a.fixed ∧ (c.switch == .commandWithEnable && !c.fixed) = a.enable ∧
        c.onReset = some a.reset4) (tri_callOpt (fun u n hu => ?_) (fun u n hu => ?_) fun _ _ _ => trivial) fun _ => ?_
    · refine ⟨_, .inr rfl, ⟨hu.1.cs0, hu.1.cs1⟩, ?_, hu.2.2⟩
      simp only [St.setFlt]
      rw [hu.2.1]
    · exact ⟨_, .inl rfl, ⟨hu.1.cs0, hu.1.cs1⟩, hu.2.1, hu.2.2⟩
    refine (?_ : Tri _ _ (fun _ u => ∃ y x, (y = s.flt.enable ∨ y = some a.enable) ∧ (x = s.flt.reset4 ∨ x = some a.reset4) ∧ Same s u ∧
      u.flt = { s.flt with mfg := some (s.cs0.vendor, s.cs0.device), size := z, mode4 := some a.mode4, fixed := a.fixed, enable := y, reset4 := x } ∧
      ∀ c, (c = u.cs0 ∨ u.cs1 = some c) → c.noted4 = a.mode4 ∧ c.fixed = a.fixed ∧ (c.switch == .commandWithEnable && !c.fixed) = a.enable ∧
        c.onReset = some a.reset4) (fun _ => True)).conseq (fun _ h => h) ?_ (fun _ h => h)
    · refine tri_callOpt (fun u n hu => ?_) (fun u n hu => ?_) fun _ _ _ => trivial
      · obtain ⟨y, hy, hu⟩ := hu
        refine ⟨y, some a.reset4, hy, .inr rfl, ⟨hu.1.cs0, hu.1.cs1⟩, ?_, hu.2.2⟩
        simp only [St.setFlt]
        rw [hu.2.1]
      · obtain ⟨y, hy, hu⟩ := hu
        exact ⟨y, _, hy, .inl rfl, ⟨hu.1.cs0, hu.1.cs1⟩, hu.2.1, hu.2.2⟩
    · rintro _ u ⟨y, x, hy, hx, hsame, hf, ha⟩
      refine ⟨hsame, fun c hcc => ?_⟩
      obtain ⟨h1, h2, h3, h4⟩ := ha c hcc
      have hid : s.cs0.vendor = c.vendor ∧ s.cs0.device = c.device ∧ s.cs0.size = c.size := by
        rcases hcc with rfl | hcc
        · rw [hsame.cs0]; exact ⟨rfl, rfl, rfl⟩
        · rcases hsame.cs1 with h | ⟨d, hd, h⟩
          · have hcc := h ▸ hcc
            exact ⟨(hv c hcc).1, (hv c hcc).2, hs c hcc⟩
          · rw [hcc] at h
            injection h with h
            subst h
            exact ⟨(hv d hd).1, (hv d hd).2, hs d hd⟩
      rw [hf]
      refine ⟨⟨?_, ?_, h2.symm⟩, ⟨?_, ?_, ?_⟩⟩
      · rw [← hid.1, ← hid.2.1]
      · rw [h1]
      · rw [← hid.2.2]; exact hz
      · rw [h3]; exact hy
      · rw [h4]; exact hx
  have h' := key s rfl
  rw [h] at h'
  exact h'

/-! ### Access -/

theorem Quiet.rfl' {a : St} : Quiet a a := ⟨[], rfl, nofun⟩

/-- The devices belong to the root of trust, and nothing was sent before. -/
structure Held (a b : St) : Prop where
  quiet : Quiet a b
  mux : b.mux = false
  off : b.flt = { a.flt with on := false }

theorem Held.cmd {a b : St} (h : Held a b) (n : Nat) {f : St → St} (hf : ∀ s, (f s).mux = s.mux ∧ (f s).flt = s.flt ∧ (f s).log = s.log) :
    Held a { f { b with log := (b.mux && b.flt.on) :: b.log } with n := n } := by
  obtain ⟨h1, h2, h3⟩ := hf { b with log := (b.mux && b.flt.on) :: b.log }
  obtain ⟨l, hl, hx⟩ := h.quiet
  refine ⟨⟨false :: l, ?_, ?_⟩, h1.trans h.mux, h2.trans h.off⟩
  · show (f _).log = _
    rw [h3, h.mux, hl]
    rfl
  · intro x hm
    rcases List.mem_cons.mp hm with rfl | hm
    · rfl
    · exact hx x hm

theorem upd_keeps (w : Which) (f : Chip → Chip) (s : St) : (s.upd w f).mux = s.mux ∧ (s.upd w f).flt = s.flt ∧ (s.upd w f).log = s.log := by
  cases w <;> exact ⟨rfl, rfl, rfl⟩

theorem upd_same (w : Which) (f : Chip → Chip) (s : St) : (s.upd w f).chip w = (s.chip w).map f := by cases w <;> rfl

theorem upd_other {w w' : Which} (h : w ≠ w') (f : Chip → Chip) (s : St) : (s.upd w f).chip w' = s.chip w' := by
  cases w <;> cases w' <;> first | rfl | exact absurd rfl h

theorem chip_n (w : Which) (s : St) (n : Nat) (l : List Bool) : ({ s with n := n, log := l } : St).chip w = s.chip w := by cases w <;> rfl
theorem chip_log (w : Which) (s : St) (l : List Bool) : ({ s with log := l } : St).chip w = s.chip w := by cases w <;> rfl
theorem chip_num (w : Which) (s : St) (n : Nat) : ({ s with n := n } : St).chip w = s.chip w := by cases w <;> rfl

/-- A command that changes a device. -/
theorem upd_cmd {a : St} {w v : Which} (hv : w ≠ v) {f : Chip → Chip} {c : Chip} {o : Option Chip} :
    Tri (fun s => Held a s ∧ s.chip w = some c ∧ s.chip v = o) (cmd r fun s => s.upd w f)
      (fun _ s => Held a s ∧ s.chip w = some (f c) ∧ s.chip v = o) (Held a) := by
  refine tri_cmd (fun s n h => ⟨h.1.cmd n (upd_keeps w f), ?_, ?_⟩) fun s n h => h.1.cmd n (f := id) fun _ => ⟨rfl, rfl, rfl⟩
  · rw [chip_num, upd_same, chip_log, h.2.1]; rfl
  · rw [chip_num, upd_other hv, chip_log, h.2.2]

/-- The device after it was set up. -/
theorem configureChip_tri {a : St} {w v : Which} (hv : w ≠ v) {c : Chip} {o : Option Chip} :
    Tri (fun s => Held a s ∧ s.chip w = some c ∧ s.chip v = o) (configureChip r w)
      (fun _ s => Held a s ∧ (∃ d, s.chip w = some d ∧ d.Ready) ∧ s.chip v = o) (Held a) := by
  refine .bind (Q := fun _ s => Held a s ∧ s.chip w = some c ∧ s.chip v = o) (tri_cmd (fun s n h => ⟨h.1.cmd n (f := id) fun _ => ⟨rfl, rfl, rfl⟩, ?_, ?_⟩)
    fun s n h => h.1.cmd n (f := id) fun _ => ⟨rfl, rfl, rfl⟩) fun _ => ?_
  · exact (chip_num w _ n).trans ((chip_log w s _).trans h.2.1)
  · exact (chip_num v _ n).trans ((chip_log v s _).trans h.2.2)
  refine Tri.state fun s hs => ?_
  rw [hs.2.1]
  dsimp only
  by_cases hven : c.vendor = 0xff ∨ c.vendor = 0
  · rw [if_pos hven]
    exact .fail fun t ht => ht ▸ hs.1
  · rw [if_neg hven]
    refine .bind ((upd_cmd hv (c := c)).conseq (fun t ht => ht ▸ hs) (fun _ _ h => h) fun _ h => h) fun _ => ?_
    refine .bind (upd_cmd hv) fun _ => ?_
    refine .bind (Q := fun _ s => Held a s ∧ s.chip w = some { c with busy := false, locked := false, quad := true } ∧ s.chip v = o) ?_ fun _ => ?_
    · cases hq : c.quad
      · exact upd_cmd hv
      · refine .ret fun s h => ?_
        have : ({ c with busy := false, locked := false } : Chip) = { c with busy := false, locked := false, quad := true } := by
          rw [← hq]
        exact this ▸ h
    · cases ha : c.asks
      · refine .ret fun s h => ⟨h.1, ⟨_, h.2.1, ⟨⟨fun e => hven (.inl e), fun e => hven (.inr e)⟩, rfl, rfl, rfl, fun hf => ?_⟩⟩, h.2.2⟩
        unfold Chip.asks at ha
        have hf : c.fixed = false := hf
        rw [hf] at ha
        cases ha
      · refine (upd_cmd hv).conseq (fun _ h => h) (fun _ s h => ⟨h.1, ⟨_, h.2.1, ⟨⟨fun e => hven (.inl e), fun e => hven (.inr e)⟩, rfl, rfl, rfl, fun _ => rfl⟩⟩,
          h.2.2⟩) fun _ h => h

theorem initChip_tri {a : St} {w v : Which} (hv : w ≠ v) {c o : Option Chip} :
    Tri (fun s => Held a s ∧ s.chip w = c ∧ s.chip v = o) (initChip r w)
      (fun _ s => Held a s ∧ (s.chip w).isSome = c.isSome ∧ s.chip v = o) (Held a) := by
  refine Tri.state fun s hs => ?_
  cases e : s.chip w with
  | none => exact .ret fun t ht => by subst ht; exact ⟨hs.1, by rw [hs.2.1], hs.2.2⟩
  | some d =>
    dsimp only
    split
    · exact .ret fun t ht => by subst ht; exact ⟨hs.1, by rw [hs.2.1], hs.2.2⟩
    · refine (upd_cmd hv (c := d)).conseq (fun t ht => by subst ht; exact ⟨hs.1, e, hs.2.2⟩) (fun _ t ht => ⟨ht.1, ?_, ht.2.2⟩) fun _ h => h
      rw [ht.2.1, ← hs.2.1, e]; rfl

/-- The flash devices are taken from the host before any command is sent to them, whatever fails. If all succeeds, the host has no access, and the devices are
identified, idle, not protected, in quad mode, and the driver knows their address mode. -/
theorem rot_access {init : Bool} {s t : St} {x : Except Err Unit} (h : rotAccess r init s = (x, t)) :
    Quiet s t ∧ (t.log = s.log ∨ (t.mux = false ∧ t.flt.on = false)) ∧
    (x = .ok () → t.mux = false ∧ t.flt = { s.flt with on := false } ∧ t.cs0.Ready ∧ t.cs1.isSome = s.cs1.isSome ∧ ∀ c, t.cs1 = some c → c.Ready) := by
  have key : Tri (· = s) (rotAccess r init) (fun _ t => Held s t ∧ t.cs0.Ready ∧ t.cs1.isSome = s.cs1.isSome ∧ ∀ c, t.cs1 = some c → c.Ready)
      (fun t => t.log = s.log ∨ Held s t) := by
    refine .bind (Q := fun _ u => u.cs0 = s.cs0 ∧ u.cs1 = s.cs1 ∧ u.flt = { s.flt with on := false } ∧ u.log = s.log)
      (tri_call (fun u n hu => by subst hu; exact ⟨rfl, rfl, rfl, rfl⟩) fun u n hu => by subst hu; exact .inl rfl) fun _ => ?_
    refine .bind (Q := fun _ u => Held s u ∧ u.chip .zero = some s.cs0 ∧ u.chip .one = s.cs1) (tri_call (fun u n hu => ?_) fun u n hu => .inl hu.2.2.2) fun _ => ?_
    · exact ⟨⟨⟨[], hu.2.2.2, nofun⟩, rfl, hu.2.2.1⟩, congrArg some hu.1, hu.2.1⟩
    refine Tri.conseq (E := Held s) ?_ (fun _ h => h) (fun _ _ h => h) fun _ h => .inr h
    refine .bind (Q := fun _ u => Held s u ∧ u.cs1.isSome = s.cs1.isSome) ?_ fun _ => ?_
    · cases init
      · exact .ret fun u hu => ⟨hu.1, congrArg Option.isSome hu.2.2⟩
      · refine .bind (initChip_tri (w := .zero) (v := .one) nofun) fun _ => ?_
        intro u hu
        have h := initChip_tri (r := r) (a := s) (w := .one) (v := .zero) (c := s.cs1) (o := u.chip .zero) nofun u ⟨hu.1, hu.2.2, rfl⟩
        cases e : initChip r .one u with
        | mk y v =>
          rw [e] at h
          cases y with
          | ok _ => exact ⟨h.1, h.2.1⟩
          | error _ => exact h
    intro u hu
    refine (?_ : Tri (fun v => Held s v ∧ v.chip .zero = some u.cs0 ∧ v.chip .one = u.cs1) _ _ _) u ⟨hu.1, rfl, rfl⟩
    refine .bind (configureChip_tri (w := .zero) (v := .one) nofun) fun _ => ?_
    refine Tri.state fun v hv => ?_
    obtain ⟨hheld, ⟨d, hd, hready⟩, hone⟩ := hv
    have hd : v.cs0 = d := Option.some.inj hd
    cases e : v.cs1 with
    | none =>
      refine .ret fun y hy => ?_
      subst hy
      refine ⟨hheld, hd ▸ hready, ?_, fun c hc => by rw [e] at hc; cases hc⟩
      rw [← hu.2]; exact congrArg Option.isSome hone
    | some c =>
      refine (configureChip_tri (w := .one) (v := .zero) (c := c) (o := some d) nofun).conseq (fun y hy => by subst hy; exact ⟨hheld, e, congrArg some hd⟩) ?_ fun _ h => h
      rintro _ y ⟨hy, ⟨d', hd', hr'⟩, h0⟩
      have h0 : y.cs0 = d := Option.some.inj h0
      have hd' : y.cs1 = some d' := hd'
      refine ⟨hy, h0 ▸ hready, ?_, fun c hc => ?_⟩
      · rw [← hu.2, hd']
        have : v.cs1 = u.cs1 := hone
        rw [← this, e]; rfl
      · rw [hd'] at hc
        injection hc with hc
        exact hc ▸ hr'
  have h' := key s rfl
  rw [h] at h'
  cases x with
  | ok _ => exact ⟨h'.1.quiet, .inr ⟨h'.1.mux, by rw [h'.1.off]⟩, fun _ => ⟨h'.1.mux, h'.1.off, h'.2⟩⟩
  | error _ =>
    rcases h' with h' | h'
    · exact ⟨⟨[], h', nofun⟩, .inl h', nofun⟩
    · exact ⟨h'.quiet, .inr ⟨h'.mux, by rw [h'.off]⟩, nofun⟩

/-- After the flash was taken and the filter configured, the filter has the address mode that the devices are in. -/
theorem filter_has_address_mode {init : Bool} {s u t : St} (h1 : rotAccess r init s = (.ok (), u)) (hc : ∀ c, u.cs1 = some c → c.Consistent)
    (h2 : configType r u = (.ok (), t)) : ∀ c, (c = t.cs0 ∨ t.cs1 = some c) → c.fixed = false → t.flt.mode4 = some c.is4 := by
  obtain ⟨-, -, h1⟩ := rot_access h1
  obtain ⟨-, -, hr0, -, hr1⟩ := h1 rfl
  obtain ⟨hsame, hk⟩ := filter_knows_devices hc h2
  intro c hcc hfix
  rw [(hk c hcc).1.mode]
  rcases hcc with rfl | hcc
  · rw [hsame.cs0] at hfix ⊢
    rw [hr0.mode hfix]
  · rcases hsame.cs1 with h | ⟨d, hd, h⟩
    · rw [(hr1 c (h ▸ hcc)).mode hfix]
    · rw [hcc] at h
      injection h with h
      subst h
      rfl

/-- A device whose address mode is fixed is one for which no mode can be set, and a mode is reported as the fixed one only if the device has it. -/
theorem fixed_mode (c : Chip) : (c.fixed = true ↔ ∀ f, c.supports f ≠ .yes) ∨ (c.cap3 = false ∧ c.cap4 = false) := by
  unfold Chip.fixed Chip.supports
  cases c.switch <;> cases c.cap3 <;> cases c.cap4 <;> simp

theorem fixed_mode_exists {c : Chip} {f : Bool} (h : c.supports f = .fixed) : (f = true → c.cap4 = true) ∧ (f = false → c.cap3 = true ∨ c.switch = .instructions) := by
  unfold Chip.supports at h
  revert h
  cases c.switch <;> cases c.cap3 <;> cases c.cap4 <;> cases f <;> simp

/-- The host gets access only if everything succeeds, and no commands are sent. -/
theorem host_access {s t : St} {x : Except Err Unit} (h : hostAccess r s = (x, t)) :
    t.log = s.log ∧ t.cs0 = s.cs0 ∧ t.cs1 = s.cs1 ∧ (x = .ok () → t.mux = true ∧ t.flt = { s.flt with on := true }) ∧ (x ≠ .ok () → t.flt = s.flt) := by
  have key : Tri (· = s) (hostAccess r) (fun _ t => t.log = s.log ∧ t.cs0 = s.cs0 ∧ t.cs1 = s.cs1 ∧ t.mux = true ∧ t.flt = { s.flt with on := true })
      (fun t => t.log = s.log ∧ t.cs0 = s.cs0 ∧ t.cs1 = s.cs1 ∧ t.flt = s.flt) := by
    refine .bind (Q := fun _ u => u.log = s.log ∧ u.cs0 = s.cs0 ∧ u.cs1 = s.cs1 ∧ u.mux = true ∧ u.flt = s.flt)
      (tri_call (fun u n hu => by subst hu; exact ⟨rfl, rfl, rfl, rfl, rfl⟩) fun u n hu => by subst hu; exact ⟨rfl, rfl, rfl, rfl⟩) fun _ => ?_
    refine tri_call (fun u n hu => ⟨hu.1, hu.2.1, hu.2.2.1, hu.2.2.2.1, ?_⟩) fun u n hu => ⟨hu.1, hu.2.1, hu.2.2.1, hu.2.2.2.2⟩
    simp only [St.setFlt]
    rw [hu.2.2.2.2]
  have h' := key s rfl
  rw [h] at h'
  cases x with
  | ok _ => exact ⟨h'.1, h'.2.1, h'.2.2.1, fun _ => h'.2.2.2, fun h => absurd rfl h⟩
  | error _ => exact ⟨h'.1, h'.2.1, h'.2.2.1, nofun, fun _ => h'.2.2.2⟩

/-- The host is reported to have access exactly if it has. -/
theorem has_access {s t : St} {b : Bool} (h : hasAccess r s = (.ok b, t)) : (b = true ↔ s.mux = true ∧ s.flt.on = true) ∧ t.mux = s.mux ∧ t.flt = s.flt := by
  have key : Tri (· = s) (hasAccess r) (fun b t => (b = true ↔ s.mux = true ∧ s.flt.on = true) ∧ t.mux = s.mux ∧ t.flt = s.flt) (fun _ => True) := by
    refine .bind (Q := fun _ u => u.mux = s.mux ∧ u.flt = s.flt) (tri_call (fun u n hu => by subst hu; exact ⟨rfl, rfl⟩) fun _ _ _ => trivial) fun _ => ?_
    refine .bind (Q := fun _ u => u.mux = s.mux ∧ u.flt = s.flt) (tri_call (fun u n hu => hu) fun _ _ _ => trivial) fun _ => ?_
    refine Tri.state fun u hu => .ret fun v hv => ?_
    subst hv
    refine ⟨?_, hu⟩
    rw [hu.1, hu.2, Bool.and_eq_true]
  have h' := key s rfl
  rw [h] at h'
  exact h'

/-! ### A concrete case: two devices of the same type, the first in 4-byte mode, the second in 3-byte mode. -/

/-- A device. -/
def demoChip : Chip := ⟨0xef, 0x4019, 0x2000000, true, true, .command, false, true, some false, true, true, false, false⟩

/-- A second one of the same type, in the other mode. -/
def demoOther : Chip := { demoChip with is4 := false }

/-- The host has access. -/
def demoSt : St := ⟨demoChip, some demoOther, ⟨none, none, none, false, none, none, true⟩, true, 0, []⟩

/-- All calls succeed, but the filter does not support `set_flash_size`. -/
def demoRes (n : Nat) : Res := if n = 17 then .unsupported else .ok

example : (match (do rotAccess demoRes true; configType demoRes : M Unit) demoSt with
    | (.ok _, t) => decide (t.flt = ⟨some (0xef, 0x4019), none, some true, false, some false, some false, false⟩ ∧
        t.cs1 = some { demoOther with noted4 := true, is4 := true, busy := false, locked := false, quad := true, known := true } ∧ t.mux = false ∧
        t.log = List.replicate 17 false)
    | _ => false) = true := by decide +kernel

/-- Devices of different sizes are refused. -/
example : (match configType demoRes { demoSt with cs1 := some { demoOther with size := 0x1000000 } } with
    | (.error .sizes, _) => true
    | _ => false) = true := by decide +kernel

example : demoOther.Consistent := by intro b; cases b <;> decide

end Verif.HostFlash.Filter
