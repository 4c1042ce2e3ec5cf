import Verif.DevSched.Lemmas
/-!
C139: the schedule of attestations and the attestation status report.
-/
namespace Verif.DevSched
open Verif

/-- What the rest of the firmware does with the manager. -/
inductive Op where
  | attest (now : Nat) (fails : Nat → Bool)
  | update (i s now : Nat) (clockOk : Bool)
  | restart
  | mark
  | report

/-- One call: the manager afterwards, and the device offered for attestation. -/
def step (m : Mgr) : Op → Mgr × Option Nat
  | .attest now fails => match nextToAttest m now fails with
    | .ok (m', i) => (m', some i)
    | _ => (m, none)
  | .update i s now ok => ((updateState m i s now ok).1, none)
  | .restart => (DevSched.restart m, none)
  | .mark => (markInvalid m, none)
  | .report => match status m with
    | .ok (m', _) => (m', none)
    | _ => (m, none)

/-- The devices offered during a history. -/
def offers : Mgr → List Op → List Nat
  | _, [] => []
  | m, o :: os => (step m o).2.toList ++ offers (step m o).1 os

/-- The manager after a history. -/
def after : Mgr → List Op → Mgr
  | m, [] => m
  | m, o :: os => after (step m o).1 os

/-! ### Choice of the next device -/

/-- The device offered is one of the table, is in a state that can be attested, and its time has come. Nothing but the place in the round changes. -/
theorem offered_due (m m' : Mgr) (now : Nat) (fails : Nat → Bool) (i : Nat) (h : nextToAttest m now fails = .ok (m', i)) :
    (∃ d, m.devs[i]? = some d ∧ Spec.attestable d.state ∧ d.due ≤ now) ∧ m' = { m with last := i } := by
  obtain ⟨hn, hs, hm⟩ := next_parts h
  obtain ⟨t, _, _, hd, _⟩ := scan_ok _ _ _ _ _ _ (Nat.mod_lt _ hn) hs
  exact ⟨hd, hm⟩

/-- The EID handed out is that of the device. -/
theorem offered_eid (m m' : Mgr) (now : Nat) (fails : Nat → Bool) (e : UInt8) (h : eidOfNext m now fails = .ok (m', e)) :
    ∃ i d, nextToAttest m now fails = .ok (m', i) ∧ m.devs[i]? = some d ∧ d.eid = e := by
  unfold eidOfNext at h
  cases hx : nextToAttest m now fails with
  | err e => rw [hx] at h; cases h
  | oob => rw [hx] at h; cases h
  | ok r =>
    obtain ⟨m1, i⟩ := r
    obtain ⟨⟨d, hd, _, _⟩, hm⟩ := offered_due _ _ _ _ _ hx
    rw [hx] at h
    simp only [Res.bind, hm, hd] at h
    have := Prod.mk.inj (Res.ok.inj h)
    exact ⟨i, d, by rw [hm, ← this.1], hd, this.2⟩

/-- No device is offered exactly when none is due. -/
theorem none_due (m : Mgr) (now : Nat) (hn : m.devs ≠ []) (hl : m.last < m.devs.length) :
    nextToAttest m now (fun _ => false) = .err .none ↔ ∀ d ∈ m.devs, ¬ (Spec.attestable d.state ∧ d.due ≤ now) := by
  have hlen : 0 < m.devs.length := List.length_pos_iff.mpr hn
  have hlt := Nat.mod_lt (m.last + 1) hlen
  unfold nextToAttest
  rw [if_neg (by omega)]
  constructor
  · intro h
    have hs : scan m.devs now (fun _ => false) m.devs.length ((m.last + 1) % m.devs.length) = .err .none := by
      rcases scan_total m.devs now m.devs.length _ hlt with hx | ⟨j, hx⟩
      · exact hx
      · rw [hx] at h; cases h
    intro d hd hdue
    obtain ⟨j, hj, he⟩ := List.getElem_of_mem hd
    have := scan_none _ _ _ _ _ hlt hs (Spec.distance m.devs.length m.last j) (distance_lt hlen)
    rw [step_distance hl hj] at this
    exact this ⟨d, by rw [List.getElem?_eq_getElem hj, he], hdue⟩
  · intro h
    rcases scan_total m.devs now m.devs.length _ hlt with hx | ⟨j, hx⟩
    · rw [hx]; rfl
    · obtain ⟨_, _, _, ⟨d, hd, hdue⟩, _⟩ := scan_ok _ _ _ _ _ _ hlt hx
      exact absurd hdue (h d (List.mem_of_getElem? hd))

/-- Of the devices that are due, the one offered is the first after the device offered before. -/
theorem offered_first (m m' : Mgr) (now : Nat) (fails : Nat → Bool) (i j : Nat) (d : Dev) (hl : m.last < m.devs.length)
    (h : nextToAttest m now fails = .ok (m', i)) (hj : m.devs[j]? = some d) (hd : Spec.attestable d.state ∧ d.due ≤ now) :
    Spec.distance m.devs.length m.last i ≤ Spec.distance m.devs.length m.last j := by
  obtain ⟨hn, hs, _⟩ := next_parts h
  obtain ⟨t, ht, hi, _, hall⟩ := scan_ok _ _ _ _ _ _ (Nat.mod_lt _ hn) hs
  rw [hi, distance_step hl ht]
  have hjl : j < m.devs.length := by
    rcases Nat.lt_or_ge j m.devs.length with hx | hx
    · exact hx
    · rw [List.getElem?_eq_none hx] at hj; cases hj
  rcases Nat.lt_or_ge (Spec.distance m.devs.length m.last j) t with hx | hx
  · have := hall _ hx
    rw [step_distance hl hjl] at this
    exact absurd ⟨d, hj, hd⟩ this
  · exact hx

theorem fair_aux (n j : Nat) (hj : j < n) (ms : Nat → Mgr) (now : Nat → Nat) (fails : Nat → Nat → Bool) (r : Nat → Nat)
    (hlen : ∀ k, (ms k).devs.length = n) (hl : ∀ k, (ms k).last < n)
    (hr : ∀ k, nextToAttest (ms k) (now k) (fails k) = .ok ({ ms k with last := r k }, r k)) (hlast : ∀ k, (ms (k + 1)).last = r k)
    (hdue : ∀ k, ∃ d, (ms k).devs[j]? = some d ∧ Spec.attestable d.state ∧ d.due ≤ now k) :
    ∀ b k, Spec.distance n (ms k).last j < b → ∃ t, t < b ∧ r (k + t) = j := by
  intro b
  induction b with
  | zero => intro k h; omega
  | succ b ih =>
    intro k h
    by_cases hk : r k = j
    · exact ⟨0, by omega, hk⟩
    · have hrk : r k < n := hlast k ▸ hl (k + 1)
      obtain ⟨d, hd, hdd⟩ := hdue k
      have hle := offered_first _ _ _ _ _ j d (by rw [hlen]; exact hl k) (hr k) hd hdd
      rw [hlen] at hle
      have hlt : Spec.distance n (ms k).last (r k) < Spec.distance n (ms k).last j := by
        rcases Nat.lt_or_eq_of_le hle with hx | hx
        · exact hx
        · have h1 := step_distance (hl k) hrk
          rw [hx, step_distance (hl k) hj] at h1
          exact absurd h1.symm hk
      have hnext := distance_next (hl k) hrk hj hlt
      obtain ⟨t, ht, hrt⟩ := ih (k + 1) (by rw [hlast]; omega)
      exact ⟨t + 1, by omega, by rw [show k + (t + 1) = k + 1 + t by omega]; exact hrt⟩

/-- Every device gets its turn: whatever happens to the states and timers of the others between the calls, a device that stays due is offered
within as many calls as there are devices. -/
theorem fair (n j : Nat) (ms : Nat → Mgr) (now : Nat → Nat) (fails : Nat → Nat → Bool) (r : Nat → Nat)
    (hlen : ∀ k, (ms k).devs.length = n) (h0 : (ms 0).last < n)
    (hr : ∀ k, ∃ m', nextToAttest (ms k) (now k) (fails k) = .ok (m', r k) ∧ (ms (k + 1)).last = m'.last)
    (hdue : ∀ k, ∃ d, (ms k).devs[j]? = some d ∧ Spec.attestable d.state ∧ d.due ≤ now k) (k : Nat) :
    ∃ t, t < n ∧ r (k + t) = j := by
  have hr' : ∀ k, nextToAttest (ms k) (now k) (fails k) = .ok ({ ms k with last := r k }, r k) ∧ (ms (k + 1)).last = r k := by
    intro k
    obtain ⟨m', h1, h2⟩ := hr k
    have hm := (offered_due _ _ _ _ _ h1).2
    exact ⟨by rw [h1, hm], by rw [h2, hm]⟩
  have hl : ∀ k, (ms k).last < n := by
    intro k
    cases k with
    | zero => exact h0
    | succ k =>
      obtain ⟨⟨d, hd, _⟩, _⟩ := offered_due _ _ _ _ _ (hr' k).1
      rw [(hr' k).2]
      rcases Nat.lt_or_ge (r k) (ms k).devs.length with hx | hx
      · rw [hlen] at hx; exact hx
      · rw [List.getElem?_eq_none hx] at hd; cases hd
  have hj : j < n := by
    obtain ⟨d, hd, _⟩ := hdue 0
    rcases Nat.lt_or_ge j (ms 0).devs.length with hx | hx
    · rw [hlen] at hx; exact hx
    · rw [List.getElem?_eq_none hx] at hd; cases hd
  exact fair_aux n j hj ms now fails r hlen hl (fun k => (hr' k).1) (fun k => (hr' k).2) hdue n k (distance_lt (by omega))

/-! ### States and cadence -/

/-- A change of state: a valid state of a device that can be attested is recorded with the period that follows from the old and the new state, and the other devices
stay as they are. -/
theorem update_exact (m : Mgr) (i s now : Nat) (d : Dev) (hi : m.devs[i]? = some d) (hd : d.state ≠ 5) (hs : Spec.valid s) :
    updateState m i s now true =
      ({ m with devs := m.devs.set i { d with state := s, due := now + Spec.wait m.authMs m.unauthMs d.state s } }, none) := by
  unfold updateState
  rw [if_neg (by simp only [Spec.valid] at hs; omega), hi]
  simp only [if_neg hd, if_true, timeoutFor_eq]

/-- How a call other than a change of state of device `i` leaves device `i`: the timer as it was, and the state too unless discovery starts again. -/
theorem step_other (m : Mgr) (o : Op) (i : Nat) (d : Dev) (hi : m.devs[i]? = some d) (ho : ∀ s now ok, o ≠ .update i s now ok) :
    ∃ d', (step m o).1.devs[i]? = some d' ∧ d'.due = d.due ∧ (d'.state = d.state ∨ (d.state ≠ 5 ∧ d'.state = 1)) := by
  cases o with
  | attest now fails =>
    simp only [step]
    cases hx : nextToAttest m now fails with
    | ok r =>
      obtain ⟨m', k⟩ := r
      exact ⟨d, by simp only [(offered_due _ _ _ _ _ hx).2]; exact hi, rfl, .inl rfl⟩
    | err e => exact ⟨d, hi, rfl, .inl rfl⟩
    | oob => exact ⟨d, hi, rfl, .inl rfl⟩
  | update k s now ok =>
    have hk : k ≠ i := fun e => ho s now ok (by rw [e])
    refine ⟨d, ?_, rfl, .inl rfl⟩
    simp only [step, updateState]
    split
    · exact hi
    · split
      · exact hi
      · split
        · exact hi
        · split
          · simp only [List.getElem?_set_ne hk, hi]
          · simp only [List.getElem?_set_ne hk, hi]
  | restart =>
    simp only [step, DevSched.restart, List.getElem?_map, hi, Option.map_some]
    split
    · rename_i h5; exact ⟨_, rfl, rfl, .inr ⟨h5, rfl⟩⟩
    · exact ⟨_, rfl, rfl, .inl rfl⟩
  | mark => exact ⟨d, hi, rfl, .inl rfl⟩
  | report =>
    simp only [step]
    cases hx : status m with
    | ok r =>
      obtain ⟨m', b⟩ := r
      have : m'.devs = m.devs := by
        unfold status at hx
        dsimp only at hx
        split at hx
        · rw [(Prod.mk.inj (Res.ok.inj hx)).1]
        · cases hy : statusLoop m.invalid (m.devs.drop m.nReq) none 0 m.buf with
          | ok b => rw [hy] at hx; rw [← (Prod.mk.inj (Res.ok.inj hx)).1]
          | err e => rw [hy] at hx; cases hx
          | oob => rw [hy] at hx; cases hx
      exact ⟨d, by simp only [this]; exact hi, rfl, .inl rfl⟩
    | err e => exact ⟨d, hi, rfl, .inl rfl⟩
    | oob => exact ⟨d, hi, rfl, .inl rfl⟩

theorem step_offer (m : Mgr) (o : Op) (i : Nat) (h : i ∈ (step m o).2.toList) :
    ∃ now fails d, o = .attest now fails ∧ m.devs[i]? = some d ∧ Spec.attestable d.state ∧ d.due ≤ now := by
  cases o with
  | attest now fails =>
    simp only [step] at h
    cases hx : nextToAttest m now fails with
    | ok r =>
      obtain ⟨m', k⟩ := r
      rw [hx] at h
      have : i = k := by simpa using h
      subst this
      obtain ⟨⟨d, hd⟩, _⟩ := offered_due _ _ _ _ _ hx
      exact ⟨now, fails, d, rfl, hd⟩
    | err e => rw [hx] at h; cases h
    | oob => rw [hx] at h; cases h
  | update k s now ok => cases h
  | restart => cases h
  | mark => cases h
  | report =>
    simp only [step] at h
    split at h <;> cases h

/-- A device that is not attestable (the own device, the bridge) stays so whatever happens, and is never offered. -/
theorem not_attestable_never (ops : List Op) : ∀ (m : Mgr) (i : Nat) (d : Dev), m.devs[i]? = some d → d.state = 5 →
    i ∉ offers m ops ∧ ∃ d', (after m ops).devs[i]? = some d' ∧ d'.state = 5 := by
  induction ops with
  | nil => intro m i d hi hd; exact ⟨List.not_mem_nil, d, hi, hd⟩
  | cons o os ih =>
    intro m i d hi hd
    have h1 : ∃ d', (step m o).1.devs[i]? = some d' ∧ d'.state = 5 := by
      by_cases ho : ∃ s now ok, o = .update i s now ok
      · obtain ⟨s, now, ok, rfl⟩ := ho
        refine ⟨d, ?_, hd⟩
        simp only [step, updateState]
        split
        · exact hi
        · rw [hi]; simp only [if_pos hd, hi]
      · obtain ⟨d', h1, _, h3⟩ := step_other m o i d hi (fun s now ok e => ho ⟨s, now, ok, e⟩)
        rcases h3 with h3 | h3
        · exact ⟨d', h1, h3.trans hd⟩
        · exact absurd hd h3.1
    obtain ⟨d', hd1, hd2⟩ := h1
    obtain ⟨ih1, ih2⟩ := ih _ i d' hd1 hd2
    refine ⟨?_, ih2⟩
    simp only [offers, List.mem_append, not_or]
    refine ⟨?_, ih1⟩
    intro hm
    obtain ⟨now, fails, d2, _, h2, h3, _⟩ := step_offer m o i hm
    rw [hi] at h2
    have := Option.some.inj h2
    subst this
    exact h3.2.2 hd

theorem cadence_aux (ops : List Op) : ∀ (m : Mgr) (i : Nat) (d : Dev), m.devs[i]? = some d →
    (∀ o ∈ ops, (∀ s now ok, o ≠ .update i s now ok) ∧ ∀ now fails, o = .attest now fails → now < d.due) → i ∉ offers m ops := by
  induction ops with
  | nil => intro m i d _ _; exact List.not_mem_nil
  | cons o os ih =>
    intro m i d hi hall
    obtain ⟨ho, hn⟩ := hall o (List.mem_cons_self ..)
    simp only [offers, List.mem_append, not_or]
    constructor
    · intro hm
      obtain ⟨now, fails, d2, he, h2, _, h4⟩ := step_offer m o i hm
      rw [hi] at h2
      have := Option.some.inj h2
      subst this
      have := hn now fails he
      omega
    · obtain ⟨d', hd', hdue, _⟩ := step_other m o i d hi ho
      refine ih _ i d' hd' (fun x hx => ?_)
      rw [hdue]
      exact hall x (List.mem_cons_of_mem _ hx)

/-- The cadence: after the result of an attestation is recorded at `t`, the device is not offered before its period is over, whatever happens to the
other devices in between. -/
theorem cadence (m : Mgr) (i s t : Nat) (d : Dev) (ops : List Op) (hi : m.devs[i]? = some d) (hd : d.state ≠ 5) (hs : Spec.valid s)
    (hops : ∀ o ∈ ops, (∀ s now ok, o ≠ .update i s now ok) ∧
      ∀ now fails, o = .attest now fails → now < t + Spec.wait m.authMs m.unauthMs d.state s) :
    i ∉ offers (updateState m i s t true).1 ops := by
  rw [update_exact m i s t d hi hd hs]
  have hlt : i < m.devs.length := by
    rcases Nat.lt_or_ge i m.devs.length with hx | hx
    · exact hx
    · rw [List.getElem?_eq_none hx] at hi; cases hi
  refine cadence_aux ops _ i { d with state := s, due := t + Spec.wait m.authMs m.unauthMs d.state s } ?_ hops
  simp only [List.getElem?_set_self hlt]

/-- An update is refused, and changes nothing, if the state is beyond the last one there is, if there is no such device, or if the device is one that is not attested. -/
theorem update_refused (m : Mgr) (i s now : Nat) (ok : Bool) (h : 34 < s ∨ m.devs[i]? = none ∨ ∃ d, m.devs[i]? = some d ∧ d.state = 5) :
    (updateState m i s now ok).1 = m ∧ (updateState m i s now ok).2 ≠ none := by
  unfold updateState
  split
  · exact ⟨rfl, nofun⟩
  · rcases h with h | h | ⟨d, h, hd⟩
    · omega
    · rw [h]; exact ⟨rfl, nofun⟩
    · simp only [h]
      rw [if_pos hd]; exact ⟨rfl, nofun⟩

/-! ### The time to the next action -/

theorem fold_min {α : Type} (f : α → Option Nat) (l : List α) : ∀ a : Nat,
    let r := l.foldl (fun dur x => match f x with | some v => min v dur | none => dur) a
    r ≤ a ∧ (∀ x ∈ l, ∀ v, f x = some v → r ≤ v) ∧ (r = a ∨ ∃ x ∈ l, f x = some r) := by
  induction l with
  | nil => intro a; exact ⟨Nat.le_refl _, fun x hx => (by cases hx), .inl rfl⟩
  | cons x l ih =>
    intro a
    dsimp only [List.foldl_cons]
    cases hx : f x with
    | none =>
      obtain ⟨h1, h2, h3⟩ := ih a
      refine ⟨h1, ?_, ?_⟩
      · intro y hy v hv
        rcases List.mem_cons.mp hy with rfl | hy
        · rw [hx] at hv; cases hv
        · exact h2 y hy v hv
      · rcases h3 with h3 | ⟨y, hy, hv⟩
        · exact .inl h3
        · exact .inr ⟨y, List.mem_cons_of_mem _ hy, hv⟩
    | some w =>
      obtain ⟨h1, h2, h3⟩ := ih (min w a)
      dsimp only at h1 h2 h3 ⊢
      refine ⟨by omega, ?_, ?_⟩
      · intro y hy v hv
        rcases List.mem_cons.mp hy with rfl | hy
        · rw [hx] at hv
          have := Option.some.inj hv
          omega
        · exact h2 y hy v hv
      · rcases h3 with h3 | ⟨y, hy, hv⟩
        · rcases Nat.le_total w a with hw | hw
          · rw [Nat.min_eq_left hw] at h3
            refine .inr ⟨x, List.mem_cons_self .., ?_⟩
            rw [Nat.min_eq_left hw, h3]; exact hx
          · rw [Nat.min_eq_right hw] at h3
            refine .inl ?_
            rw [Nat.min_eq_right hw, h3]
        · exact .inr ⟨y, List.mem_cons_of_mem _ hy, hv⟩

/-- The time to sleep: at most a minute, never past the moment at which a device that can be attested is due or a device waits to be discovered, and
no shorter than that. -/
theorem sleep_exact (m : Mgr) (ring : List Nat) (now : Nat) :
    let r := timeTillNext m ring now (fun _ => false)
    r ≤ 60000 ∧ (∀ d ∈ m.devs, Spec.attestable d.state → r ≤ d.due - now) ∧ (∀ t ∈ ring, r ≤ t - now) ∧
      (r = 60000 ∨ (∃ d ∈ m.devs, Spec.attestable d.state ∧ r = d.due - now) ∨ ∃ t ∈ ring, r = t - now) := by
  have e1 : (fun (dur : Nat) (d : Dev) => if !canBeAttested d.state then dur else minTimeout now false d.due dur)
      = fun dur d => match (if canBeAttested d.state then some (d.due - now) else none) with | some v => min v dur | none => dur := by
    funext dur d
    cases canBeAttested d.state <;> rfl
  have e2 : (fun (dur due : Nat) => minTimeout now false due dur) = fun dur due => match (some (due - now) : Option Nat) with | some v => min v dur | none => dur := by
    funext dur due
    rfl
  unfold timeTillNext
  simp only [e1, e2]
  have h1 := fold_min (fun d : Dev => if canBeAttested d.state then some (d.due - now) else none) m.devs 60000
  generalize m.devs.foldl _ 60000 = a at h1 ⊢
  have h2 := fold_min (fun due : Nat => some (due - now)) ring a
  dsimp only at h1 h2 ⊢
  generalize List.foldl _ a ring = r at h2 ⊢
  obtain ⟨h1a, h1b, h1c⟩ := h1
  obtain ⟨h2a, h2b, h2c⟩ := h2
  refine ⟨by omega, ?_, fun t ht => h2b t ht _ rfl, ?_⟩
  · intro d hd ha
    have := h1b d hd (d.due - now) (if_pos ((canBeAttested_iff _).mpr ha))
    omega
  · rcases h2c with h2c | ⟨t, ht, hv⟩
    · rcases h1c with h1c | ⟨d, hd, hv⟩
      · exact .inl (by omega)
      · refine .inr (.inl ⟨d, hd, ?_⟩)
        split at hv
        · rename_i hc
          exact ⟨(canBeAttested_iff _).mp hc, by rw [h2c]; exact (Option.some.inj hv).symm⟩
        · cases hv
    · exact .inr (.inr ⟨t, ht, (Option.some.inj hv).symm⟩)

theorem fold_zero {α : Type} (f : Nat → α → Nat) (hf : ∀ d x, f d x ≤ d) (l : List α) : ∀ a, l.foldl f a ≤ a ∧ ((∃ x ∈ l, ∀ d, f d x = 0) → l.foldl f a = 0) := by
  induction l with
  | nil => intro a; exact ⟨Nat.le_refl _, fun ⟨_, h, _⟩ => (by cases h)⟩
  | cons y l ih =>
    intro a
    have h1 := ih (f a y)
    refine ⟨Nat.le_trans h1.1 (hf a y), ?_⟩
    rintro ⟨x, hx, hz⟩
    rcases List.mem_cons.mp hx with rfl | hx
    · have := h1.1
      rw [hz] at this
      rw [List.foldl_cons, hz]
      omega
    · exact h1.2 ⟨x, hx, hz⟩

/-- There is no sleep at all if a timer that matters cannot be read. -/
theorem sleep_unreadable (m : Mgr) (ring : List Nat) (now : Nat) (fails : Nat → Bool)
    (h : (∃ d ∈ m.devs, Spec.attestable d.state ∧ fails d.due = true) ∨ ∃ t ∈ ring, fails t = true) : timeTillNext m ring now fails = 0 := by
  unfold timeTillNext
  have hr := fold_zero (fun dur due => minTimeout now (fails due) due dur) (fun d x => Nat.min_le_right _ _) ring
  rcases h with ⟨d, hd, ha, hf⟩ | ⟨t, ht, hf⟩
  · have h1 := (fold_zero (fun dur (d : Dev) => if !canBeAttested d.state then dur else minTimeout now (fails d.due) d.due dur)
      (fun n x => by split; exact Nat.le_refl _; exact Nat.min_le_right _ _) m.devs 60000).2
      ⟨d, hd, fun n => by rw [(canBeAttested_iff _).mpr ha, hf, if_neg (by decide)]; exact Nat.min_eq_left (Nat.zero_le _)⟩
    rw [h1]
    have := (hr 0).1
    omega
  · exact (hr _).2 ⟨t, ht, fun n => by rw [hf]; exact Nat.min_eq_left (Nat.zero_le _)⟩

/-! ### The report -/

/-- The report, when the devices of the table are grouped by component and the manager was created for that many components: exactly the
components in order, each with the number and the states of its instances (0xFF for each if the list of components could not be loaded). -/
theorem report_partial (m : Mgr) (bs : List (Nat × List Dev)) (hd : m.devs.drop m.nReq = bs.flatMap (·.2))
    (hb : ∀ b ∈ bs, b.1 < 2 ^ 32 ∧ b.2 ≠ [] ∧ ∀ d ∈ b.2, d.comp = b.1) (hn : (bs.map (·.1)).Nodup)
    (hu : m.nUniq = bs.length) (hr : m.nResp = (bs.flatMap (·.2)).length) (hbuf : m.buf.length = m.nResp + m.nUniq * 5) :
    ∃ m', status m = .ok (m', Spec.encode (bs.map fun b => ⟨b.1, b.2.map fun d => if m.invalid then 0xff else d.state⟩)) := by
  have henc : bs.flatMap (blockBytes m.invalid) = Spec.encode (bs.map fun b => ⟨b.1, b.2.map fun d => if m.invalid then 0xff else d.state⟩) := by
    simp only [Spec.encode, List.flatMap_map]
    congr 1
    funext b
    simp only [blockBytes, List.length_map, List.map_map]
    congr 2
    funext d
    simp only [Function.comp, stateByte]
    cases m.invalid <;> rfl
  have hlen : (bs.flatMap (blockBytes m.invalid)).length = m.nResp + m.nUniq * 5 := by
    rw [hr, hu]
    clear hd hb hn hu hr hbuf henc
    induction bs with
    | nil => rfl
    | cons b bs ih => simp only [List.flatMap_cons, List.length_append, blockBytes_length, List.length_cons, ih]; omega
  by_cases h0 : m.nResp = 0
  · have hbs : bs = [] := by
      cases bs with
      | nil => rfl
      | cons b bs =>
        have := List.length_pos_iff.mpr (hb b (List.mem_cons_self ..)).2.1
        rw [hr] at h0
        simp only [List.flatMap_cons, List.length_append] at h0
        omega
    subst hbs
    refine ⟨m, ?_⟩
    have hb0 : m.buf.length = 0 := by rw [hbuf, h0, hu]; rfl
    simp only [status, if_pos h0, List.eq_nil_of_length_eq_zero hb0]
    simp [window, Spec.encode]
  · have key := statusLoop_blocks m.invalid bs [] m.buf none hb hn (fun b _ r => by rintro ⟨h, hh, _⟩; cases hh) (by omega)
    simp only [List.nil_append, List.length_nil] at key
    rw [hlen, List.drop_eq_nil_of_le (by omega), List.append_nil] at key
    refine ⟨{ m with buf := bs.flatMap (blockBytes m.invalid) }, ?_⟩
    simp only [status, if_neg h0, hd, key, Res.bind]
    rw [window_all _ _ (by omega), henc]

/-! ### Cases that meet the hypotheses -/

/-- The own device and the bridge, then two devices of component 7 and one of component 9. -/
def exMgr : Mgr where
  devs := [⟨8, 0, 5, 0⟩, ⟨9, 0, 5, 0⟩, ⟨0x20, 7, 2, 0⟩, ⟨0x21, 7, 0, 500⟩, ⟨0x22, 9, 0x20, 40⟩]
  nReq := 2
  nUniq := 2
  nResp := 3
  last := 2
  authMs := 1000
  unauthMs := 100
  invalid := false
  buf := List.replicate 13 0xcc

example : nextToAttest exMgr 50 (fun _ => false) = .ok ({ exMgr with last := 4 }, 4) := by decide
example : eidOfNext exMgr 50 (fun _ => false) = .ok ({ exMgr with last := 4 }, 0x22) := by decide
example : exMgr.last < exMgr.devs.length ∧ Spec.attestable 0x20 ∧ Spec.wait 1000 100 2 4 = 100 ∧ Spec.distance 5 2 4 = 1 ∧ Spec.distance 5 2 2 = 4 := by decide
example : nextToAttest { exMgr with devs := exMgr.devs.take 2, last := 0 } 50 (fun _ => false) = .err .none := by decide

/-- Two devices that are always due are offered in turn. -/
example : ∃ (ms : Nat → Mgr) (r : Nat → Nat), (∀ k, (ms k).devs.length = 2) ∧ (ms 0).last < 2 ∧
    (∀ k, ∃ m', nextToAttest (ms k) 10 (fun _ => false) = .ok (m', r k) ∧ (ms (k + 1)).last = m'.last) ∧
    ∀ k, ∃ d, (ms k).devs[1]? = some d ∧ Spec.attestable d.state ∧ d.due ≤ 10 := by
  let base : Mgr := { exMgr with devs := [⟨8, 0, 0, 0⟩, ⟨9, 0, 0, 0⟩] }
  refine ⟨fun k => { base with last := k % 2 }, fun k => (k + 1) % 2, fun _ => rfl, by decide, ?_, fun k => ⟨⟨9, 0, 0, 0⟩, rfl, by decide⟩⟩
  intro k
  refine ⟨{ base with last := (k + 1) % 2 }, ?_, rfl⟩
  rcases Nat.mod_two_eq_zero_or_one k with h | h
  · have h1 : (k + 1) % 2 = 1 := by omega
    simp only [h, h1]; decide
  · have h1 : (k + 1) % 2 = 0 := by omega
    simp only [h, h1]; decide

/-- A device fails again at 50 and is not offered at 149; it is at 150. -/
example : offers (updateState exMgr 4 4 50 true).1 [.attest 149 (fun _ => false)] = [2] := by decide
example : offers (updateState exMgr 4 4 50 true).1 [.update 2 0 100 true, .attest 149 (fun _ => false)] = [] := by decide
example : offers (updateState exMgr 4 4 50 true).1 [.update 2 0 100 true, .attest 150 (fun _ => false)] = [4] := by decide
example : timeTillNext { exMgr with devs := exMgr.devs.drop 3 } [700] 10 (fun t => t == 700) = 0 := by decide
example : updateState exMgr 2 35 50 true = (exMgr, some .invalid) ∧ updateState exMgr 9 4 50 true = (exMgr, some .unknown) := by decide
example : timeTillNext exMgr [700] 10 (fun _ => false) = 0 ∧ timeTillNext { exMgr with devs := exMgr.devs.drop 3 } [700] 10 (fun _ => false) = 30 := by decide

example : ∃ m', status exMgr = .ok (m', [7, 0, 0, 0, 2, 2, 0, 9, 0, 0, 0, 1, 0x20]) := by
  obtain ⟨m', h⟩ := report_partial exMgr [(7, [⟨0x20, 7, 2, 0⟩, ⟨0x21, 7, 0, 500⟩]), (9, [⟨0x22, 9, 0x20, 40⟩])]
    rfl (by decide) (by decide) rfl rfl rfl
  exact ⟨m', h⟩

/-! ### What is false -/

/-- The report is not always confined to its buffer: if the devices of one component are not next to each other, there are more headers than there is room
for, and the last device is written outside. -/
theorem counterexample_interleaved :
    ∃ m : Mgr, m.nResp = 3 ∧ m.nUniq = 2 ∧ m.buf.length = m.nResp + m.nUniq * 5 ∧ m.devs.length = m.nReq + m.nResp ∧
      ((m.devs.drop m.nReq).map (·.comp)).eraseDups.length = m.nUniq ∧ status m = .oob := by
  refine ⟨{ exMgr with devs := [⟨8, 0, 5, 0⟩, ⟨9, 0, 5, 0⟩, ⟨0x20, 7, 2, 0⟩, ⟨0x22, 9, 0x20, 40⟩, ⟨0x21, 7, 0, 500⟩] }, ?_⟩
  decide

theorem fresh_bytes : Spec.encode ([(0, [⟨0, 0, 0, 0⟩, ⟨0, 0, 0, 0⟩, ⟨0, 0, 0, 0⟩])].map fun b : Nat × List Dev =>
    ⟨b.1, b.2.map fun d => if false = true then 255 else d.state⟩) = [0, 0, 0, 0, 3, 0, 0, 0] := by decide

/-- A manager that was just created reports all its devices as authenticated (0), although none was ever attested. -/
theorem counterexample_fresh (junk : Bytes) (hj : junk.length = 8) :
    ∃ m m', init 2 1 3 1000 100 junk = .ok m ∧ status m = .ok (m', [0, 0, 0, 0, 3, 0, 0, 0]) := by
  have hl : (window junk 0 8).length = 8 := by rw [window_length, hj]; rfl
  obtain ⟨m', h⟩ := report_partial
    { devs := [⟨0, 0, 5, 0⟩, ⟨0, 0, 0, 0⟩, ⟨0, 0, 0, 0⟩, ⟨0, 0, 0, 0⟩, ⟨0, 0, 0, 0⟩], nReq := 2, nUniq := 1, nResp := 3, last := 0, authMs := 1000,
      unauthMs := 100, invalid := false, buf := window junk 0 8 }
    [(0, [⟨0, 0, 0, 0⟩, ⟨0, 0, 0, 0⟩, ⟨0, 0, 0, 0⟩])] rfl (by decide) (by decide) rfl rfl hl
  dsimp only at h
  rw [fresh_bytes] at h
  exact ⟨_, m', rfl, h⟩

/-- If fewer components are present than the manager was created for, the end of the report is what the allocator returned. -/
theorem counterexample_stale (a b c d e : UInt8) :
    ∃ m m', init 1 2 2 1000 100 [0, 0, 0, 0, 0, 0, 0, a, b, c, d, e] = .ok m ∧ status m = .ok (m', [0, 0, 0, 0, 2, 0, 0, a, b, c, d, e]) := by
  have key := statusLoop_blocks false [(0, [⟨0, 0, 0, 0⟩, ⟨0, 0, 0, 0⟩])] [] [0, 0, 0, 0, 0, 0, 0, a, b, c, d, e] none (by decide) (by decide)
    (fun _ _ r => by rintro ⟨h, hh, _⟩; cases hh) (by simp only [List.flatMap_cons, List.flatMap_nil, List.append_nil, blockBytes_length, List.length_cons, List.length_nil]; omega)
  rw [show List.flatMap (blockBytes false) [(0, [⟨0, 0, 0, 0⟩, ⟨0, 0, 0, 0⟩])] = [0, 0, 0, 0, 2, 0, 0] from by decide] at key
  dsimp only [List.nil_append, List.length_nil, List.length_cons, List.flatMap_cons, List.flatMap_nil, List.append_nil, List.cons_append, List.drop, Nat.reduceAdd] at key
  let mk (b : Bytes) : Mgr := { devs := [⟨0, 0, 5, 0⟩, ⟨0, 0, 0, 0⟩, ⟨0, 0, 0, 0⟩], nReq := 1, nUniq := 2, nResp := 2, last := 0, authMs := 1000, unauthMs := 100, invalid := false, buf := b }
  refine ⟨mk [0, 0, 0, 0, 0, 0, 0, a, b, c, d, e], mk [0, 0, 0, 0, 2, 0, 0, a, b, c, d, e], rfl, ?_⟩
  have : statusLoop (mk [0, 0, 0, 0, 0, 0, 0, a, b, c, d, e]).invalid ((mk [0, 0, 0, 0, 0, 0, 0, a, b, c, d, e]).devs.drop 1) none 0
      [0, 0, 0, 0, 0, 0, 0, a, b, c, d, e] = .ok [0, 0, 0, 0, 2, 0, 0, a, b, c, d, e] := key
  have h2 : ¬ (mk [0, 0, 0, 0, 0, 0, 0, a, b, c, d, e]).nResp = 0 := show ¬ (2 = 0) from by omega
  unfold status
  dsimp only
  rw [if_neg h2, this]
  rfl

/-- A state without a period: a device that is authenticated with a timeout is due again at once. -/
theorem counterexample_no_period (m : Mgr) (i now : Nat) (d : Dev) (hi : m.devs[i]? = some d) (hd : d.state ≠ 5) :
    ∃ d', (updateState m i 7 now true).1.devs[i]? = some d' ∧ Spec.attestable d'.state ∧ d'.due = now := by
  rw [update_exact m i 7 now d hi hd (by decide)]
  have hlt : i < m.devs.length := by
    rcases Nat.lt_or_ge i m.devs.length with hx | hx
    · exact hx
    · rw [List.getElem?_eq_none hx] at hi; cases hi
  refine ⟨_, List.getElem?_set_self hlt, show Spec.attestable 7 from by decide, ?_⟩
  show now + Spec.wait m.authMs m.unauthMs d.state 7 = now
  rw [show Spec.wait m.authMs m.unauthMs d.state 7 = 0 from by
    unfold Spec.wait
    rw [if_neg (by omega), if_neg (by simp only [Spec.failed]; omega)]]
  rfl

end Verif.DevSched
