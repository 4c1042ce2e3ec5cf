import Verif.HostSingle.Model
import Verif.HostSingle.Spec
import Verif.HostState.Props
/-!
C153: the device a host with one filtered flash uses changes only by request, at power-on and at allowed events.
-/
namespace Verif.HostSingle
open Verif.StateManager (State)
open Verif.HostState
open Spec (Sel Call Event)

/-- What the configuration calls report. -/
def view (s : St) : Sel := ⟨(getConfig s).2.1, (getConfig s).2.2.1, (getConfig s).2.2.2⟩

/-- The host state holds settings: true after every initialisation and kept by every call (C26). -/
def Valid (s : St) : Prop := ∃ t, Shows s.st t

/-- The device the filter lets the host access. -/
def filterDevice (s : St) : Nat := if s.filter = 2 ∨ s.filter = 4 then 1 else 0

theorem view_shows {s : St} {t : Settings} (h : Shows s.st t) : view s = ⟨t.override.getD t.ro, t.ro, t.roEvents⟩ := by
  simp only [view, getConfig, h.ro, h.roNv, h.roEvents]

theorem nv_lt (s : State) : getRoFlashNv s < 2 := by unfold getRoFlashNv; split <;> omega
theorem ro_lt (s : State) : getRoFlash s < 2 := by
  unfold getRoFlash
  split
  · split <;> omega
  · exact nv_lt s

theorem cur_lt {s : State} {t : Settings} (h : Shows s t) : t.override.getD t.ro < 2 := h.ro ▸ ro_lt s
theorem ro_lt' {s : State} {t : Settings} (h : Shows s t) : t.ro < 2 := h.roNv ▸ nv_lt s

theorem shows_roFlash {s : State} {t : Settings} (h : Shows s t) {d : Nat} (hd : d < 2) :
    Shows (saveRoFlash s d).2 { t with ro := d } := by
  have := exec_shows s t h (.roFlash d)
  simpa only [exec, Settings.apply, if_pos hd] using this
theorem shows_override {s : State} {t : Settings} (h : Shows s t) {d : Nat} (hd : d < 2) :
    Shows (overrideRoFlash s d).2 { t with override := some d } := by
  have := exec_shows s t h (.overrideRo d)
  simpa only [exec, Settings.apply, if_pos hd] using this
theorem shows_events {s : State} {t : Settings} (h : Shows s t) {e : Nat} (he : e < 4) :
    Shows (saveRoEvents s e).2 { t with roEvents := e } := by
  have := exec_shows s t h (.roEvents e)
  simpa only [exec, Settings.apply, if_pos he] using this
theorem shows_clear {s : State} {t : Settings} (h : Shows s t) : Shows (clearRoOverride s) { t with override := none } :=
  exec_shows s t h .clearOverride
theorem shows_bypass {s : State} {t : Settings} (h : Shows s t) (b : Bool) : Shows (setBypass s b) { t with bypass := b } :=
  exec_shows s t h (.bypass b)
theorem shows_dirty {s : State} {t : Settings} (h : Shows s t) :
    Shows (saveInactiveDirty s true) { t with inactiveDirty := true, runTime := .none } :=
  exec_shows s t h (.inactiveDirty true)

/-- The settings after lines 192-206. -/
theorem shows_next {st : State} {t : Settings} (h : Shows st t) (ro : Nat) (hro : ro < 2) (next events : Option Nat)
    (hn : next.any (· > 1) = false) (he : events.any (· > 3) = false)
    (hcur : t.override = none → t.ro = ro) :
    ∃ t', Shows (configNext ro next events st) t' ∧ t'.override.getD t'.ro = t.override.getD t.ro ∧
      t'.ro = next.getD t.ro ∧ t'.roEvents = events.getD t.roEvents ∧ t'.bypass = t.bypass := by
  have key : ∃ t', Shows (match next with
      | none => st
      | some d => (saveRoFlash (if ro ≠ d ∧ hasRoOverride st = false then (overrideRoFlash st ro).2 else st) d).2) t' ∧
      t'.override.getD t'.ro = t.override.getD t.ro ∧ t'.ro = next.getD t.ro ∧ t'.roEvents = t.roEvents ∧
      t'.bypass = t.bypass := by
    cases next with
    | none => exact ⟨t, h, rfl, rfl, rfl, rfl⟩
    | some d =>
      have hd : d < 2 := by simp at hn; omega
      by_cases hc : ro ≠ d ∧ hasRoOverride st = false
      · simp only [if_pos hc]
        refine ⟨_, shows_roFlash (shows_override h hro) hd, ?_, rfl, rfl, rfl⟩
        have hno : t.override = none := by
          have := hc.2; rw [h.hasOverride] at this
          cases ho : t.override with
          | none => rfl
          | some x => rw [ho] at this; cases this
        simp [hno, hcur hno]
      · simp only [if_neg hc]
        refine ⟨_, shows_roFlash h hd, ?_, rfl, rfl, rfl⟩
        cases ho : t.override with
        | some x => rfl
        | none =>
          have hov : hasRoOverride st = false := by rw [h.hasOverride, ho]; rfl
          have : ro = d := by
            apply Decidable.byContradiction
            intro hne
            exact hc ⟨hne, hov⟩
          show d = t.ro
          rw [hcur ho, this]
  obtain ⟨t1, g1, g2, g3, g4, g5⟩ := key
  unfold configNext
  cases events with
  | none => exact ⟨t1, g1, g2, g3, g4, g5⟩
  | some e =>
    have he' : e < 4 := by simp at he; omega
    exact ⟨_, shows_events g1 he', g2, g3, rfl, g5⟩

/-- Entering bypass mode with two devices. -/
theorem shows_configBypass {g : Cfg} (hg : g.two = true) {s : St} {t : Settings} (h : Shows s.st t) :
    Shows (configBypass g s).st { t with bypass := true } ∧
    filterDevice (configBypass g s) = t.override.getD t.ro := by
  have hc := cur_lt h
  refine ⟨?_, ?_⟩
  · simp only [configBypass, enableBypass, hg, if_true]
    exact shows_bypass h true
  · simp only [configBypass, enableBypass, hg, if_true, filterDevice, h.ro]
    generalize t.override.getD t.ro = c at hc
    have : c = 0 ∨ c = 1 := by omega
    cases g.full <;> rcases this with rfl | rfl <;> rfl

/-- **C153** The configuration is accepted exactly if its values are in range, there are two devices, and access is granted when the
current device changes. A configuration that is refused for its values or the number of devices changes nothing. -/
theorem config_accepted (g : Cfg) (rot : Int) (c n e : Option Nat) (s : St) :
    ((configRo g rot c n e s).1 = .ok ↔ (∀ d ∈ c, d ≤ 1) ∧ (∀ d ∈ n, d ≤ 1) ∧ (∀ x ∈ e, x ≤ 3) ∧ g.two = true ∧
      ((∃ d, c = some d ∧ d ≠ (view s).current) → rot = 0)) ∧
    ((configRo g rot c n e s).1 = .invalidArgument ∨ (configRo g rot c n e s).1 = .unsupported →
      (configRo g rot c n e s).2 = s) := by
  have hv : (view s).current = getRoFlash s.st := rfl
  rw [hv]
  have hall : ∀ (o : Option Nat) (k : Nat), (∀ d ∈ o, d ≤ k) ↔ ¬ o.any (· > k) = true := by
    intro o k; cases o <;> simp
  rw [hall, hall, hall]
  unfold configRo
  by_cases h1 : c.any (· > 1) = true
  · simp [if_pos h1, h1]
  by_cases h2 : n.any (· > 1) = true
  · simp [if_neg h1, if_pos h2, h2]
  by_cases h3 : e.any (· > 3) = true
  · simp [if_neg h1, if_neg h2, if_pos h3, h3]
  rw [if_neg h1, if_neg h2, if_neg h3]
  by_cases h4 : (!g.two) = true
  · rw [if_pos h4]
    have : g.two = false := by simpa using h4
    simp [this]
  rw [if_neg h4]
  have hg : g.two = true := by simpa using h4
  simp only [h1, h2, h3, hg, not_false_eq_true, true_and]
  cases c with
  | none => simp
  | some d =>
    by_cases hd : getRoFlash s.st = d
    · simp [hd]
    · by_cases hr : rot = 0
      · simp [hd, hr]
      · have hd' : ¬ d = getRoFlash s.st := fun h => hd h.symm
        simp [hd, hd', hr]

/-- **C153** An accepted configuration sets exactly what was asked for. When the current device changes, the filter gives the host
that device, in bypass mode. -/
theorem config_exact (g : Cfg) (rot : Int) (c n e : Option Nat) (s : St) (hs : Valid s)
    (h : (configRo g rot c n e s).1 = .ok) :
    view (configRo g rot c n e s).2 = (view s).apply (.config c n e) ∧ Valid (configRo g rot c n e s).2 ∧
    (if c.getD (view s).current ≠ (view s).current then
        filterDevice (configRo g rot c n e s).2 = c.getD (view s).current ∧ isBypass (configRo g rot c n e s).2.st = true
      else (configRo g rot c n e s).2.filter = s.filter ∧ isBypass (configRo g rot c n e s).2.st = isBypass s.st) := by
  obtain ⟨t, ht⟩ := hs
  have hro := cur_lt ht
  rw [view_shows ht]
  unfold configRo at h ⊢
  by_cases h1 : c.any (· > 1) = true
  · rw [if_pos h1] at h; cases h
  by_cases h2 : n.any (· > 1) = true
  · rw [if_neg h1, if_pos h2] at h; cases h
  by_cases h3 : e.any (· > 3) = true
  · rw [if_neg h1, if_neg h2, if_pos h3] at h; cases h
  by_cases h4 : (!g.two) = true
  · rw [if_neg h1, if_neg h2, if_neg h3, if_pos h4] at h; cases h
  rw [if_neg h1, if_neg h2, if_neg h3, if_neg h4] at h ⊢
  have h2' : n.any (· > 1) = false := by simpa using h2
  have h3' : e.any (· > 3) = false := by simpa using h3
  have hg : g.two = true := by simpa using h4
  simp only [ht.ro] at h ⊢
  have hcur : t.override = none → t.ro = t.override.getD t.ro := by intro ho; rw [ho]; rfl
  obtain ⟨t1, g1, g2, g3, g4, g5⟩ := shows_next ht _ hro n e h2' h3' hcur
  have same : ∀ c', c' = t.override.getD t.ro →
      view { s with st := configNext (t.override.getD t.ro) n e s.st } =
        (⟨c', n.getD t.ro, e.getD t.roEvents⟩ : Sel) ∧
      Valid { s with st := configNext (t.override.getD t.ro) n e s.st } := by
    intro c' hc'
    refine ⟨?_, t1, g1⟩
    rw [view_shows (s := { s with st := configNext (t.override.getD t.ro) n e s.st }) g1, g2, g3, g4, hc']
  cases c with
  | none =>
    obtain ⟨a, b⟩ := same _ rfl
    refine ⟨a, b, ?_⟩
    simp only [Option.getD_none, ne_eq, not_true_eq_false, if_false]
    exact ⟨trivial, by rw [g1.bypass, g5, ht.bypass]⟩
  | some d =>
    have hd : d < 2 := by simp at h1; omega
    by_cases hne : t.override.getD t.ro ≠ d
    · simp only [if_pos hne] at h ⊢
      by_cases hr : rot ≠ 0
      · rw [if_pos hr] at h; cases h
      · rw [if_neg hr]
        obtain ⟨b1, b2⟩ := shows_configBypass hg (s := { s with st := (overrideRoFlash s.st d).2 }) (shows_override ht hd)
        obtain ⟨t2, k1, k2, k3, k4, k5⟩ := shows_next b1 _ hro n e h2' h3' (by intro ho; cases ho)
        refine ⟨?_, ⟨t2, k1⟩, ?_⟩
        · have hw := view_shows (s := ⟨configNext (t.override.getD t.ro) n e (configBypass g { s with st := (overrideRoFlash s.st d).2 }).st,
            (configBypass g { s with st := (overrideRoFlash s.st d).2 }).filter⟩) k1
          rw [k2, k3, k4] at hw
          exact hw
        · simp only [Option.getD_some]
          rw [if_pos (fun hc => hne hc.symm)]
          exact ⟨b2, by rw [k1.bypass, k5]⟩
    · simp only [if_neg hne] at h ⊢
      have hd' : d = t.override.getD t.ro := by
        apply Decidable.byContradiction; intro hc; exact hne (fun x => hc x.symm)
      obtain ⟨a, b⟩ := same d hd'
      refine ⟨a, b, ?_⟩
      simp only [Option.getD_some]
      rw [if_neg (by simp [hd'])]
      exact ⟨trivial, by rw [g1.bypass, g5, ht.bypass]⟩

/-- The call for the start of a verification. -/
def start : Event → St → Bool × St
  | .reset => startReset
  | .runTime => startRunTime

theorem events_lt {s : State} {t : Settings} (h : Shows s t) : t.roEvents < 4 := by
  rw [← h.roEvents, getRoEvents, events_bits]
  cases s.nv.getLsbD 4 <;> cases s.nv.getLsbD 5 <;> simp

/-- **C153** At an event the next device is taken exactly if the event is allowed. A change forces a verification: the flash counts
as modified. -/
theorem start_exact (ev : Event) (s : St) (hs : Valid s) :
    view (start ev s).2 = (view s).apply (.start ev) ∧ Valid (start ev s).2 ∧
    (start ev s).2.filter = s.filter ∧
    ((start ev s).1 = true ↔ (view (start ev s).2).current ≠ (view s).current) ∧
    ((start ev s).1 = true → isInactiveDirty (start ev s).2.st = true) := by
  obtain ⟨t, ht⟩ := hs
  have hev := events_lt ht
  have key : ∀ ign, (decide (t.roEvents ≠ 0 ∧ t.roEvents ≠ ign) = Spec.allowed t.roEvents ev) →
      view (prepare ign s).2 = (view s).apply (.start ev) ∧ Valid (prepare ign s).2 ∧
      (prepare ign s).2.filter = s.filter ∧
      ((prepare ign s).1 = true ↔ (view (prepare ign s).2).current ≠ (view s).current) ∧
      ((prepare ign s).1 = true → isInactiveDirty (prepare ign s).2.st = true) := by
    intro ign hal
    simp only [view_shows ht, Sel.apply, ← hal]
    unfold prepare
    simp only [ht.ro, ht.roNv, ht.roEvents, decide_eq_true_eq]
    by_cases hc : t.roEvents ≠ 0 ∧ t.roEvents ≠ ign
    · simp only [if_pos hc]
      by_cases hn : t.override.getD t.ro ≠ t.ro
      · simp only [if_pos hn]
        have g := shows_clear (shows_dirty ht)
        have hw := view_shows (s := { s with st := clearRoOverride (saveInactiveDirty s.st true) }) g
        refine ⟨hw, ⟨_, g⟩, trivial, ?_, fun _ => g.inactiveDirty⟩
        rw [hw]
        simp only [decide_eq_true_eq]
        exact ⟨fun _ => fun hx => hn hx.symm, fun _ => hn⟩
      · simp only [if_neg hn]
        have g := shows_clear ht
        have hw := view_shows (s := { s with st := clearRoOverride s.st }) g
        refine ⟨hw, ⟨_, g⟩, trivial, ?_, fun hx => absurd (of_decide_eq_true hx) hn⟩
        rw [hw]
        simp only [decide_eq_true_eq]
        exact ⟨fun hx => absurd hx hn, fun hx => absurd (fun hy => hx hy.symm) hn⟩
    · simp only [if_neg hc]
      refine ⟨view_shows ht, ⟨t, ht⟩, trivial, ?_, fun hx => by cases hx⟩
      rw [view_shows ht]
      simp
  have hcases : t.roEvents = 0 ∨ t.roEvents = 1 ∨ t.roEvents = 2 ∨ t.roEvents = 3 := by omega
  cases ev with
  | reset => exact key 2 (by rcases hcases with h | h | h | h <;> rw [h] <;> decide)
  | runTime => exact key 1 (by rcases hcases with h | h | h | h <;> rw [h] <;> decide)

/-- **C153** The end of a verification changes neither the selection nor the filter. -/
theorem finish_exact (s : St) (hs : Valid s) :
    view (finalize s) = (view s).apply .finish ∧ Valid (finalize s) ∧ (finalize s).filter = s.filter := by
  obtain ⟨t, ht⟩ := hs
  rw [view_shows ht]
  unfold finalize
  simp only [ht.ro, ht.roNv]
  by_cases hc : t.override.getD t.ro = t.ro
  · rw [if_pos hc]
    have g := shows_clear ht
    refine ⟨?_, ⟨_, g⟩, rfl⟩
    rw [view_shows (s := { s with st := clearRoOverride s.st }) g, hc]
    rfl
  · rw [if_neg hc]
    exact ⟨view_shows ht, ⟨t, ht⟩, rfl⟩

/-- **C153** At power-on the next device becomes the current one. -/
theorem powerOn_exact (s : St) (hs : Valid s) :
    view (powerOn s) = (view s).apply .powerOn ∧ Valid (powerOn s) := by
  obtain ⟨t, ht⟩ := hs
  have g := shows_clear (shows_bypass (exec_shows s.st t ht (.pfmDirty true)) false)
  refine ⟨?_, ⟨_, g⟩⟩
  rw [view_shows ht]
  exact (view_shows (s := powerOn s) g).trans rfl

/-- **C153** Bypass mode gives the host the current device, or the other one on request, unless a temporary selection is in
effect: then the current device stays (see `counterexample_bypass_swap`). -/
theorem bypass_exact_partial (g : Cfg) (swap : Bool) (s : St) (hs : Valid s) (hg : g.two = true)
    (h : swap = true → hasRoOverride s.st = false) :
    view (bypassMode g swap s) = (view s).apply (.bypass swap) ∧ Valid (bypassMode g swap s) ∧
    filterDevice (bypassMode g swap s) = (view (bypassMode g swap s)).current ∧
    isBypass (bypassMode g swap s).st = true := by
  obtain ⟨t, ht⟩ := hs
  have hc := cur_lt ht
  have fin : ∀ (st : State) (t' : Settings), Shows st t' →
      view (configBypass g { s with st := st }) = ⟨t'.override.getD t'.ro, t'.ro, t'.roEvents⟩ ∧
      Valid (configBypass g { s with st := st }) ∧
      filterDevice (configBypass g { s with st := st }) = (view (configBypass g { s with st := st })).current ∧
      isBypass (configBypass g { s with st := st }).st = true := by
    intro st t' h'
    obtain ⟨b1, b2⟩ := shows_configBypass hg (s := { s with st := st }) h'
    have hw := view_shows b1
    refine ⟨hw, ⟨_, b1⟩, ?_, b1.bypass⟩
    rw [b2, hw]
  unfold bypassMode
  simp only [hg, Bool.not_true, Bool.false_eq_true, if_false, ht.ro]
  rw [view_shows ht]
  cases swap with
  | false => exact fin _ _ ht
  | true =>
    have hno : t.override = none := by
      have := h rfl
      rw [ht.hasOverride] at this
      cases ho : t.override with
      | none => rfl
      | some x => rw [ho] at this; cases this
    simp only [if_true, hno, Option.getD_none] at hc ⊢
    have hcs : t.ro = 0 ∨ t.ro = 1 := by omega
    rcases hcs with h0 | h0
    · have := fin _ _ (shows_roFlash ht (d := 1) (by omega))
      simpa [h0, hno, Sel.apply] using this
    · have := fin _ _ (shows_roFlash ht (d := 0) (by omega))
      simpa [h0, hno, Sel.apply] using this

/-- **C153** With one device, bypass mode gives the host that device, whatever the settings were. -/
theorem bypass_one_device (g : Cfg) (swap : Bool) (s : St) (hs : Valid s) (hg : g.two = false) :
    view (bypassMode g swap s) = ⟨0, 0, (view s).events⟩ ∧ filterDevice (bypassMode g swap s) = 0 ∧
    isBypass (bypassMode g swap s).st = true := by
  obtain ⟨t, ht⟩ := hs
  have g1 := shows_bypass (shows_clear (shows_roFlash (shows_roFlash ht (d := 0) (by omega)) (d := 0) (by omega))) true
  have e : (bypassMode g swap s).st = setBypass (clearRoOverride (saveRoFlash (saveRoFlash s.st 0).2 0).2) true := by
    simp [bypassMode, configBypass, enableBypass, hg]
  rw [← e] at g1
  refine ⟨?_, ?_, g1.bypass⟩
  · rw [view_shows g1, view_shows ht]; rfl
  · simp only [bypassMode, configBypass, enableBypass, hg, filterDevice]
    cases g.full <;> rfl

/-- One call, with the result of the access to the flash. -/
def exec1 (g : Cfg) (s : St) : Call × Int → St
  | (.config c n e, rot) => (configRo g rot c n e s).2
  | (.start ev, _) => (start ev s).2
  | (.finish, _) => finalize s
  | (.powerOn, _) => powerOn s
  | (.bypass swap, _) => bypassMode g swap s

/-- Calls the history theorem covers: values in range, access to the flash granted, no exchange of the devices in bypass mode. -/
def Covered : Call × Int → Prop
  | (.config c n e, rot) => (∀ d ∈ c, d ≤ 1) ∧ (∀ d ∈ n, d ≤ 1) ∧ (∀ x ∈ e, x ≤ 3) ∧ rot = 0
  | (.bypass swap, _) => swap = false
  | _ => True

/-- **C153** For every history of calls the selection is the one the calls asked for. -/
theorem history_exact_partial (g : Cfg) (hg : g.two = true) (l : List (Call × Int)) (hl : ∀ x ∈ l, Covered x) (s : St)
    (hs : Valid s) :
    view (l.foldl (exec1 g) s) = (l.map Prod.fst).foldl Sel.apply (view s) ∧ Valid (l.foldl (exec1 g) s) := by
  induction l generalizing s with
  | nil => exact ⟨rfl, hs⟩
  | cons x l ih =>
    have step : view (exec1 g s x) = (view s).apply x.1 ∧ Valid (exec1 g s x) := by
      have hx := hl x (by simp)
      obtain ⟨call, rot⟩ := x
      cases call with
      | config c n e =>
        obtain ⟨x1, x2, x3, x4⟩ := hx
        have := config_exact g rot c n e s hs ((config_accepted g rot c n e s).1.mpr ⟨x1, x2, x3, hg, fun _ => x4⟩)
        exact ⟨this.1, this.2.1⟩
      | start ev => have := start_exact ev s hs; exact ⟨this.1, this.2.1⟩
      | finish => have := finish_exact s hs; exact ⟨this.1, this.2.1⟩
      | powerOn => exact powerOn_exact s hs
      | bypass swap =>
        have hsw : swap = false := hx
        have := bypass_exact_partial g swap s hs hg (by rw [hsw]; intro hc; cases hc)
        exact ⟨this.1, this.2.1⟩
    have r := ih (fun y hy => hl y (by simp [hy])) (exec1 g s x) step.2
    rw [step.1] at r
    exact r

/-- A freshly initialised host. -/
def fresh : St := ⟨⟨0, 0xffff, 0xffff, 0x41⟩, 3⟩

theorem fresh_valid : Valid fresh :=
  ⟨⟨0, 0, none, false, 3, 0, true, .none, false, true⟩, by
    constructor <;> decide⟩

/-- **C153** Counterexample: the change of the current device fails, but the new device counts as the current one while the filter
still gives the host the old one; the next device and the events of the request are dropped. -/
theorem counterexample_failed_switch :
    ∃ s, Valid s ∧ (configRo ⟨true, false⟩ 5 (some 1) (some 1) (some 1) s).1 = .flash 5 ∧
      view s = ⟨0, 0, 3⟩ ∧ view (configRo ⟨true, false⟩ 5 (some 1) (some 1) (some 1) s).2 = ⟨1, 0, 3⟩ ∧
      filterDevice (configRo ⟨true, false⟩ 5 (some 1) (some 1) (some 1) s).2 = 0 :=
  ⟨fresh, fresh_valid, by decide, by decide, by decide, by decide⟩

/-- **C153** Counterexample: with a temporary selection in effect, bypass mode with an exchange of the devices does not exchange
them. -/
theorem counterexample_bypass_swap :
    ∃ s, Valid s ∧ (view (bypassMode ⟨true, false⟩ true s)).current = (view s).current ∧
      filterDevice (bypassMode ⟨true, false⟩ true s) = (view s).current := by
  have h := config_exact ⟨true, false⟩ 0 (some 1) none none fresh fresh_valid (by decide)
  exact ⟨_, h.2.1, by decide, by decide⟩

/-- A history: the next device is set, a reset is not an allowed event, run-time verification is. -/
example : view ([(Call.config none (some 1) (some 2), (0 : Int)), (.start .reset, 0), (.finish, 0)].foldl (exec1 ⟨true, false⟩) fresh)
      = ⟨0, 1, 2⟩ ∧
    view ([(Call.config none (some 1) (some 2), (0 : Int)), (.start .reset, 0), (.finish, 0), (.start .runTime, 0)].foldl
      (exec1 ⟨true, false⟩) fresh) = ⟨1, 1, 2⟩ := by
  constructor <;> decide

end Verif.HostSingle
