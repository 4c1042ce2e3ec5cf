import Verif.HostProc.Rollback
import Verif.HostProc.RunTime
/-! The properties of the host processor. -/
namespace Verif.HostProc
variable {P C : Type}

/-- Using a triple. -/
theorem Tri.run {α : Type} {safe pre er : St P C → Prop} {m : M P C α} {ok : α → St P C → Prop} (h : Tri safe pre m ok er) {s0 : St P C} (hp : pre s0) :
    (∀ s ∈ (m (Run.init s0)).2.log, safe s) ∧ match (m (Run.init s0)).1 with
      | .ok a => ok a (m (Run.init s0)).2.st
      | .error (.err _) => er (m (Run.init s0)).2.st
      | .error .hang => True :=
  h (Run.init s0) hp (by intro s hs; simp [Run.init] at hs)

/-! ### The host only runs verified firmware (C70) -/

/-- From any start, whatever happens and fails, and over any number of boots: in every state on the way, a running host that is not in bypass mode runs
firmware that was verified with the active PFM (or the recovery image), and cannot change it.

Partial: the host must have been released after a success of `host_irq_handler_power_on` only (see `failed_power_on_partial`), bypass mode must not use the
bypass mode of the filter (see `full_bypass_keeps_bypass`), and the PFM may be one whose activation failed after the verification. -/
theorem runs_verified_partial {c : Cfg P C} {T : P → Prop} {e : Nat → Resp C} (snd : Sound c) (hf : c.fullBypass = false) {s0 : St P C} (hs : Start T s0)
    (l : List (Bool × List (Ev P))) (hl : ∀ b ∈ l, ∀ x ∈ b.2, x.Genuine T) :
    ∀ s ∈ (boots c e l (Run.init s0)).2.log, RunsVerified c T s :=
  ((boots_ok (er := fun _ => True) snd hf l hl).run ⟨hs.active, hs.pending, hs.preval, fun _ => hs.mode⟩).1

/-- The same for both implementations of bypass mode, over one boot. -/
theorem boot_runs_verified_partial {c : Cfg P C} {T : P → Prop} {e : Nat → Resp C} (snd : Sound c) {s0 : St P C} (hs : Start T s0)
    (allow : Bool) (l : List (Ev P)) (hl : ∀ x ∈ l, x.Genuine T) :
    ∀ s ∈ (boot c e allow l (Run.init s0)).2.log, RunsVerified c T s :=
  ((boot_ok (er := fun _ => True) snd allow l hl).run ⟨⟨hs.active, hs.pending, hs.preval, fun _ => hs.mode⟩, hs.mode⟩).1

/-- If `host_irq_handler_power_on` succeeds, then the host is still held in reset, and it is in bypass mode or the filter protects the read-only flash,
which was verified. -/
theorem power_on_protects {c : Cfg P C} {T : P → Prop} {e : Nat → Resp C} (snd : Sound c) (allow : Bool) {s0 : St P C} (hs : Start T s0) (hh : s0.held = true)
    (h : (powerOn c e allow (Run.init s0)).1 = .ok ()) :
    let s := (powerOn c e allow (Run.init s0)).2.st
    s.held = true ∧ (s.bypass = false → s.filter.mode = .dual ∧ s.filter.fullRw = false ∧ s.filter.ro = s.ro ∧
      ∀ a, s.active = some a → s.recov s.ro = true ∨ ∃ p, T p ∧ c.passes p false (s.flash s.ro) = true ∧ (s.lapse = false → p = a)) := by
  have h1 := ((powerOn_ok (e := e) (T := T) snd allow).run ⟨hh, ⟨hs.active, hs.pending, hs.preval, fun _ => hs.mode⟩, hs.mode⟩).2
  rw [h] at h1
  have h1 : H c T true true (powerOn c e allow (Run.init s0)).2.st := h1
  exact ⟨h1.hld rfl, fun hb => ⟨h1.inv.mode hb, (h1.inv.kf rfl hb).rw, (h1.inv.kf rfl hb).ro, (h1.inv.kf rfl hb).ok⟩⟩

/-- A failed `host_irq_handler_power_on` leaves the host in reset and not in bypass mode, whatever failed. -/
theorem failed_power_on_partial {c : Cfg P C} {T : P → Prop} {e : Nat → Resp C} (snd : Sound c) (allow : Bool) {s0 : St P C} (hs : Start T s0) (hh : s0.held = true)
    {x : Err} (h : (powerOn c e allow (Run.init s0)).1 = .error (.err x)) :
    let s := (powerOn c e allow (Run.init s0)).2.st
    s.held = true ∧ s.bypass = false := by
  have h1 := ((powerOn_ok (e := e) (T := T) snd allow).run ⟨hh, ⟨hs.active, hs.pending, hs.preval, fun _ => hs.mode⟩, hs.mode⟩).2
  rw [h] at h1
  have h1 : HB c T false true (powerOn c e allow (Run.init s0)).2.st := h1
  exact ⟨h1.h.hld rfl, h1.nb rfl⟩

/-- Flash contents and PFMs are numbers; the PFM `p` allows contents whose last digit is `p`; no image, and everything works if the environment wants. -/
def exCfg : Cfg Nat Nat where
  empty p := p == 0
  passes p _ x := x % 10 == p
  quick p _ x := x % 10 == p
  fullBypass := false
  pulse := false
  resetFlash := false
  recovery := false
  tries := 3

/-- Calls succeed; the host writes numbers that depend on the time. -/
def exEnv (n : Nat) : Resp Nat := ⟨none, false, fun _ => 7 + 10 * n, true, n % 3 == 0, false⟩

/-- As `exEnv`, and sometimes calls fail. -/
def exBad (n : Nat) : Resp Nat := ⟨if n % 11 == 5 then some .failed else none, n % 2 == 0, fun _ => 7 + 10 * n, true, true, false⟩

/-- The contents of the read-only and of the read/write device; a PFM is active. -/
def exSt (x y : Nat) (a p : Option Nat) : St Nat Nat where
  flash d := match d with | .cs0 => x | .cs1 => y
  filter := ⟨.dual, .cs0, false, false, false⟩
  ctl := false
  held := false
  nvRo := .cs0
  override := none
  dirty := false
  events := .all
  pfmDirty := false
  preval := .none
  bypass := false
  badFlash := false
  active := a
  pending := p
  recov _ := false
  lapse := false

theorem exCfg_sound : Sound exCfg := ⟨fun _ _ h => h, fun _ _ _ h _ => h⟩

/-- There are runs with a running host, an update of the firmware and of the PFM. -/
example : Start (fun p : Nat => p < 10) (exSt 5 6 (some 5) none) ∧
    (boots exCfg exEnv [(false, [.idle, .pfmVerified 7, .softReset, .idle, .runTime])] (Run.init (exSt 5 6 (some 5) none))).2.log.any (fun s =>
      s.running && !s.bypass && s.active == some 7 && s.filter.ro == .cs1 && s.flash .cs1 % 10 == 7) = true ∧
    (boots exCfg exEnv [(false, [.idle, .pfmVerified 7, .softReset, .idle, .runTime])] (Run.init (exSt 5 6 (some 5) none))).2.log.any (fun s =>
      s.running && !s.bypass && s.active == some 5 && s.filter.ro == .cs0) = true := by
  refine ⟨⟨rfl, rfl, ?_, nofun⟩, ?_⟩
  · rintro p ⟨⟩
    decide
  · decide_cbv

/-- The same with failures, and two boots. -/
example : (boots exCfg exBad [(false, [.idle, .pfmVerified 7, .softReset]), (true, [.idle])] (Run.init (exSt 5 6 (some 5) none))).2.log.any (fun s =>
      s.running && !s.bypass && s.active == some 7) = true := by
  decide_cbv

example : (match (powerOn exCfg exEnv false (Run.init { exSt 5 6 (some 5) none with held := true })).1 with | .ok _ => true | _ => false) = true ∧
    (match (powerOn exCfg exEnv false (Run.init { exSt 4 6 (some 5) none with held := true })).1 with | .error (.err _) => true | _ => false) = true ∧
    (powerOn exCfg exEnv true (Run.init { exSt 4 6 (some 5) none with held := true })).2.st.bypass = true := by
  decide_cbv

/-- After a power-on that failed because no flash device passes verification, a reset of the host gives it its flash and releases it: it runs firmware that
was not verified, although a PFM is active and it is not in bypass mode. (`power_on_reset` is documented to leave the system so that other functions behave
correctly, host_processor.h:59-60.) -/
theorem failed_power_on_then_reset_runs_unverified :
    Sound exCfg ∧ Start (fun p => p = 5) (exSt 4 6 (some 5) none) ∧
    ∃ s ∈ ((do
        hold exEnv true
        (powerOn exCfg exEnv false).ignore
        softReset exCfg exEnv : M Nat Nat Unit) (Run.init (exSt 4 6 (some 5) none))).2.log,
      s.running = true ∧ s.bypass = false ∧ s.active = some 5 ∧ s.flash s.filter.ro = 4 ∧ s.recov s.filter.ro = false ∧ ¬ RunsVerified exCfg (fun p => p = 5) s := by
  refine ⟨exCfg_sound, ⟨rfl, rfl, ?_, nofun⟩, ?_⟩
  · rintro p ⟨⟩
    rfl
  · have key : ((do
        hold exEnv true
        (powerOn exCfg exEnv false).ignore
        softReset exCfg exEnv : M Nat Nat Unit) (Run.init (exSt 4 6 (some 5) none))).2.log.any (fun s =>
          s.running && !s.bypass && s.active == some 5 && s.flash s.filter.ro == 4 && !s.recov s.filter.ro) = true := by
      decide_cbv
    rw [List.any_eq_true] at key
    obtain ⟨s, hs, h⟩ := key
    simp only [Bool.and_eq_true, Bool.not_eq_true', beq_iff_eq] at h
    refine ⟨s, hs, h.1.1.1.1, h.1.1.1.2, h.1.1.2, h.1.2, h.2, fun hv => ?_⟩
    obtain ⟨_, _, hr | ⟨p, rfl, hp, _⟩⟩ := hv h.1.1.1.1 h.1.1.1.2 5 h.1.1.2
    · rw [hr] at h
      simp at h
    · rw [h.1.2] at hp
      simp [exCfg] at hp

/-- And meanwhile no recovery of the configuration is reported to be needed (`needs_config_recovery`). -/
theorem failed_power_on_looks_good :
    needsConfigRecovery ((do
        hold exEnv true
        (powerOn exCfg exEnv false).ignore : M Nat Nat Unit) (Run.init (exSt 4 6 (some 5) none))).2.st = false := by
  decide_cbv

/-- With `host_processor_dual_full_bypass.c`, after a boot in bypass mode the filter remains in bypass mode although a later power-on verifies the flash and
leaves bypass mode: the host runs and can write the read-only flash. -/
theorem full_bypass_keeps_bypass :
    Sound { exCfg with fullBypass := true } ∧ Start (fun p => p = 7) (exSt 4 6 (some 7) none) ∧
    ∃ s ∈ (boots { exCfg with fullBypass := true } exEnv [(true, [.idle]), (false, [.idle])] (Run.init (exSt 4 6 (some 7) none))).2.log,
      s.running = true ∧ s.bypass = false ∧ s.active = some 7 ∧ s.filter.mode ≠ .dual := by
  refine ⟨⟨fun _ _ h => h, fun _ _ _ h _ => h⟩, ⟨rfl, rfl, ?_, nofun⟩, ?_⟩
  · rintro p ⟨⟩
    rfl
  · have key : (boots { exCfg with fullBypass := true } exEnv [(true, [.idle]), (false, [.idle])] (Run.init (exSt 4 6 (some 7) none))).2.log.any (fun s =>
        s.running && !s.bypass && s.active == some 7 && s.filter.mode != .dual) = true := by
      decide_cbv
    rw [List.any_eq_true] at key
    obtain ⟨s, hs, h⟩ := key
    simp only [Bool.and_eq_true, Bool.not_eq_true', beq_iff_eq, bne_iff_ne] at h
    exact ⟨s, hs, h.1.1.1, h.1.1.2, h.1.2, h.2⟩

/-- If the activation of a PFM fails after the flash was verified with it, the host runs that flash, which need not satisfy the PFM that is active. -/
theorem failed_activation_runs_other_pfm :
    ∃ e : Nat → Resp Nat, ∃ s ∈ (boots exCfg e [(false, [])] (Run.init { exSt 5 7 (some 5) (some 7) with dirty := true })).2.log,
      s.running = true ∧ s.bypass = false ∧ s.active = some 5 ∧ s.flash s.filter.ro = 7 ∧ s.recov s.filter.ro = false := by
  refine ⟨fun n => ⟨if n = 17 then some .failed else none, false, fun _ => 5, false, false, false⟩, ?_⟩
  have key : (boots exCfg (fun n => ⟨if n = 17 then some .failed else none, false, fun _ => 5, false, false, false⟩) [(false, [])]
      (Run.init { exSt 5 7 (some 5) (some 7) with dirty := true })).2.log.any (fun s =>
        s.running && !s.bypass && s.active == some 5 && s.flash s.filter.ro == 7 && !s.recov s.filter.ro) = true := by
    decide_cbv
  rw [List.any_eq_true] at key
  obtain ⟨s, hs, h⟩ := key
  simp only [Bool.and_eq_true, Bool.not_eq_true', beq_iff_eq] at h
  exact ⟨s, hs, h.1.1.1.1, h.1.1.1.2, h.1.1.2, h.1.2, h.2⟩

/-! ### Rollback (C71) -/

/-- A rollback with an active PFM, whatever fails and whatever the host does meanwhile: if it succeeds, the host boots from the other device, whose whole
contents pass verification with the active PFM; if it fails, the host boots from the same device with the same contents as before. -/
theorem rollback_exact {c : Cfg P C} {e : Nat → Resp C} {a : P} {d : Cs} {x : C} (disableBypass noReset : Bool) (r : Run P C) (h : Selected d x r.st)
    (ha : r.st.active = some a) :
    match flashRollback c e disableBypass noReset r with
    | (.ok (), r') => ∃ y, c.passes a true y = true ∧ Selected d.other y r'.st
    | (.error (.err _), r') => Selected d x r'.st
    | (.error .hang, _) => True := by
  have h2 := (flashRollback_sel (c := c) (e := e) (d := d) (x := x) (a := a) noReset disableBypass r ⟨h, ha⟩ (fun _ _ => trivial)).2
  generalize flashRollback c e disableBypass noReset r = q at h2
  obtain ⟨y, r'⟩ := q
  cases y with
  | ok u => exact h2
  | error z => cases z with
    | err y => exact h2
    | hang => trivial

example : (match flashRollback exCfg exEnv false false (Run.init (exSt 5 15 (some 5) none)) with
      | (.ok (), r) => decide (r.st.nvRo = .cs1) && r.st.flash .cs1 == 15 && r.st.running
      | _ => false) = true ∧
    (match flashRollback exCfg exEnv false false (Run.init (exSt 5 14 (some 5) none)) with
      | (.error (.err x), r) => decide (x = .validation) && decide (r.st.nvRo = .cs0) && r.st.flash .cs0 == 5 && r.st.running
      | _ => false) = true := by
  decide_cbv

example : Selected .cs0 5 (exSt 5 15 (some 5) none) := ⟨rfl, rfl, ⟨rfl, rfl⟩, rfl, rfl, rfl⟩

/-! ### When new firmware is applied (C72) -/

/-- A run-time verification does not change which device the host boots from, if new firmware is only to be applied at power-on or at resets.

Partial: this is documented of all run-time verifications (host_processor.h:88-90), but see `run_time_applies_update`. -/
theorem run_time_keeps_device_partial {c : Cfg P C} {e : Nat → Resp C} (r : Run P C) (ho : r.st.override = none) (hv : r.st.events = .porOnly ∨ r.st.events = .porReset)
    (hh : (runTime c e r).1 ≠ .error .hang) :
    (runTime c e r).2.st.ro = r.st.ro := by
  have h := (updateVerification_nv (c := c) (e := e) (d := r.st.nvRo) (v := r.st.events) false .porReset (some .nothingToVerify) hv r ⟨rfl, ho, rfl⟩ (fun _ _ => trivial)).2
  have h2 : Nv r.st.nvRo none r.st.events (runTime c e r).2.st := by
    unfold runTime at hh ⊢
    generalize hx : (updateVerification c e false .porReset (some .nothingToVerify) r).1 = y at h hh
    cases y with
    | ok u => exact h
    | error z => cases z with
      | err y => exact h
      | hang => exact absurd rfl hh
  simp [St.ro, h2.nv, h2.ov, ho]

/-- A soft reset does not either, if new firmware is only to be applied at power-on or at run time. -/
theorem reset_keeps_device {c : Cfg P C} {e : Nat → Resp C} (r : Run P C) (ho : r.st.override = none) (hv : r.st.events = .porOnly ∨ r.st.events = .porRunTime)
    (hh : (softReset c e r).1 ≠ .error .hang) :
    (softReset c e r).2.st.ro = r.st.ro := by
  have h := (updateVerification_nv (c := c) (e := e) (d := r.st.nvRo) (v := r.st.events) true .porRunTime none hv r ⟨rfl, ho, rfl⟩ (fun _ _ => trivial)).2
  have h2 : Nv r.st.nvRo none r.st.events (softReset c e r).2.st := by
    unfold softReset at hh ⊢
    generalize hx : (updateVerification c e true .porRunTime none r).1 = y at h hh
    cases y with
    | ok u => exact h
    | error z => cases z with
      | err y => exact h
      | hang => exact absurd rfl hh
  simp [St.ro, h2.nv, h2.ov, ho]

example : (match runTime exCfg exEnv (Run.init { exSt 5 15 (some 5) (some 5) with dirty := true, pfmDirty := true, events := .porReset }) with
      | (.ok (), r) => decide (r.st.ro = .cs0) && r.st.active == some 5 && r.st.pending == none
      | _ => false) = true := by
  decide_cbv

/-- Otherwise it does change it: the new firmware is in use at once, without a reset of the host. -/
theorem run_time_applies_update :
    (match runTime exCfg exEnv (Run.init { exSt 5 15 (some 5) none with dirty := true }) with
      | (.ok (), r) => decide (r.st.filter.ro = .cs1) && r.st.running && r.log.all (fun s => !s.held)
      | _ => false) = true := by
  decide_cbv

/-- The actions that are announced for the next reset (`get_next_reset_verification_actions`) do not take into account when new firmware is to be applied: a
verification is announced, and the reset does none. -/
theorem next_actions_ignores_events :
    nextActions { exSt 5 14 (some 5) none with dirty := true, events := .porOnly } = .verifyUpdate ∧
    (match softReset exCfg (fun _ => ⟨none, false, fun _ => 0, false, false, false⟩) (Run.init { exSt 5 14 (some 5) none with dirty := true, events := .porOnly }) with
      | (.ok (), r) => r.st.dirty && decide (r.st.ro = .cs0)
      | _ => false) = true := by
  decide_cbv

end Verif.HostProc
