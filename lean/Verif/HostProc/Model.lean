import Verif.Common.Bytes
/-! A host processor with two flash devices behind a SPI filter: `core/host_fw/host_processor_filtered.c`, `host_processor_dual.c`,
`host_processor_dual_full_bypass.c`, `host_flash_manager_dual.c`, the flags of `host_state_manager.c` and the power-on handler of `host_irq_handler.c`.

The contents of the flash devices and the platform firmware manifests (PFMs) are opaque; whether contents pass verification is a parameter (`Cfg`). Every
call of a driver can fail, as the environment chooses, and a failed call may or may not have taken effect. After every step the host can write what the
SPI filter lets it write, and the interrupt for a dirty flash can arrive. Not modelled: null arguments, log entries, notifications of observers, address
modes, and the lock, so operations do not overlap (`host_processor_dual_recover_active_read_write_data` does not take the lock). -/
namespace Verif.HostProc

/-- `spi_filter_cs`, spi_filter_interface.h:15-18. -/
inductive Cs | cs0 | cs1
  deriving DecidableEq, Repr

/-- The other device. -/
def Cs.other : Cs → Cs
  | .cs0 => .cs1
  | .cs1 => .cs0

/-- `spi_filter_flash_mode`, spi_filter_interface.h:39-45, without the modes for one device. -/
inductive Mode | dual | bypass (c : Cs)
  deriving DecidableEq, Repr

/-- The SPI filter: its mode, the device used as read-only flash, whether everything is configured as read/write region, whether it is enabled, and
whether a write to the read/write flash outside of the read/write regions was detected. -/
structure Filter where
  mode : Mode
  ro : Cs
  fullRw : Bool
  enabled : Bool
  dirty : Bool
  deriving DecidableEq, Repr

/-- `enum host_read_only_activation`, host_state_manager.h:64-81. -/
inductive Events | porOnly | porReset | porRunTime | all
  deriving DecidableEq, Repr

/-- `enum host_state_prevalidated`, host_state_manager.h:112-116. -/
inductive Preval | none | flash | flashAndPfm
  deriving DecidableEq, Repr

/-- The state. `ctl` is whether the flash devices are connected to the host (`enable_processor_flash_access` of `struct host_control`), `held` whether the
host is held in reset. `nvRo` … `badFlash` are the flags of `host_state_manager.c`:14-83. `active` and `pending` are the manifests of the PFM manager.

`recov` and `lapse` are not in the code and never read by the model: `recov c` is whether a recovery image was written to the device `c` since the last
successful verification of it, and `lapse` whether the activation of a pending PFM has failed since the last power-on. -/
structure St (P C : Type) where
  flash : Cs → C
  filter : Filter
  ctl : Bool
  held : Bool
  nvRo : Cs
  override : Option Cs
  dirty : Bool
  events : Events
  pfmDirty : Bool
  preval : Preval
  bypass : Bool
  badFlash : Bool
  active : Option P
  pending : Option P
  recov : Cs → Bool
  lapse : Bool

/-- Error codes as far as the code distinguishes them: `validation` is IS_VALIDATION_FAILURE (host_processor.h:22-24), `unsupported` the errors for which
host_processor_filtered.c:145-153, 178-187 give up, `region` SPI_FILTER_UNSUPPORTED_RW_REGION. -/
inductive Err
  | failed | validation | unsupported | region | rwSkipped | notSupported | noRollback | rollbackDirty | nothingToVerify | recoveryUnsupported
  | noRecoveryImage | noActiveRw | configUnsupported
  deriving DecidableEq, Repr

/-- Why a computation stops: an error, or it is still in one of the loops that retry forever. -/
inductive Stop | err (x : Err) | hang
  deriving DecidableEq, Repr

/-- One choice of the environment: whether the call fails and if it does, whether it took effect; some flash contents; whether the host writes; whether
the interrupt for a dirty flash arrives; a flag. -/
structure Resp (C : Type) where
  err : Option Err
  done : Bool
  junk : Cs → C
  host : Bool
  irq : Bool
  flag : Bool

/-- The platform. `empty` is `is_empty` of a PFM. `passes p full c`: the contents `c` pass `host_flash_manager_validate_flash` with the PFM `p`
(host_flash_manager.c:192-241); `quick p g c`: they pass `host_flash_manager_validate_pfm` with `p` and the PFM `g` that is known to be good (257-315).
`fullBypass` is whether `host_processor_dual_full_bypass.c` is used; `pulse` whether reset pulses are used; `resetFlash` whether flash is reset with the
host; `recovery` whether there is a recovery image manager. `tries` bounds the loops that retry forever: after so many failures the loop has not ended yet. -/
structure Cfg (P C : Type) where
  empty : P → Bool
  passes : P → Bool → C → Bool
  quick : P → P → C → Bool
  fullBypass : Bool
  pulse : Bool
  resetFlash : Bool
  recovery : Bool
  tries : Nat

variable {P C : Type}

/-- `host_state_manager_get_read_only_flash`, host_state_manager.c:282-291. -/
def St.ro (s : St P C) : Cs := s.override.getD s.nvRo

/-- The host executes and can use the flash: `host_flash_manager_host_has_flash_access` (host_flash_manager.c:716-737), and it is not in reset. -/
def St.running (s : St P C) : Bool := s.filter.enabled && s.ctl && !s.held

/-- The device with new contents. -/
def St.write (s : St P C) (c : Cs) (x : C) : St P C := { s with flash := fun d => if d = c then x else s.flash d }

/-- A write of the host: in bypass mode to the selected device, otherwise to the read/write device; without R/W regions over everything it is detected. -/
def hostWrite (junk : Cs → C) (s : St P C) : St P C :=
  match s.filter.mode with
  | .bypass c => s.write c (junk c)
  | .dual => { s.write s.filter.ro.other (junk s.filter.ro.other) with filter := { s.filter with dirty := s.filter.dirty || !s.filter.fullRw } }

/-- `host_state_manager_save_inactive_dirty`, host_state_manager.c:454-484. -/
def St.setDirty (s : St P C) (d : Bool) : St P C := { s with dirty := d, preval := if d then .none else s.preval }

/-- `host_state_manager_set_pfm_dirty`, host_state_manager.c:635-661. -/
def St.setPfmDirty (s : St P C) (d : Bool) : St P C :=
  { s with pfmDirty := d, preval := if d && decide (s.preval = .flashAndPfm) then .none else s.preval }

/-- What happens besides: the interrupt (`spi_filter_irq_handler_ro_flash_dirty`, spi_filter_irq_handler.c:12-17), writes of a running host. -/
def interfere (r : Resp C) (s : St P C) : St P C :=
  let s := if r.irq then s.setDirty true else s
  if r.host && s.running then hostWrite r.junk s else s

/-- A run: the state, the number of choices made, and all states so far. -/
structure Run (P C : Type) where
  st : St P C
  n : Nat
  log : List (St P C)

/-- Computations. -/
def M (P C α : Type) : Type := Run P C → Except Stop α × Run P C

namespace M
variable {α β : Type}
/-- A result. -/
def pure (a : α) : M P C α := fun s => (.ok a, s)
/-- One after the other. -/
def bind (m : M P C α) (f : α → M P C β) : M P C β := fun s =>
  match m s with
  | (.ok a, s') => f a s'
  | (.error x, s') => (.error x, s')
/-- An error. -/
def throw (x : Err) : M P C α := fun s => (.error (.err x), s)
/-- Not finished. -/
def hang : M P C α := fun s => (.error .hang, s)
/-- The status of a computation: none is 0. -/
def status (m : M P C Unit) : M P C (Option Err) := fun s =>
  match m s with
  | (.ok _, s') => (.ok none, s')
  | (.error (.err x), s') => (.ok (some x), s')
  | (.error .hang, s') => (.error .hang, s')
instance : Monad (M P C) where
  pure := pure
  bind := bind
/-- The status is ignored. -/
def ignore (m : M P C Unit) : M P C Unit := m.status >>= fun _ => M.pure ()
/-- Under a condition. -/
def onlyIf (b : Bool) (m : M P C Unit) : M P C Unit := if b then m else M.pure ()
/-- Continued after a success or an error. -/
def handle (m : M P C α) (f : α → M P C β) (g : Err → M P C β) : M P C β := fun s =>
  match m s with
  | (.ok a, s') => f a s'
  | (.error (.err y), s') => g y s'
  | (.error .hang, s') => (.error .hang, s')
/-- A status is returned. -/
def ofStatus (x : Option Err) : M P C Unit := match x with
  | none => M.pure ()
  | some x => M.throw x
end M

/-- The state. -/
def get : M P C (St P C) := fun r => (.ok r.st, r)

section
variable (c : Cfg P C) (e : Nat → Resp C)

/-- A change of the state of Cerberus that cannot fail. -/
def step (f : St P C → St P C) : M P C Unit := fun r =>
  let s := f r.st
  let s' := interfere (e r.n) s
  (.ok (), ⟨s', r.n + 1, s' :: s :: r.log⟩)

/-- A call of a driver, which may fail. -/
def call (f : Resp C → St P C → St P C) : M P C Unit := fun r =>
  let x := e r.n
  let s := if x.err = none || x.done then f x r.st else r.st
  let s' := interfere x s
  (match x.err with
    | none => .ok ()
    | some y => .error (.err y), ⟨s', r.n + 1, s' :: s :: r.log⟩)

/-- A call without effect on what is modelled. -/
def probe : M P C Unit := call e fun _ s => s

/-- A verification, which fails if `ok` is false; after a success the device `d` is verified. -/
def verify (ok : St P C → Bool) (after : St P C → St P C) : M P C Unit := do
  probe e
  let s ← get
  if ok s then step e after else M.throw .validation

/-- A loop that retries forever. -/
def forever (m : M P C Unit) : Nat → M P C Unit
  | 0 => M.hang
  | n + 1 => do
    match ← m.status with
    | none => pure ()
    | some _ => forever m n

/-- At most `n + 1` attempts; the errors `stop` are not retried. -/
def retry (stop : Err → Bool) (m : M P C Unit) : Nat → M P C Unit
  | 0 => m
  | n + 1 => do
    match ← m.status with
    | none => pure ()
    | some x => if stop x then M.throw x else retry stop m n

/-! ### The flash manager and the filter -/

/-- Enabling the filter. -/
def St.setEnabled (s : St P C) (b : Bool) : St P C := { s with filter := { s.filter with enabled := b } }
/-- `set_ro_cs` of the filter. -/
def St.setRoCs (s : St P C) (d : Cs) : St P C := { s with filter := { s.filter with ro := d } }
/-- `set_filter_mode` of the filter. -/
def St.setMode (s : St P C) (m : Mode) : St P C := { s with filter := { s.filter with mode := m } }
/-- The read/write regions of the filter. -/
def St.setFullRw (s : St P C) (b : Bool) : St P C := { s with filter := { s.filter with fullRw := b } }
/-- `clear_flash_dirty_state` of the filter. -/
def St.clearDirty (s : St P C) : St P C := { s with filter := { s.filter with dirty := false } }
/-- `hold_processor_in_reset`; its status is always ignored, and it is taken to succeed. -/
def hold (b : Bool) : M P C Unit := step e fun s => { s with held := b }

/-- `host_flash_manager_set_flash_for_rot_access`, host_flash_manager.c:647-685. The initialization of the devices is one call. -/
def rotAccess : M P C Unit := do
  call e fun _ s => s.setEnabled false
  call e fun _ s => { s with ctl := false }
  probe e

/-- `host_processor_filtered_initial_rot_flash_access`, host_processor_filtered.c:135-211. -/
def initialRotAccess : M P C Unit := do
  match ← (retry (fun x => decide (x = .unsupported)) (rotAccess e) 4).status with
  | some x => do
    step e fun s => { s with badFlash := true }
    M.throw x
  | none => do
    match ← (retry (fun x => decide (x = .unsupported)) (probe e) 4).status with
    | some x => do
      step e fun s => { s with badFlash := true }
      M.throw x
    | none => step e fun s => { s with badFlash := false }

/-- `host_processor_filtered_set_host_flash_access`, host_processor_filtered.c:219-240, host_flash_manager.c:695-706. -/
def hostAccess : M P C Unit :=
  forever (do
    call e fun _ s => { s with ctl := true }
    call e fun _ s => s.setEnabled true) c.tries

/-- `enable_bypass_mode`: host_processor_dual.c:470-489, which makes everything a read/write region on the read-only device, or
host_processor_dual_full_bypass.c:11-16. -/
def enableBypass : M P C Unit :=
  if c.fullBypass then call e fun _ s => s.setMode (.bypass s.ro)
  else do
    call e fun _ s => s.setFullRw false
    call e fun _ s => s.setFullRw true
    call e fun _ s => s.setRoCs s.ro.other

/-- `host_processor_filtered_config_bypass`, host_processor_filtered.c:252-276. -/
def configBypass : M P C Unit := do
  forever (enableBypass c e) c.tries
  step e fun s => { s with bypass := true }

/-- `host_flash_manager_dual_initialize_flash_protection`, host_flash_manager_dual.c:202-267. -/
def initProtectionOnce : M P C Unit := do
  probe e
  call e fun r s => s.write s.ro.other (r.junk s.ro.other)
  call e fun _ s => s.clearDirty
  step e fun s => s.setDirty false
  probe e
  call e fun _ s => s.setMode .dual
  call e fun _ s => s.setRoCs s.ro

/-- `host_processor_filtered_initialize_protection`, host_processor_filtered.c:288-311. -/
def initProtection : M P C Unit := do
  forever (initProtectionOnce e) c.tries
  step e fun s => { s with bypass := false }

/-- One attempt of host_processor_filtered.c:330-348: the regions are cleared, then set (`host_fw_config_spi_filter_read_write_regions_multiple_fw`).
Clearing them does not give the error for an unsupported region. -/
def configRwOnce : M P C Unit := do
  call e fun _ s => s.setFullRw false
  match ← (probe e).status with
  | none => pure ()
  | some x => if x = .region then pure () else M.throw x

/-- `host_processor_filtered_config_rw`, host_processor_filtered.c:323-354. -/
def configRw : M P C Unit := forever (configRwOnce e) c.tries

/-- `host_processor_filtered_config_flash`, host_processor_filtered.c:365-385, host_flash_manager_dual.c:114-127. -/
def configFlash : M P C Unit := forever (call e fun _ s => s.setRoCs s.ro) c.tries

/-- `activate_pending_manifest` of the PFM manager, pfm_manager_flash.c:66-84; all callers ignore the status. -/
def activate : M P C Unit := fun r =>
  let x := e r.n
  let s : St P C :=
    match x.err, r.st.pending with
    | none, some p => { r.st.setPfmDirty false with active := some p, pending := none }
    | _, _ => { r.st with lapse := true }
  let s' := interfere x s
  (.ok (), ⟨s', r.n + 1, s' :: s :: r.log⟩)

/-- `host_flash_manager_dual_swap_flash_devices`, host_flash_manager_dual.c:155-200. The saved settings are one step, as storage is blocked meanwhile. -/
def swapOnce (pend migrate : Bool) : M P C Unit := do
  call e fun _ s => s.clearDirty
  let rw := (← get).ro.other
  call e fun _ s => s.setRoCs rw
  (call e fun r s => s.write rw.other (r.junk rw.other)).onlyIf migrate
  step e fun s => { s.setDirty false with nvRo := rw }
  (activate e).onlyIf pend

/-- `host_processor_filtered_swap_flash`, host_processor_filtered.c:399-425. -/
def swapFlash (pend migrate : Bool) : M P C Unit := do
  forever (swapOnce e pend migrate) c.tries
  configRw c e
  step e fun s => { s with preval := .none }

/-- One attempt of host_processor_filtered.c:463-475: R/W data is copied to the read/write device. -/
def restoreOnce : M P C Unit := do
  step e fun s => { s with preval := .none }
  call e fun r s => s.write s.ro.other (r.junk s.ro.other)

/-- `host_processor_filtered_restore_read_write_data`, host_processor_filtered.c:442-482; `find` is whether the regions have to be determined. -/
def restoreRw (find : Bool) : M P C Unit := do
  (probe e).onlyIf find
  retry (fun _ => false) (restoreOnce e) 2

/-- `host_flash_manager_dual_validate_read_write_flash`, host_flash_manager_dual.c:77-88. -/
def validateRw (p : P) : M P C Unit :=
  verify e (fun s => c.passes p true (s.flash s.ro.other)) fun s =>
    { s with recov := fun d => if d = s.ro.other then false else s.recov d }

/-- `host_flash_manager_dual_validate_read_only_flash`, host_flash_manager_dual.c:53-75. -/
def validateRo (p : P) (good : Option P) (full : Bool) : M P C Unit :=
  match good, full with
  | some g, false => verify e (fun s => c.quick p g (s.flash s.ro)) id
  | _, _ => verify e (fun s => c.passes p full (s.flash s.ro)) fun s => { s with recov := fun d => if d = s.ro then false else s.recov d }

/-! ### Verification -/

/-- The arguments of `host_processor_filtered_validate_flash`, host_processor_filtered.c:509-512, but `single`, which is false for two devices. -/
structure Args (P : Type) where
  pfm : P
  active : Option P
  isPending : Bool
  isBypass : Bool
  skipRw : Bool
  skipRo : Bool
  skipRoConfig : Bool
  apply : Bool
  isValidated : Bool

/-- What lines 521-610 leave: the status, `checked_rw`, `failed_rw`, whether `dirty_fail` is set, and whether the function is left. -/
structure RwOut where
  status : Option Err
  checked : Bool
  failed : Bool
  dirtyFail : Bool
  exit : Bool

/-- host_processor_filtered.c:551-586: the read/write flash is good. -/
def rwGood (a : Args P) : M P C RwOut :=
  if a.apply then do
    swapFlash c e a.isPending true
    pure ⟨none, true, false, false, false⟩
  else do
    match ← (call e fun _ (s : St P C) => s.clearDirty).status with
    | none =>
      if a.isPending then do
        step e fun s => { s.setPfmDirty false with preval := .flashAndPfm }
        pure ⟨none, true, false, false, false⟩
      else do
        step e fun s => { s with preval := .flash }
        pure ⟨none, true, false, false, false⟩
    | some x => pure ⟨some x, true, false, false, true⟩

/-- host_processor_filtered.c:587-606: the read/write flash is not good. -/
def rwBad (a : Args P) (x : Err) : M P C RwOut := do
  (restoreRw e true).ignore.onlyIf (((a.skipRo && !a.isPending) || a.isValidated) && a.apply)
  (step e fun s => s.setPfmDirty true).onlyIf (decide (x ≠ .validation) && a.isPending && !a.isValidated)
  pure ⟨some x, true, true, decide (x = .validation), false⟩

/-- host_processor_filtered.c:522-529. -/
def rwCheck (a : Args P) : M P C Unit :=
  if a.isValidated then probe e
  else do
    step e fun s => { s with preval := .none }
    validateRw c e a.pfm

/-- host_processor_filtered.c:521-610: the read/write flash, if it is dirty. -/
def rwPart (a : Args P) : M P C RwOut := do
  let s ← get
  if !a.skipRw && !a.isBypass && s.dirty then do
    match ← (rwCheck c e a).status with
    | none => rwGood c e a
    | some x => rwBad e a x
  else pure ⟨some .rwSkipped, false, false, false, false⟩

/-- host_processor_filtered.c:631-651: the read-only flash is good. -/
def roGood (a : Args P) (o : RwOut) : M P C Unit := do
  (initProtection c e).onlyIf a.isBypass
  (restoreRw e false).ignore.onlyIf (!a.isBypass && a.apply && o.failed)
  (activate e).onlyIf a.isPending
  (configFlash c e).onlyIf (a.apply && !a.isBypass && !a.skipRoConfig)
  (configRw c e).onlyIf a.apply

/-- host_processor_filtered.c:612-661: the read-only flash. -/
def roPart (a : Args P) (pfmDirty : Bool) (o : RwOut) : M P C (Option Err) :=
  if !a.skipRo && o.status.isSome && (!a.isPending || a.isBypass || pfmDirty) then do
    match ← (validateRo c e a.pfm a.active a.isBypass).status with
    | none => do
      roGood c e a o
      pure none
    | some x => do
      (step e fun s => s.setPfmDirty false).onlyIf (a.isPending && decide (x = .validation) && (!o.checked || o.dirtyFail))
      pure (some x)
  else pure o.status

/-- host_processor_filtered.c:666-674: the read/write flash is no longer dirty. -/
def dirtyPart (a : Args P) (o : RwOut) (st : Option Err) : M P C Unit :=
  (do
    call e fun _ s => s.clearDirty
    step e fun s => s.setDirty false : M P C Unit).ignore.onlyIf
      (o.dirtyFail && o.checked && (!a.isPending || a.isValidated || st.isNone || (a.isPending && a.active.isNone && a.skipRoConfig)))

/-- `host_processor_filtered_validate_flash`, host_processor_filtered.c:509-679. -/
def validateFlash (a : Args P) : M P C (Option Err) := do
  let pfmDirty := (← get).pfmDirty
  let o ← rwPart c e a
  if o.exit then pure o.status
  else do
    let st ← roPart c e a pfmDirty o
    dirtyPart e a o st
    pure st

/-- `clear_all_manifests` of the PFM manager; a failure can leave any of them. -/
def clearAll : M P C Unit := fun r =>
  let x := e r.n
  let s : St P C :=
    match x.err with
    | none => { r.st with active := none, pending := none }
    | some _ => { r.st with active := if x.done then none else r.st.active, pending := if x.flag then none else r.st.pending }
  let s' := interfere x s
  (match x.err with
    | none => .ok ()
    | some y => .error (.err y), ⟨s', r.n + 1, s' :: s :: r.log⟩)

/-- `host_processor_filtered_check_force_bypass_mode`, host_processor_filtered.c:691-728, when there is a pending PFM: the PFMs to use and the status of
`is_empty`. -/
def checkForce (active pending : Option P) : M P C (Option P × Option P × Option Err) :=
  match pending with
  | none => pure (active, none, none)
  | some p => do
    match ← (probe e).status with
    | some x => pure (active, none, some x)
    | none =>
      if c.empty p then do
        clearAll e
        pure (none, none, none)
      else pure (active, some p, none)

/-- Without any PFM, host_processor_filtered.c:821-825 and 1059-1065. -/
def noPfm (go : Bool) : M P C Unit := do
  (call e fun _ s => s.clearDirty).ignore
  step e fun s => (s.setDirty false).setPfmDirty false
  (configBypass c e).onlyIf go

/-- host_processor_filtered.c:777-827. -/
def porMain (active pending : Option P) (emptyStatus : Option Err) : M P C Unit :=
  match active, pending with
  | some a, some p => do
    match ← validateFlash c e ⟨p, none, true, false, false, false, false, true, false⟩ with
    | none => pure ()
    | some _ => do
      let st ← validateFlash c e ⟨a, none, false, false, false, false, false, true, false⟩
      M.ofStatus st
  | some a, none => do
    (step e fun s => s.setPfmDirty false).onlyIf emptyStatus.isNone
    let st ← validateFlash c e ⟨a, none, false, false, false, false, false, true, false⟩
    M.ofStatus st
  | none, some p => do
    match ← validateFlash c e ⟨p, none, true, true, false, false, false, true, false⟩ with
    | none => pure ()
    | some x => if x = .validation then configBypass c e else M.throw x
  | none, none => noPfm c e true

/-- host_processor_filtered.c:762-848, after the flash was taken from the host. A failure to clear the PFMs gives the host its flash back. -/
def porRest : M P C Unit := do
  let s ← get
  (checkForce c e s.active s.pending).handle (fun x => porMain c e x.1 x.2.1 x.2.2 >>= fun _ => hostAccess c e)
    (fun y => hostAccess c e >>= fun _ => M.throw y)

/-- `host_processor_filtered_power_on_reset`, host_processor_filtered.c:740-848, host_processor_dual.c:40-50. -/
def powerOnReset : M P C Unit := do
  step e fun s => { (s.setPfmDirty true) with lapse := false }
  step e fun s => { s with bypass := false }
  step e fun s => { s with override := none }
  match ← (initialRotAccess e).status with
  | some x => do
    hostAccess c e
    M.throw x
  | none => porRest c e

/-- `enum host_processor_filtered_dirty`, host_processor_filtered.h. -/
inductive Dirty | normal | ignore | force
  deriving DecidableEq, Repr

/-- `host_processor_dual_prepare_verification`, host_processor_dual.c:399-431. -/
def prepare (ign : Events) (active pending : Option P) : M P C Dirty := do
  let s ← get
  if s.events = .porOnly ∨ s.events = ign then pure .ignore
  else if s.ro ≠ s.nvRo then do
    (step e fun t => { t with nvRo := s.ro }).onlyIf (!s.bypass && (active.isSome || pending.isSome))
    step e fun t => t.setDirty true
    step e fun t => { t with override := none }
    pure .force
  else do
    step e fun t => { t with override := none }
    pure .normal

/-- `host_processor_dual_finalize_verification`, host_processor_dual.c:433-460. -/
def finalize : M P C Unit := do
  let s ← get
  if s.bypass then (step e fun t => { t with override := none }).onlyIf (decide (s.ro = s.nvRo))
  else if s.override.isSome then do
    step e fun t => { t with nvRo := s.ro }
    step e fun t => { t with override := none }
    step e fun t => t.setDirty (decide (s.ro ≠ s.nvRo))
  else pure ()

/-- `host_processor_filtered_clear_host_dirty_state`, host_processor_filtered.c:880-888. -/
def clearHostDirty (noPfm : Bool) : M P C Unit := do
  step e fun s => s.setPfmDirty false
  (do
    (call e fun _ s => s.clearDirty).ignore
    step e fun s => s.setDirty false : M P C Unit).onlyIf noPfm

/-- The variables of `host_processor_filtered_update_verification` in lines 956-979. -/
structure Upd (P : Type) where
  active : Option P
  pending : Option P
  empty : Option Err
  bypass : Bool
  dirty : Bool
  ignoreDirty : Bool
  force : Bool

/-- host_processor_filtered.c:975-977. -/
def Upd.validate (u : Upd P) : Bool :=
  u.force || u.pending.isSome || u.empty.isSome || (u.active.isNone && u.pending.isNone && !u.bypass) || (u.active.isSome && (u.dirty || u.bypass))

/-- host_processor_filtered.c:978-979. -/
def Upd.noChange (u : Upd P) (pfmDirty : Bool) : Bool := !u.dirty && !u.bypass && !pfmDirty && (u.active.isSome || u.pending.isSome)

/-- host_processor_filtered.c:1011-1042: the pending PFM; also `only_validated`. -/
def updPending (u : Upd P) (checked : Preval) : M P C (Option Err × Bool) :=
  match u.pending with
  | none => do
    (step e fun s => s.setPfmDirty false).onlyIf u.empty.isNone
    pure (u.empty, false)
  | some p => do
    let s ← get
    if !(u.bypass || u.active.isNone) && decide (checked = .flash) && !s.pfmDirty then pure (some .nothingToVerify, false)
    else if u.empty.isSome then pure (u.empty, false)
    else do
      let pre := !(u.bypass || u.active.isNone) && decide (checked = .flashAndPfm) && !s.pfmDirty
      let st ← validateFlash c e ⟨p, if u.bypass then none else u.active, true, u.bypass, u.ignoreDirty, pre, true, true, pre⟩
      pure (st, pre)

/-- host_processor_filtered.c:1044-1066: the active PFM, or none at all. -/
def updActive (u : Upd P) (checked : Preval) (st : Option Err × Bool) : M P C (Option Err) :=
  match u.active with
  | some a =>
    if u.pending.isNone || (st.1.isSome && !st.2 && (u.dirty || u.bypass)) then
      validateFlash c e ⟨a, none, false, u.bypass, u.ignoreDirty, !u.bypass, true, true, decide (checked = .flash)⟩
    else pure st.1
  | none =>
    if u.pending.isNone then do
      noPfm c e (!u.bypass || u.force)
      pure st.1
    else pure st.1

/-- host_processor_filtered.c:1000-1066. -/
def updVerify (u : Upd P) : M P C (Option Err) :=
  if u.empty.isSome && (u.active.isNone || !u.dirty) then pure u.empty
  else do
    let s ← get
    let checked := if u.bypass then .none else s.preval
    step e fun s => { s with preval := .none }
    let st ← updPending c e u checked
    updActive c e u checked st

/-- host_processor_filtered.c:987-1080: the flash is taken from the host and returned. -/
def updFlash (u : Upd P) (noChange reset : Bool) : M P C (Option Err) := do
  let st ← (rotAccess e).status
  (retry (fun x => decide (x = .unsupported)) (probe e) 2).ignore.onlyIf (c.resetFlash && reset && st.isNone)
  let st' ← (if st.isSome || !u.validate || noChange then do
      (clearHostDirty e (u.active.isNone && u.pending.isNone)).onlyIf (!u.validate)
      pure st
    else updVerify c e u)
  hostAccess c e
  (hold e true).onlyIf (reset && c.pulse)
  pure st'

/-- host_processor_filtered.c:956-1084. -/
def updBody (reset : Bool) (ign : Events) (active pending : Option P) (emptyStatus : Option Err) (st0 : Option Err) : M P C (Option Err) := do
  let h ← prepare e ign active pending
  let s ← get
  let u : Upd P := ⟨active, pending, emptyStatus, s.bypass, s.dirty && decide (h ≠ .ignore), decide (h = .ignore), decide (h = .force)⟩
  if u.validate || (c.resetFlash && reset) then
    if !(c.resetFlash && reset) && u.noChange s.pfmDirty then pure st0
    else updFlash c e u (u.noChange s.pfmDirty) reset
  else do
    clearHostDirty e (active.isNone && pending.isNone)
    pure st0

/-- host_processor_filtered.c:942-1084: the PFMs are determined, then `updBody`. -/
def updPfms (reset : Bool) (ign : Events) (bypassStatus : Option Err) : M P C (Option Err) := do
  let s ← get
  (checkForce c e s.active s.pending).handle
    (fun x => updBody c e reset ign x.1 x.2.1 x.2.2 (if s.active.isNone && s.pending.isNone then bypassStatus else none))
    (fun y => pure (some y))

/-- `host_processor_filtered_update_verification`, host_processor_filtered.c:904-1111. -/
def updateVerification (reset : Bool) (ign : Events) (bypassStatus : Option Err) : M P C Unit := do
  let s ← get
  if s.badFlash then M.throw .notSupported
  else do
    (hold e true).onlyIf (reset && !c.pulse)
    let st ← updPfms c e reset ign bypassStatus
    finalize e
    (hold e false).onlyIf reset
    M.ofStatus st

/-- `host_processor_dual_soft_reset`, host_processor_dual.c:52-63. -/
def softReset : M P C Unit := updateVerification c e true .porRunTime none

/-- `host_processor_dual_run_time_verification`, host_processor_dual.c:65-76. -/
def runTime : M P C Unit := updateVerification c e false .porReset (some .nothingToVerify)

/-- `host_processor_dual_force_bypass_mode`, host_processor_dual.c:24-38. -/
def forceBypass (swap : Bool) : M P C Unit := do
  (step e fun s => { s with nvRo := s.ro.other }).onlyIf swap
  configBypass c e

/-- `host_processor_dual_bypass_mode`, host_processor_dual.c:232-246. -/
def bypassMode (swap : Bool) : M P C Unit := do
  forceBypass c e swap
  hostAccess c e

/-- Returning the flash and releasing the host, host_processor_dual.c:158-167 and host_processor_filtered.c:1293-1303. -/
def giveBack (noReset : Bool) : M P C Unit := do
  hostAccess c e
  (hold e true).onlyIf (!noReset && c.pulse)
  (hold e false).onlyIf (!noReset)

/-- host_processor_dual.c:118-156. -/
def rollbackBody (active : Option P) : M P C (Option Err) := do
  match ← (rotAccess e).status with
  | some x => pure (some x)
  | none => do
    let s ← get
    match active with
    | some a =>
      if s.bypass then do
        forceBypass c e true
        pure none
      else do
        match ← (validateRw c e a).status with
        | some x => pure (some x)
        | none => do
          swapFlash c e false false
          pure none
    | none => (call e fun r s => s.write s.ro (r.junk s.ro)).status

/-- `host_processor_dual_flash_rollback`, host_processor_dual.c:78-193. Erasing and copying the whole device is one call. -/
def flashRollback (disableBypass noReset : Bool) : M P C Unit := do
  let s ← get
  if s.active.isSome && s.badFlash then M.throw .notSupported
  else if (s.active.isNone && !disableBypass) || (s.active.isSome && (!s.dirty || s.bypass)) then
    if s.bypass && disableBypass then M.throw .noRollback
    else do
      (hold e true).onlyIf (!noReset && !c.pulse)
      let st ← rollbackBody c e s.active
      giveBack c e noReset
      M.ofStatus st
  else if s.active.isNone then M.throw .noRollback
  else M.throw .rollbackDirty

/-- `host_processor_dual_recover_active_read_write_data`, host_processor_dual.c:195-230. -/
def recoverRw : M P C Unit := do
  let s ← get
  if !s.bypass && s.active.isSome then do
    (hold e true).onlyIf (!c.pulse)
    let st ← (do
      rotAccess e
      restoreRw e true : M P C Unit).status
    giveBack c e false
    M.ofStatus st
  else M.throw .noActiveRw

/-- host_processor_filtered.c:1267-1291: the recovery image is written to the read-only device. -/
def recoveryBody : M P C Unit := do
  rotAccess e
  step e fun s => { s with recov := fun d => if d = s.ro then true else s.recov d }
  call e fun r s => s.write s.ro (r.junk s.ro)
  call e fun r s => s.write s.ro (r.junk s.ro)
  let s ← get
  if s.bypass then pure ()
  else do
    forever (call e fun _ s => s.setFullRw false) c.tries
    configFlash c e

/-- `host_processor_filtered_apply_recovery_image`, host_processor_filtered.c:1230-1322. The flag of the environment is whether there is an image. -/
def applyRecovery (noReset : Bool) : M P C Unit := do
  let s ← get
  if !s.bypass && s.badFlash then M.throw .notSupported
  else if !c.recovery then M.throw .recoveryUnsupported
  else do
    let b ← (fun r => (.ok (e r.n).flag, r) : M P C Bool)
    if !b then M.throw .noRecoveryImage
    else do
      (hold e true).onlyIf (!noReset && !c.pulse)
      let st ← (recoveryBody c e).status
      giveBack c e noReset
      M.ofStatus st

/-- The first part of `host_processor_dual_config_read_only_flash`, host_processor_dual.c:335-359. -/
def configCurrent (s : St P C) (cur : Option Cs) : M P C Unit :=
  match cur with
  | none => pure ()
  | some d =>
    if !s.bypass then M.throw .configUnsupported
    else if s.ro = d then pure ()
    else do
      step e fun t => { t with override := some d }
      let st ← (rotAccess e).status
      (configBypass c e).onlyIf st.isNone
      hostAccess c e
      M.ofStatus st

/-- The second part, host_processor_dual.c:361-387. -/
def configNext (s : St P C) (next : Option Cs) : M P C Unit :=
  match next with
  | none => pure ()
  | some d =>
    if s.bypass then do
      let t ← get
      (step e fun t => { t with override := some s.ro }).onlyIf (decide (s.ro ≠ d) && t.override.isNone)
      step e fun t => { t with nvRo := d }
    else step e fun t => t.setDirty (decide (s.nvRo ≠ d))

/-- `host_processor_dual_config_read_only_flash`, host_processor_dual.c:303-397. -/
def configRo (cur next : Option Cs) (ev : Option Events) : M P C Unit := do
  let s ← get
  configCurrent c e s cur
  configNext e s next
  match ev with
  | none => pure ()
  | some x => step e fun t => { t with events := x }

/-- The loops of `host_irq_handler_power_on`, host_irq_handler.c:35-48: at most two attempts, while the status is an error that is not in `stop`. -/
def again (stop : Err → Bool) (m : M P C Unit) : Nat → Option Err → M P C (Option Err)
  | 0, st => pure st
  | n + 1, st =>
    match st with
    | none => pure none
    | some x => if stop x then pure (some x) else do
      let st' ← m.status
      again stop m n st'

/-- Bypass mode as last resort, host_irq_handler.c:50-68; it succeeds at the first attempt. -/
def unsecure (allow : Bool) (st : Option Err) : M P C Unit :=
  match st with
  | none => pure ()
  | some x =>
    if allow then bypassMode c e (decide (x ≠ .recoveryUnsupported) && decide (x ≠ .noRecoveryImage) && decide (x ≠ .notSupported)) else M.throw x

/-- `host_irq_handler_power_on`, host_irq_handler.c:11-71. -/
def powerOn (allow : Bool) : M P C Unit := do
  let st ← (retry (fun _ => false) (powerOnReset c e) 1).status
  let st ← again (fun x => decide (x = .noRollback) || decide (x = .rollbackDirty)) (flashRollback c e true true) 2 st
  let st ← again (fun x => decide (x = .recoveryUnsupported) || decide (x = .noRecoveryImage) || decide (x = .notSupported)) (applyRecovery c e true) 2 st
  unsecure c e allow st

/-! ### Histories -/

/-- What can happen once the host was released. `pfmVerified p` is a new pending PFM (`pfm_manager_flash_verify_pending_manifest`,
pfm_manager_flash.c:109-125), `pfmCleared` a request to clear the PFMs, `pulseReset` a reset pulse (bmc_recovery.c:117-121, 152-156), `idle` only lets the
host run. The manager refuses changes of PFMs that are in use (manifest_manager_flash.c:434, 568-575), so they happen between the operations. -/
inductive Ev (P : Type)
  | softReset | runTime | rollback (disableBypass noReset : Bool) | recoverRw | applyRecovery (noReset : Bool)
  | configRo (cur next : Option Cs) (ev : Option Events) | pfmVerified (p : P) | pfmCleared | pulseReset | idle

/-- One event. -/
def exec : Ev P → M P C Unit
  | .softReset => softReset c e
  | .runTime => runTime c e
  | .rollback b n => flashRollback c e b n
  | .recoverRw => recoverRw c e
  | .applyRecovery n => applyRecovery c e n
  | .configRo a b x => configRo c e a b x
  | .pfmVerified p => step e fun s => { s.setPfmDirty true with pending := some p }
  | .pfmCleared => clearAll e
  | .pulseReset => do
    hold e true
    hold e false
  | .idle => step e id

/-- Events, whatever their results. -/
def session : List (Ev P) → M P C Unit
  | [] => pure ()
  | x :: l => do
    (exec c e x).ignore
    session l

/-- The host is powered on and held in reset; if `power_on` succeeds it is released (host_processor.h:55-57) and the events happen. -/
def boot (allow : Bool) (l : List (Ev P)) : M P C Unit := do
  hold e true
  match ← (powerOn c e allow).status with
  | some _ => pure ()
  | none => do
    hold e false
    session c e l

/-- Several times. -/
def boots : List (Bool × List (Ev P)) → M P C Unit
  | [] => pure ()
  | x :: l => do
    boot c e x.1 x.2
    boots l

end

/-- `host_processor_filtered_get_next_reset_verification_actions`, host_processor_filtered.c:1113-1180. -/
inductive Action | none | verifyPfm | verifyUpdate | verifyPfmAndUpdate | activateUpdate | activatePfmAndUpdate | verifyBypass
  deriving DecidableEq, Repr

/-- See `Action`. -/
def nextActions (s : St P C) : Action :=
  if s.pending.isSome then
    if s.bypass || s.active.isNone then .verifyBypass
    else if !s.pfmDirty then
      match s.preval with
      | .flashAndPfm => .activatePfmAndUpdate
      | .flash => .activateUpdate
      | .none => if s.dirty then .verifyPfmAndUpdate else .none
    else if s.dirty then .verifyPfmAndUpdate
    else .verifyPfm
  else if s.active.isSome then
    if s.bypass then .verifyBypass
    else if s.dirty then (if s.preval = .flash then .activateUpdate else .verifyUpdate)
    else .none
  else .none

/-- `host_processor_filtered_needs_config_recovery`, host_processor_filtered.c:1182-1197. -/
def needsConfigRecovery (s : St P C) : Bool := !(s.filter.enabled && s.ctl)

end Verif.HostProc
