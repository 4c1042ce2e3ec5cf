import Verif.HostState.Model
/-! Model of `core/host_fw/host_processor_single.c` and `host_processor_single_full_bypass.c`: which flash device the host uses.

The settings are those of the `HostState` model. Each function runs under the lock of the host processor. Not modelled: NULL
arguments, notifications and log entries. The calls that are repeated until they succeed (`host_processor_filtered_config_bypass`,
`host_processor_filtered_set_host_flash_access`, host_processor_filtered.c:219-276) are taken as successful. -/
namespace Verif.HostSingle
open Verif.StateManager (State)
open Verif.HostState

/-- Results. -/
inductive Result where
  | ok
  | invalidArgument
  | unsupported
  | flash (code : Int)
deriving DecidableEq, Repr

/-- The host state and the mode of the filter (`spi_filter_flash_mode`, spi_filter_interface.h:39-45). -/
structure St where
  st : State
  filter : Nat
deriving DecidableEq, Repr

/-- The instance: `two` is `has_two_flash_devices`, `full` tells whether bypass mode switches the filter off
(host_processor_single_full_bypass.c). -/
structure Cfg where
  two : Bool
  full : Bool
deriving DecidableEq, Repr

/-- `host_processor_single_full_read_write_flash`, host_processor_single.c:222-254, and
`host_processor_single_full_bypass_enable_bypass_mode`, host_processor_single_full_bypass.c:11-31. -/
def enableBypass (g : Cfg) (s : St) : St :=
  let m0 := if g.full then 1 else 3
  let m1 := if g.full then 2 else 4
  if g.two then { s with filter := if getRoFlash s.st = 1 then m1 else m0 }
  else ⟨clearRoOverride (saveRoFlash s.st 0).2, m0⟩

/-- `host_processor_filtered_config_bypass`, host_processor_filtered.c:252-276. -/
def configBypass (g : Cfg) (s : St) : St :=
  let s := enableBypass g s
  { s with st := setBypass s.st true }

/-- `host_processor_single_bypass_mode`, host_processor_single.c:72-103. -/
def bypassMode (g : Cfg) (swap : Bool) (s : St) : St :=
  let st := if !g.two then (saveRoFlash s.st 0).2
    else if swap then
      if getRoFlash s.st = 0 then (saveRoFlash s.st 1).2 else (saveRoFlash s.st 0).2
    else s.st
  configBypass g { s with st := st }

/-- `host_processor_single_get_flash_config`, host_processor_single.c:105-138: mode, current and next device, events. Reading the
filter succeeds. -/
def getConfig (s : St) : Nat × Nat × Nat × Nat :=
  (if isBypass s.st then (if getRoFlash s.st = 0 then 1 else 2) else s.filter,
    getRoFlash s.st, getRoFlashNv s.st, getRoEvents s.st)

/-- host_processor_single.c:192-206: the next device and the events. `ro` is the current device before the call. -/
def configNext (ro : Nat) (next events : Option Nat) (st : State) : State :=
  let st := match next with
    | none => st
    | some d =>
      let st := if ro ≠ d ∧ hasRoOverride st = false then (overrideRoFlash st ro).2 else st
      (saveRoFlash st d).2
  match events with
  | none => st
  | some e => (saveRoEvents st e).2

/-- `host_processor_single_config_read_only_flash`, host_processor_single.c:140-212. `rot` is the result of
`set_flash_for_rot_access`. -/
def configRo (g : Cfg) (rot : Int) (current next events : Option Nat) (s : St) : Result × St :=
  if current.any (· > 1) then (.invalidArgument, s)
  else if next.any (· > 1) then (.invalidArgument, s)
  else if events.any (· > 3) then (.invalidArgument, s)
  else if !g.two then (.unsupported, s)
  else
    let ro := getRoFlash s.st
    match current with
    | none => (.ok, { s with st := configNext ro next events s.st })
    | some d =>
      if ro ≠ d then
        let s := { s with st := (overrideRoFlash s.st d).2 }
        if rot ≠ 0 then (.flash rot, s)
        else
          let s := configBypass g s
          (.ok, { s with st := configNext ro next events s.st })
      else (.ok, { s with st := configNext ro next events s.st })

/-- `host_processor_single_prepare_verification`, host_processor_single.c:256-280; true is
`HOST_PROCESSOR_FILTERED_DIRTY_FORCE`. -/
def prepare (ignore : Nat) (s : St) : Bool × St :=
  let ro := getRoFlash s.st
  let nv := getRoFlashNv s.st
  let events := getRoEvents s.st
  if events ≠ 0 ∧ events ≠ ignore then
    let st := if ro ≠ nv then saveInactiveDirty s.st true else s.st
    (decide (ro ≠ nv), { s with st := clearRoOverride st })
  else (false, s)

/-- `host_processor_single_soft_reset`, host_processor_single.c:23-34: the start of the verification ignores
`HOST_READ_ONLY_ACTIVATE_ON_POR_AND_AT_RUN_TIME`. -/
def startReset (s : St) : Bool × St := prepare 2 s

/-- `host_processor_single_run_time_verification`, host_processor_single.c:36-47: the start of the verification ignores
`HOST_READ_ONLY_ACTIVATE_ON_POR_AND_RESET`. -/
def startRunTime (s : St) : Bool × St := prepare 1 s

/-- `host_processor_single_finalize_verification`, host_processor_single.c:282-294. -/
def finalize (s : St) : St :=
  if getRoFlash s.st = getRoFlashNv s.st then { s with st := clearRoOverride s.st } else s

/-- The start of `host_processor_filtered_power_on_reset`, host_processor_filtered.c:753-755. -/
def powerOn (s : St) : St := { s with st := clearRoOverride (setBypass (setPfmDirty s.st true) false) }

end Verif.HostSingle
