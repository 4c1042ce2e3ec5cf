import Verif.StateManager.Model
/-!
Model of core/host_fw/host_state_manager.c and core/system/system_state_manager.c: the settings kept
in the bits of the state manager's non-volatile and volatile state.

Each setter runs under `state_lock`, so it is one step. Not modelled: NULL arguments and the
notification of observers (see the Observable model).
-/
namespace Verif.HostState
open Verif.StateManager (State)

inductive Status where
  | ok
  | invalidArgument
  | outOfRange
  deriving Repr, DecidableEq

/-- host_state_manager.c:20 -/
def READ_ONLY_FLASH_MASK : BitVec 16 := 1#16 <<< 0
/-- host_state_manager.c:26 -/
def INACTIVE_DIRTY_MASK : BitVec 16 := 1#16 <<< 1
/-- host_state_manager.c:32 -/
def ACTIVE_PFM_MASK : BitVec 16 := 1#16 <<< 2
/-- host_state_manager.c:38 -/
def ACTIVE_RECOVERY_IMAGE_MASK : BitVec 16 := 1#16 <<< 3
/-- host_state_manager.c:45 -/
def RO_FLASH_SWITCH_MASK : BitVec 16 := 3#16 <<< 4
/-- host_state_manager.c:53 -/
def OVERRIDE_RO_FLASH_MASK : BitVec 16 := 1#16 <<< 8
/-- host_state_manager.c:59 -/
def OVERRIDE_RO_VALID_MASK : BitVec 16 := 1#16 <<< 9
/-- host_state_manager.c:67 -/
def PFM_DIRTY_MASK : BitVec 8 := 1#8 <<< 0
/-- host_state_manager.c:73 -/
def RUN_TIME_MASK : BitVec 8 := 3#8 <<< 1
/-- host_state_manager.c:78 -/
def BYPASS_MASK : BitVec 8 := 1#8 <<< 3
/-- host_state_manager.c:83 -/
def BAD_FLASH_MASK : BitVec 8 := 1#8 <<< 4

/-- state_manager.c:559-587 `state_manager_save_active_manifest`; `active` is the enum value, 0 for
region 1. -/
def saveManifestBit (s : State) (active : Nat) (bit : BitVec 16) : Status × State :=
  if active = 0 then (.ok, { s with nv := s.nv ||| bit })
  else if active = 1 then (.ok, { s with nv := s.nv &&& ~~~bit })
  else (.invalidArgument, s)

/-- state_manager.c:597-605 `state_manager_get_active_manifest`. -/
def getManifestBit (s : State) (bit : BitVec 16) : Nat := if s.nv &&& bit ≠ 0 then 0 else 1

/-- host_state_manager.c:86-103 `host_state_manager_save_active_manifest`. -/
def saveActivePfm (s : State) (active : Nat) : Status × State := saveManifestBit s active ACTIVE_PFM_MASK

/-- host_state_manager.c:105-111 `host_state_manager_get_active_manifest`. -/
def getActivePfm (s : State) : Nat := getManifestBit s ACTIVE_PFM_MASK

/-- host_state_manager.c:113-149 `host_state_manager_restore_default_state`. -/
def restoreDefault (s : State) : State :=
  { s with nv := 0xffff, vol := (s.vol &&& ~~~RUN_TIME_MASK) ||| PFM_DIRTY_MASK }

/-- host_state_manager.c:304-337 `host_state_manager_save_read_only_flash_nv_config`; `ro` is the
enum value, 0 for `SPI_FILTER_CS_0`. -/
def saveRoFlash (s : State) (ro : Nat) : Status × State :=
  if ro = 0 then (.ok, { s with nv := s.nv ||| READ_ONLY_FLASH_MASK })
  else if ro = 1 then (.ok, { s with nv := s.nv &&& ~~~READ_ONLY_FLASH_MASK })
  else (.invalidArgument, s)

/-- host_state_manager.c:347-356 `host_state_manager_get_read_only_flash_nv_config`. -/
def getRoFlashNv (s : State) : Nat := if s.nv &&& READ_ONLY_FLASH_MASK ≠ 0 then 0 else 1

/-- host_state_manager.c:369-403 `host_state_manager_override_read_only_flash`. -/
def overrideRoFlash (s : State) (ro : Nat) : Status × State :=
  if ro = 0 then
    (.ok, { s with nv := (s.nv ||| OVERRIDE_RO_FLASH_MASK) &&& ~~~OVERRIDE_RO_VALID_MASK })
  else if ro = 1 then
    (.ok, { s with nv := s.nv &&& ~~~(OVERRIDE_RO_FLASH_MASK ||| OVERRIDE_RO_VALID_MASK) })
  else (.invalidArgument, s)

/-- host_state_manager.c:411-425 `host_state_manager_clear_read_only_flash_override`. -/
def clearRoOverride (s : State) : State :=
  { s with nv := s.nv ||| (OVERRIDE_RO_FLASH_MASK ||| OVERRIDE_RO_VALID_MASK) }

/-- host_state_manager.c:435-442 `host_state_manager_has_read_only_flash_override`. -/
def hasRoOverride (s : State) : Bool := s.nv &&& OVERRIDE_RO_VALID_MASK = 0

/-- host_state_manager.c:282-291 `host_state_manager_get_read_only_flash`. -/
def getRoFlash (s : State) : Nat :=
  if hasRoOverride s then (if s.nv &&& OVERRIDE_RO_FLASH_MASK ≠ 0 then 0 else 1) else getRoFlashNv s

/-- host_state_manager.c:454-484 `host_state_manager_save_inactive_dirty`. -/
def saveInactiveDirty (s : State) (dirty : Bool) : State :=
  if dirty then
    { s with nv := s.nv &&& ~~~INACTIVE_DIRTY_MASK, vol := s.vol &&& ~~~RUN_TIME_MASK }
  else { s with nv := s.nv ||| INACTIVE_DIRTY_MASK }

/-- host_state_manager.c:493-500 `host_state_manager_is_inactive_dirty`. -/
def isInactiveDirty (s : State) : Bool := s.nv &&& INACTIVE_DIRTY_MASK = 0

/-- host_state_manager.c:511-544 `host_state_manager_save_read_only_activation_events`; `events` is
the enum value. -/
def saveRoEvents (s : State) (events : Nat) : Status × State :=
  if events = 0 ∨ events = 1 ∨ events = 2 ∨ events = 3 then
    (.ok, { s with nv := (s.nv &&& ~~~RO_FLASH_SWITCH_MASK) ||| (BitVec.ofNat 16 events <<< 4) })
  else (.invalidArgument, s)

/-- host_state_manager.c:554-562 `host_state_manager_get_read_only_activation_events`. -/
def getRoEvents (s : State) : Nat := ((s.nv &&& RO_FLASH_SWITCH_MASK) >>> 4).toNat

/-- host_state_manager.c:573-608 `host_state_manager_save_active_recovery_image`. -/
def saveRecovery (s : State) (active : Nat) : Status × State :=
  if active = 0 then (.ok, { s with nv := s.nv ||| ACTIVE_RECOVERY_IMAGE_MASK })
  else if active = 1 then (.ok, { s with nv := s.nv &&& ~~~ACTIVE_RECOVERY_IMAGE_MASK })
  else (.invalidArgument, s)

/-- host_state_manager.c:617-626 `host_state_manager_get_active_recovery_image`. -/
def getRecovery (s : State) : Nat := if s.nv &&& ACTIVE_RECOVERY_IMAGE_MASK ≠ 0 then 0 else 1

/-- host_state_manager.h:112-116 `enum host_state_prevalidated`. -/
inductive Prevalidated where
  | none
  | flash
  | flashAndPfm
  deriving Repr, DecidableEq

/-- Enumerator values, host_state_manager.h:112-116. -/
def Prevalidated.code : Prevalidated → BitVec 8
  | .none => 0
  | .flash => 2
  | .flashAndPfm => 6

/-- host_state_manager.c:635-661 `host_state_manager_set_pfm_dirty`. -/
def setPfmDirty (s : State) (dirty : Bool) : State :=
  if dirty then
    let s := { s with vol := s.vol ||| PFM_DIRTY_MASK }
    if s.vol &&& RUN_TIME_MASK = Prevalidated.flashAndPfm.code then
      { s with vol := s.vol &&& ~~~RUN_TIME_MASK }
    else s
  else { s with vol := s.vol &&& ~~~PFM_DIRTY_MASK }

/-- host_state_manager.c:671-678 `host_state_manager_is_pfm_dirty`. -/
def isPfmDirty (s : State) : Bool := s.vol &&& PFM_DIRTY_MASK ≠ 0

/-- host_state_manager.c:687-699 `host_state_manager_set_run_time_validation`. -/
def setRunTime (s : State) (p : Prevalidated) : State :=
  { s with vol := (s.vol &&& ~~~RUN_TIME_MASK) ||| p.code }

/-- host_state_manager.c:708-716 `host_state_manager_get_run_time_validation`: the raw enum value. -/
def getRunTime (s : State) : BitVec 8 := s.vol &&& RUN_TIME_MASK

/-- host_state_manager.c:724-739 `host_state_manager_set_bypass_mode`. -/
def setBypass (s : State) (b : Bool) : State :=
  if b then { s with vol := s.vol ||| BYPASS_MASK } else { s with vol := s.vol &&& ~~~BYPASS_MASK }

/-- host_state_manager.c:748-755 `host_state_manager_is_bypass_mode`. -/
def isBypass (s : State) : Bool := s.vol &&& BYPASS_MASK ≠ 0

/-- host_state_manager.c:763-779 `host_state_manager_set_unsupported_flash`. -/
def setUnsupported (s : State) (b : Bool) : State :=
  if b then { s with vol := s.vol ||| BAD_FLASH_MASK } else { s with vol := s.vol &&& ~~~BAD_FLASH_MASK }

/-- host_state_manager.c:788-795 `host_state_manager_is_flash_supported`. -/
def isFlashSupported (s : State) : Bool := s.vol &&& BAD_FLASH_MASK = 0

/-- A call that changes host state. -/
inductive Op where
  | activePfm (region : Nat)
  | restoreDefault
  | roFlash (cs : Nat)
  | overrideRo (cs : Nat)
  | clearOverride
  | inactiveDirty (dirty : Bool)
  | roEvents (events : Nat)
  | recovery (region : Nat)
  | pfmDirty (dirty : Bool)
  | runTime (p : Prevalidated)
  | bypass (b : Bool)
  | unsupported (b : Bool)
  deriving Repr

/-- Dispatch of the calls above (no C counterpart). -/
def exec (s : State) : Op → Status × State
  | .activePfm r => saveActivePfm s r
  | .restoreDefault => (.ok, restoreDefault s)
  | .roFlash cs => saveRoFlash s cs
  | .overrideRo cs => overrideRoFlash s cs
  | .clearOverride => (.ok, clearRoOverride s)
  | .inactiveDirty d => (.ok, saveInactiveDirty s d)
  | .roEvents e => saveRoEvents s e
  | .recovery r => saveRecovery s r
  | .pfmDirty d => (.ok, setPfmDirty s d)
  | .runTime p => (.ok, setRunTime s p)
  | .bypass b => (.ok, setBypass s b)
  | .unsupported b => (.ok, setUnsupported s b)

/-! ## System state manager -/

/-- system_state_manager.c:19 -/
def ACTIVE_CFM_MASK : BitVec 16 := 1#16 <<< 0
/-- system_state_manager.c:25 -/
def ACTIVE_PCD_MASK : BitVec 16 := 1#16 <<< 1

/-- system_state_manager.c:28-40 `system_state_manager_save_active_manifest`; manifest index 0 is the
CFM, 1 the PCD (system_state_manager.h:14-15). -/
def sysSave (s : State) (index active : Nat) : Status × State :=
  if index = 0 then saveManifestBit s active ACTIVE_CFM_MASK
  else if index = 1 then saveManifestBit s active ACTIVE_PCD_MASK
  else (.outOfRange, s)

/-- system_state_manager.c:42-54 `system_state_manager_get_active_manifest`. -/
def sysGet (s : State) (index : Nat) : Nat :=
  if index = 0 then getManifestBit s ACTIVE_CFM_MASK
  else if index = 1 then getManifestBit s ACTIVE_PCD_MASK
  else 0

/-- system_state_manager.c:69-82 `system_state_manager_restore_default_state`. -/
def sysRestore (s : State) : State := { s with nv := 0xffff }

end Verif.HostState
