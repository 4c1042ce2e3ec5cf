import Verif.Checksum.Model
import Verif.Flash.Model
/-! Model of `core/recovery/ocp_recovery_device.c` and `core/recovery/ocp_recovery_smbus.c`: the device side of the OCP Secure
Firmware Recovery protocol.

`none` is undefined behaviour or a loop that does not end. Pointers handed to the functions are not NULL; only the list of memory
regions may be NULL. `size_t` has 32 bits. All flash regions lie in the same flash device. Debug log entries are not modelled. -/
namespace Verif.OcpRecovery
open Verif.Flash (Mem FS)

/-- What the union at ocp_recovery_device.h:69-73 really points to. -/
inductive Target
  | buffer                 -- memory
  | provider               -- `struct ocp_recovery_device_variable_cms`
  | flash (base : Nat)     -- `struct ocp_recovery_device_flash_cms` with this `base_addr`
deriving DecidableEq, Repr

/-- `struct ocp_recovery_device_cms`, ocp_recovery_device.h:68-86. -/
structure Cms where
  target : Target
  length : Nat
  type : UInt8
  isFlash : Bool
deriving DecidableEq, Repr

/-- The result of a call: a count or 0, or an error code. -/
inductive Status
  | ok (n : Nat)
  | err (code : Nat)
deriving DecidableEq, Repr

/-- `OCP_RECOVERY_DEVICE_ERROR`, ocp_recovery_device.h:271, with `ROT_ERROR`, rot_status.h:21, and module 0x60, module_id.h:108. -/
def devErr (code : Nat) : Nat := 0x7f006000 + code

/-- `OCP_RECOVERY_DEVICE_NACK`, ocp_recovery_device.h:281. -/
def eNack : Nat := devErr 0x04
/-- `OCP_RECOVERY_DEVICE_NO_ACTIVE_COMMAND`, ocp_recovery_device.h:282. -/
def eNoActive : Nat := devErr 0x05
/-- `OCP_RECOVERY_DEVICE_RO_COMMAND`, ocp_recovery_device.h:283. -/
def eReadOnly : Nat := devErr 0x06
/-- `OCP_RECOVERY_DEVICE_UNSUPPORTED`, ocp_recovery_device.h:284. -/
def eUnsupported : Nat := devErr 0x07
/-- `OCP_RECOVERY_DEVICE_CMD_INCOMPLETE`, ocp_recovery_device.h:285. -/
def eIncomplete : Nat := devErr 0x08
/-- `OCP_RECOVERY_DEVICE_CMS_NOT_CODE_REGION`, ocp_recovery_device.h:286. -/
def eNotCode : Nat := devErr 0x09
/-- `OCP_RECOVERY_DEVICE_UNSUPPORTED_CMS`, ocp_recovery_device.h:287. -/
def eCms : Nat := devErr 0x0a
/-- `OCP_RECOVERY_DEVICE_RO_CMS`, ocp_recovery_device.h:288. -/
def eRoCms : Nat := devErr 0x0b
/-- `OCP_RECOVERY_DEVICE_RW_CMS_NOT_ALIGNED`, ocp_recovery_device.h:289. -/
def eAlign : Nat := devErr 0x0c
/-- `OCP_RECOVERY_DEVICE_RW_LOG`, ocp_recovery_device.h:290. -/
def eRwLog : Nat := devErr 0x0d
/-- `OCP_RECOVERY_DEVICE_UNSUPPORTED_PARAM`, ocp_recovery_device.h:291. -/
def eParam : Nat := devErr 0x0e
/-- `OCP_RECOVERY_DEVICE_EXTRA_CMD_BYTES`, ocp_recovery_device.h:292. -/
def eExtra : Nat := devErr 0x0f
/-- `OCP_RECOVERY_DEVICE_CMS_FLASH_ADDR_OVERFLOW`, ocp_recovery_device.h:295. -/
def eFlashAddr : Nat := devErr 0x12

/-- The calls to the device hardware that do something, ocp_recovery_device.h:117-193. -/
inductive HwCall
  | resetDevice (forced : Bool)
  | resetManagement (forced : Bool)
  | activate (cms : Nat)
deriving DecidableEq, Repr

/-- What does not change while the handler runs: the regions, the hardware interface and the flash device. The functions that take a
number answer differently at different times (`World.tick`). -/
structure Env where
  /-- `device->cms` and `device->cms_count`; `none` is NULL. -/
  cms : Option (List Cms)
  /-- `hw->reset_device` is not NULL. -/
  hasReset : Bool
  /-- `hw->reset_management` is not NULL. -/
  hasMgmt : Bool
  /-- `hw->activate_recovery` is not NULL. -/
  hasActivate : Bool
  /-- `hw->supports_forced_recovery`. -/
  hasForced : Bool
  /-- `hw->activate_recovery`: `none` is success, otherwise the error code and what `is_auth_error` is then. -/
  activate : Nat → Nat → Option (Nat × Bool)
  /-- `hw->get_device_id`: the bytes stored, whose number is returned, or an error code. -/
  deviceId : Nat → Except Nat Bytes
  /-- `hw->get_device_status`: status, reason and the five bytes of vendor status. -/
  deviceStatus : Nat → UInt8 × Nat × Bytes
  /-- `variable->get_size` of a region. -/
  varSize : Nat → Nat → Except Nat Nat
  /-- `variable->get_data` of a region with an offset and a maximum: the bytes stored, whose number is returned. -/
  varData : Nat → Nat → Nat → Nat → Except Nat Bytes
  /-- The flash device with its sector size and its faults. -/
  flash : Verif.Flash.Dev
  /-- The number `flash_device_size` holds after `get_device_size`. -/
  flashSize : Nat
  /-- The error code of a failed flash operation. -/
  flashErr : Nat
  /-- `get_sector_size` fails. -/
  sectorFails : Nat → Bool

/-- `device->cms_count`. -/
def Env.count (env : Env) : Nat := (env.cms.getD []).length

/-- `struct ocp_recovery_reset`, ocp_recovery.h. -/
structure Reset where
  ctrl : UInt8
  forced : UInt8
  intf : UInt8
deriving DecidableEq, Repr

/-- `struct ocp_recovery_recovery_ctrl`, ocp_recovery.h. -/
structure RecCtrl where
  cms : UInt8
  image : UInt8
  activate : UInt8
deriving DecidableEq, Repr

/-- `struct ocp_recovery_device_state`, ocp_recovery_device.h:198-206, without the indirect control, which follows. -/
structure Ctl where
  active : UInt8
  proto : UInt8
  recovery : UInt8
  indirect : UInt8
  reset : Reset
  recCtrl : RecCtrl
  /-- `indirect_ctrl.cms`, `indirect_ctrl.reserved` and `indirect_ctrl.offset`. -/
  cms : UInt8
  reserved : UInt8
  offset : Nat
deriving DecidableEq, Repr

/-- Everything that changes. -/
structure World where
  ctl : Ctl
  /-- The buffer of each memory region, with its real size. -/
  mem : Nat → Bytes
  /-- The flash device. -/
  fs : FS
  /-- `*flash_erase_offset` of each flash region. -/
  erased : Nat → Nat
  /-- The calls made to the hardware, oldest first. -/
  hw : List HwCall
  /-- The number of calls to the hardware and the providers of data so far. -/
  tick : Nat

/-- The function `f` with another value at `i`. -/
def setAt {α : Type} (f : Nat → α) (i : Nat) (v : α) : Nat → α := fun j => if j = i then v else f j

/-- The state after `memset`, ocp_recovery_device.c:75. -/
def Ctl.zero : Ctl := ⟨0, 0, 0, 0, ⟨0, 0, 0⟩, ⟨0, 0, 0⟩, 0, 0, 0⟩

/-- The `base_addr` of a region whose union is used as `flash`: undefined if it is something else. -/
def Target.asFlash : Target → Option Nat
  | .flash b => some b
  | _ => none

/-- The loop at ocp_recovery_device.c:84-115 over the regions from `i` on. `first` is `device->cms[0]`, which is what
`device->cms->flash` and `device->cms->length` at lines 105-113 are. -/
def initLoop (env : Env) (first : Cms) : Nat → List Cms → World → Option (Status × World)
  | _, [], w => some (.ok 0, w)
  | i, c :: cs, w =>
    if (c.type &&& 0xf7 = 0 ∨ c.type &&& 0xf7 = 5) ∧ c.length % 4 ≠ 0 then some (.err eAlign, w)
    else if (c.type &&& 0xf7 = 0 ∨ c.type &&& 0xf7 = 5) ∧ c.length = 0 then some (.err eRwLog, w)
    else if c.isFlash then
      match first.target.asFlash with
      | none => none
      | some b =>
        if (b + first.length) % 2 ^ 32 > env.flashSize then some (.err eFlashAddr, w)
        else
          match c.target.asFlash with
          | none => none
          | some _ => initLoop env first (i + 1) cs { w with erased := setAt w.erased i b }
    else initLoop env first (i + 1) cs w

/-- `ocp_recovery_device_init_state`, ocp_recovery_device.c:66-118. The list is the one given to `ocp_recovery_device_init` (37-54),
which only stores it. -/
def initState (env : Env) (w : World) : Option (Status × World) :=
  let w := { w with ctl := { Ctl.zero with recovery := if !env.hasActivate || env.cms.isNone then 0 else 1 } }
  match env.cms with
  | none => some (.ok 0, w)
  | some [] => some (.ok 0, w)
  | some (c :: cs) => initLoop env c 0 (c :: cs) w

/-- `ocp_recovery_device_start_new_command`, ocp_recovery_device.c:144-161. -/
def startCommand (cmd : UInt8) (w : World) : Status × World :=
  if cmd < 0x22 ∨ cmd > 0x2c then (.err eNack, { w with ctl := { w.ctl with proto := w.ctl.proto ||| 1 } })
  else (.ok 0, { w with ctl := { w.ctl with active := cmd } })

/-- The stores at ocp_recovery_device.c:210-213. -/
def storeReset (r : Reset) (w : World) : World := { w with ctl := { w.ctl with reset := { r with ctrl := 0 } } }

/-- `ocp_recovery_device_write_reset`, ocp_recovery_device.c:172-216. The hardware calls return. -/
def writeReset (env : Env) (r : Reset) (w : World) : Status × World :=
  if r.intf ≠ 0 then (.err eParam, w)
  else if !env.hasForced ∧ r.forced = 0x0f then (.err eParam, w)
  else if r.ctrl = 1 then
    if env.hasReset then (.ok 0, storeReset r { w with hw := w.hw ++ [.resetDevice (r.forced == 0x0f)] })
    else (.err eParam, w)
  else if r.ctrl = 2 then
    if env.hasMgmt then (.ok 0, storeReset r { w with hw := w.hw ++ [.resetManagement (r.forced == 0x0f)] })
    else (.err eParam, w)
  else (.ok 0, storeReset r w)

/-- The stores at ocp_recovery_device.c:271-273. -/
def storeRec (r : RecCtrl) (w : World) : World := { w with ctl := { w.ctl with recCtrl := { r with activate := 0 } } }

/-- `ocp_recovery_device_write_recovery_ctrl`, ocp_recovery_device.c:226-276. -/
def writeRecCtrl (env : Env) (r : RecCtrl) (w : World) : Status × World :=
  match (env.cms.getD [])[r.cms.toNat]? with
  | none => (.err eCms, w)
  | some c =>
    if r.image = 2 then (.err eParam, w)
    else if !env.hasActivate ∧ (r.image = 1 ∨ r.activate = 0x0f) then (.err eParam, w)
    else if r.image = 1 then
      if c.type ≠ 0 then (.err eNotCode, storeRec r { w with ctl := { w.ctl with recovery := 0x0f } })
      else if r.activate = 0x0f then
        let w' : World := { w with hw := w.hw ++ [.activate r.cms.toNat], tick := w.tick + 1 }
        match env.activate w.tick r.cms.toNat with
        | none => (.ok 0, storeRec r { w' with ctl := { w'.ctl with recovery := 3 } })
        | some (code, auth) => (.err code, storeRec r { w' with ctl := { w'.ctl with recovery := if auth then 0x0d else 0x0c } })
      else (.ok 0, storeRec r w)
    else (.ok 0, storeRec r w)

/-- `ocp_recovery_device_write_indirect_ctrl`, ocp_recovery_device.c:286-305. -/
def writeIndirectCtrl (env : Env) (cms reserved : UInt8) (offset : Nat) (w : World) : Status × World :=
  match env.cms with
  | none => (.err eUnsupported, w)
  | some _ => (.ok 0, { w with ctl := { w.ctl with cms := cms, reserved := reserved, offset := (offset + 3) % 2 ^ 32 / 4 * 4 } })

/-- Erasing the next sector if the piece of `n` bytes reaches it, ocp_recovery_device.c:358-372. -/
def flashErase (env : Env) (i base n : Nat) (w : World) : Status × World :=
  if (base + w.ctl.offset + n) % 2 ^ 32 > w.erased i then
    match Verif.Flash.erase env.flash env.flash.sector w.fs (w.erased i) with
    | (false, fs) => (.err env.flashErr, { w with fs := fs })
    | (true, fs) =>
      if env.sectorFails fs.calls then (.err env.flashErr, { w with fs := fs })
      else (.ok 0, { w with fs := fs, erased := setAt w.erased i ((w.erased i + env.flash.sector) % 2 ^ 32) })
  else (.ok 0, w)

/-- At the start of the region nothing counts as erased, ocp_recovery_device.c:353-356. -/
def flashRewind (i base : Nat) (w : World) : World :=
  if w.ctl.offset = 0 then { w with erased := setAt w.erased i base } else w

/-- Storing one piece of data in flash, ocp_recovery_device.c:353-378. A write that reports fewer bytes than asked for is no error
(376). -/
def flashPiece (env : Env) (i base : Nat) (d : Bytes) (w : World) : Status × World :=
  match flashErase env i base d.length (flashRewind i base w) with
  | (.err e, w) => (.err e, w)
  | (.ok _, w) =>
    match Verif.Flash.write env.flash w.fs ((base + w.ctl.offset) % 2 ^ 32) d with
    | (none, fs) => (.err env.flashErr, { w with fs := fs })
    | (some _, fs) => (.ok 0, { w with fs := fs })

/-- Storing one piece of data in memory, ocp_recovery_device.c:381. -/
def memPiece (i : Nat) (c : Cms) (d : Bytes) (w : World) : Option World :=
  match c.target with
  | .buffer =>
    if w.ctl.offset + d.length ≤ (w.mem i).length then some { w with mem := setAt w.mem i (writeAt (w.mem i) w.ctl.offset d) }
    else none
  | _ => none

/-- Starting from the beginning at the end of the region, ocp_recovery_device.c:346-349 and 654-657. -/
def wrap (length : Nat) (w : World) : World :=
  if w.ctl.offset ≥ length then { w with ctl := { w.ctl with offset := 0, indirect := w.ctl.indirect ||| 1 } } else w

/-- Moving the offset, ocp_recovery_device.c:385 and 691-692. -/
def advance (n : Nat) (w : World) : World :=
  { w with ctl := { w.ctl with offset := (w.ctl.offset + (n + 3) / 4 * 4) % 2 ^ 32 } }

/-- The loop at ocp_recovery_device.c:344-389, for at most `fuel` rounds. -/
def writeLoop (env : Env) (i : Nat) (c : Cms) : Nat → Bytes → World → Option (Status × World)
  | 0, _, _ => none
  | fuel + 1, d, w =>
    let w := wrap c.length w
    let n := min d.length (c.length - w.ctl.offset)
    let r : Option (Status × World) :=
      if c.isFlash then c.target.asFlash.map fun b => flashPiece env i b (d.take n) w
      else (memPiece i c (d.take n) w).map fun w => (.ok 0, w)
    match r with
    | none => none
    | some (.err e, w) => some (.err e, w)
    | some (.ok _, w) =>
      let w := advance n w
      if d.length - n > 0 then writeLoop env i c fuel (d.drop n) w else some (.ok 0, w)

/-- `ocp_recovery_device_write_indirect_data`, ocp_recovery_device.c:316-392. A loop that needs more rounds than there are bytes, and
one, does not end. -/
def writeIndirectData (env : Env) (d : Bytes) (w : World) : Option (Status × World) :=
  match env.cms with
  | none => some (.err eUnsupported, w)
  | some cs =>
    match cs[w.ctl.cms.toNat]? with
    | none => some (.err eCms, w)
    | some c =>
      if c.type ≠ 0 ∧ c.type ≠ 5 then
        some (.err eRoCms, { w with ctl := { w.ctl with indirect := w.ctl.indirect ||| 2 } })
      else writeLoop env w.ctl.cms.toNat c (d.length + 1) d w

/-- The switch at ocp_recovery_device.c:468-487. -/
def writeFailure (r : Status × World) : World :=
  match r.1 with
  | .ok _ => r.2
  | .err e =>
    if e = eUnsupported ∨ e = eReadOnly then { r.2 with ctl := { r.2.ctl with proto := 1 } }
    else if e = eParam ∨ e = eCms then { r.2 with ctl := { r.2.ctl with proto := 2 } }
    else if e = eIncomplete ∨ e = eExtra then { r.2 with ctl := { r.2.ctl with proto := 3 } }
    else r.2

/-- `device->state->active_cmd = OCP_RECOVERY_DEVICE_NO_COMMAND`. -/
def inactive (w : World) : World := { w with ctl := { w.ctl with active := 0 } }

/-- A number of `n` bytes in memory; the processor is little endian. -/
def le (n : Nat) (v : Nat) : Bytes := toLE n v

/-- A command with a fixed size, ocp_recovery_device.c:422-456. -/
def sized (n : Nat) (d : Bytes) (f : World → Status × World) (w : World) : Status × World :=
  if d.length = n then f w else if d.length > n then (.err eExtra, w) else (.err eIncomplete, w)

/-- The switch at ocp_recovery_device.c:417-465. -/
def writeSwitch (env : Env) (d : Bytes) (w : World) : Option (Status × World) :=
  if w.ctl.active = 0 then some (.err eNoActive, w)
  else if w.ctl.active = 0x25 then some (sized 3 d (writeReset env ⟨d.getD 0 0, d.getD 1 0, d.getD 2 0⟩) w)
  else if w.ctl.active = 0x26 then some (sized 3 d (writeRecCtrl env ⟨d.getD 0 0, d.getD 1 0, d.getD 2 0⟩) w)
  else if w.ctl.active = 0x29 then some (sized 6 d (writeIndirectCtrl env (d.getD 0 0) (d.getD 1 0) (leNat (d.drop 2))) w)
  else if w.ctl.active = 0x2b then writeIndirectData env d w
  else if w.ctl.active = 0x2c then some (.err eUnsupported, w)
  else some (.err eReadOnly, w)

/-- `ocp_recovery_device_write_request`, ocp_recovery_device.c:408-492. `d` is the first `length` bytes of the buffer. -/
def writeRequest (env : Env) (d : Bytes) (w : World) : Option (Status × World) :=
  (writeSwitch env d w).map fun r => (r.1, inactive (writeFailure r))

/-- The number of the capabilities, ocp_recovery_device.c:509-533 with ocp_recovery.h:61-73. -/
def capabilities (env : Env) : Nat :=
  0x11 + (if env.hasReset then 0x08 else 0) + (if env.hasMgmt then 0x04 else 0) + (if env.hasForced then 0x02 else 0) +
    (if env.cms.isSome then 0x20 + (if env.hasActivate then 0x80 else 0) else 0)

/-- `ocp_recovery_device_read_prot_cap`, ocp_recovery_device.c:502-537. -/
def readProtCap (env : Env) : Bytes :=
  [0x4f, 0x43, 0x50, 0x20, 0x52, 0x45, 0x43, 0x56] ++ [1, 0] ++ le 2 (capabilities env) ++ [UInt8.ofNat env.count] ++ [0x10, 0]

/-- `ocp_recovery_device_read_device_status`, ocp_recovery_device.c:547-566. The hardware stores five bytes of vendor status. -/
def readDeviceStatus (env : Env) (w : World) : Bytes × World :=
  let s := env.deviceStatus w.tick
  ([s.1] ++ [w.ctl.proto] ++ le 2 s.2.1 ++ [0, 0] ++ [5] ++ s.2.2, { w with ctl := { w.ctl with proto := 0 }, tick := w.tick + 1 })

/-- The size of a region, ocp_recovery_device.c:591-601 and 644-652: of a provider if the length is 0. -/
def regionSize (env : Env) (i : Nat) (c : Cms) (w : World) : Option (Except Nat Nat × World) :=
  if c.length = 0 then
    match c.target with
    | .provider => some (env.varSize w.tick i, { w with tick := w.tick + 1 })
    | _ => none
  else some (.ok c.length, w)

/-- `ocp_recovery_device_read_indirect_status`, ocp_recovery_device.c:576-615. -/
def readIndirectStatus (env : Env) (w : World) : Option (Except Nat Bytes × World) :=
  match env.cms with
  | none => some (.error eUnsupported, w)
  | some cs =>
    let clear (w : World) : World := { w with ctl := { w.ctl with indirect := 0 } }
    match cs[w.ctl.cms.toNat]? with
    | none => some (.ok ([w.ctl.indirect, 7] ++ le 4 0), clear w)
    | some c =>
      match regionSize env w.ctl.cms.toNat c w with
      | none => none
      | some (.error e, w) => some (.error e, w)
      | some (.ok n, w) => some (.ok ([w.ctl.indirect, c.type] ++ le 4 ((n % 2 ^ 32 + 3) % 2 ^ 32 / 4)), clear w)

/-- The bytes of one piece of a region, ocp_recovery_device.c:662-688. -/
def readPiece (env : Env) (i : Nat) (c : Cms) (w : World) : Option (Except Nat Bytes × World) :=
  if c.length = 0 then
    match c.target with
    | .provider =>
      match env.varData w.tick i w.ctl.offset 252 with
      | .error e => some (.error e, { w with tick := w.tick + 1 })
      | .ok d => if d.length ≤ 252 then some (.ok d, { w with tick := w.tick + 1 }) else none
    | _ => none
  else if c.isFlash then
    match c.target with
    | .flash b =>
      match Verif.Flash.read env.flash w.fs ((b + w.ctl.offset) % 2 ^ 32) (min (c.length - w.ctl.offset) 252) with
      | (none, fs) => some (.error env.flashErr, { w with fs := fs })
      | (some d, fs) => some (.ok d, { w with fs := fs })
    | _ => none
  else
    match c.target with
    | .buffer =>
      if min (w.ctl.offset + 252) c.length ≤ (w.mem i).length then
        some (.ok ((((w.mem i).take c.length).drop w.ctl.offset).take 252), w)
      else none
    | _ => none

/-- `ocp_recovery_device_read_indirect_data`, ocp_recovery_device.c:625-695: the data is filled up with zero to a multiple of four. -/
def readIndirectData (env : Env) (w : World) : Option (Except Nat Bytes × World) :=
  match env.cms with
  | none => some (.error eUnsupported, w)
  | some cs =>
    match cs[w.ctl.cms.toNat]? with
    | none => some (.error eCms, w)
    | some c =>
      match regionSize env w.ctl.cms.toNat c w with
      | none => none
      | some (.error e, w) => some (.error e, w)
      | some (.ok n, w) =>
        match readPiece env w.ctl.cms.toNat c (wrap n w) with
        | none => none
        | some (.error e, w) => some (.error e, w)
        | some (.ok d, w) => some (.ok (d ++ List.replicate ((d.length + 3) / 4 * 4 - d.length) 0), advance d.length w)

/-- The switch at ocp_recovery_device.c:776-788. -/
def readFailure (r : Except Nat Bytes × World) : World :=
  match r.1 with
  | .ok _ => r.2
  | .error e =>
    if e = eUnsupported then { r.2 with ctl := { r.2.ctl with proto := 1 } }
    else if e = eCms then { r.2 with ctl := { r.2.ctl with proto := 2 } }
    else r.2

/-- The switch at ocp_recovery_device.c:720-773, for an active command. -/
def readSwitch (env : Env) (w : World) : Option (Except Nat Bytes × World) :=
  if w.ctl.active = 0x22 then some (.ok (readProtCap env), w)
  else if w.ctl.active = 0x23 then some (env.deviceId w.tick, { w with tick := w.tick + 1 })
  else if w.ctl.active = 0x24 then some (.ok (readDeviceStatus env w).1, (readDeviceStatus env w).2)
  else if w.ctl.active = 0x25 then some (.ok [w.ctl.reset.ctrl, w.ctl.reset.forced, w.ctl.reset.intf], w)
  else if w.ctl.active = 0x26 then some (.ok [w.ctl.recCtrl.cms, w.ctl.recCtrl.image, w.ctl.recCtrl.activate], w)
  else if w.ctl.active = 0x27 then some (.ok [w.ctl.recovery, 0], w)
  else if w.ctl.active = 0x29 then
    if env.cms.isSome then some (.ok ([w.ctl.cms, w.ctl.reserved] ++ le 4 w.ctl.offset), w) else some (.error eUnsupported, w)
  else if w.ctl.active = 0x2a then readIndirectStatus env w
  else if w.ctl.active = 0x2b then readIndirectData env w
  else some (.error eUnsupported, w)

/-- `ocp_recovery_device_read_request`, ocp_recovery_device.c:711-793: the bytes of the response, whose number is returned. -/
def readRequest (env : Env) (w : World) : Option (Except Nat Bytes × World) :=
  if w.ctl.active = 0 then some (.error eNoActive, w)
  else (readSwitch env w).map fun r => (r.1, inactive (readFailure r))

/-- `ocp_recovery_device_checksum_failure`, ocp_recovery_device.c:801-807. -/
def checksumFailure (w : World) : World := { w with ctl := { w.ctl with active := 0, proto := 4 } }

/-- `ocp_recovery_device_write_overflow` and `ocp_recovery_device_write_incomplete`, ocp_recovery_device.c:816-835. -/
def lengthFailure (w : World) : World := { w with ctl := { w.ctl with active := 0, proto := 3 } }

/-! ### The SMBus layer -/

/-- `struct ocp_recovery_smbus_state`, ocp_recovery_smbus.h:34-38. -/
structure Bus where
  crc : UInt8
  rx : Int
  buf : Bytes
deriving DecidableEq, Repr

/-- `ocp_recovery_smbus_init_state`, ocp_recovery_smbus.c:63-72. -/
def Bus.init : Bus := ⟨0, 0, List.replicate 257 0⟩

/-- `ocp_recovery_smbus_start`, ocp_recovery_smbus.c:92-101. -/
def start (addr : UInt8) (_b : Bus) : Bus := ⟨Verif.Checksum.init (addr <<< 1), -1, List.replicate 257 0⟩

/-- `checksum_update_smbus_crc8` with an `int` length, which is converted to `uint8_t`; checksum.c:51-73. -/
def crcUpdate (crc : UInt8) (d : Bytes) (len : Nat) : UInt8 := Verif.Checksum.update crc (d.take (len % 256))

/-- What `ocp_recovery_smbus_receive_byte` answers: 0, `OCP_RECOVERY_SMBUS_NACK` or `OCP_RECOVERY_SMBUS_OVERFLOW`. -/
inductive Ack | ack | nack | overflow
deriving DecidableEq, Repr

/-- `ocp_recovery_smbus_receive_byte`, ocp_recovery_smbus.c:174-217. -/
def receive (data : UInt8) (b : Bus) (w : World) : Ack × Bus × World :=
  if b.rx ≤ -2 then (.nack, b, w)
  else if b.rx = -1 then
    let b := { b with crc := crcUpdate b.crc [data] 1 }
    match startCommand data w with
    | (.err e, w) => (if e = eNack then .nack else .ack, { b with rx := -2 }, w)
    | (.ok _, w) => (.ack, { b with rx := b.rx + 1 }, w)
  else if b.rx < 257 then (.ack, { b with buf := b.buf.set b.rx.toNat data, rx := b.rx + 1 }, w)
  else (.overflow, { b with rx := -3 }, lengthFailure w)

/-- `ocp_recovery_smbus_stop`, ocp_recovery_smbus.c:109-162. `buf[0]` is `byte_count`, the payload starts at `buf[1]`. -/
def stop (env : Env) (b : Bus) (w : World) : Option (Bus × World) :=
  let count := (b.buf.getD 0 0).toNat
  if b.rx > 0 then
    if b.rx > count then
      let crc := crcUpdate b.crc b.buf (count + 1)
      let b' := if b.rx ≥ count + 2 then { b with crc := crc } else b
      if b.rx ≥ count + 2 ∧ crc ≠ b.buf.getD (count + 1) 0 then some ({ b' with rx := -1 }, checksumFailure w)
      else (writeRequest env ((b.buf.drop 1).take count) w).map fun r => ({ b' with rx := -1 }, r.2)
    else some ({ b with rx := -1 }, lengthFailure w)
  else some ({ b with rx := -1 }, w)

/-- The response that is sent: an error gives no bytes, ocp_recovery_smbus.c:243-253. -/
def answered (r : Except Nat Bytes) : Bytes := match r with | .ok d => d | .error _ => []

/-- `ocp_recovery_smbus_transmit_bytes`, ocp_recovery_smbus.c:231-263: the buffer that is sent. The response must leave room for the
checksum in the 257 bytes of the buffer. -/
def transmit (env : Env) (addr : UInt8) (b : Bus) (w : World) : Option (Bus × World) :=
  let crc := crcUpdate b.crc [(addr <<< 1) ||| 1] 1
  match readRequest env w with
  | none => none
  | some (r, w) =>
    let d := answered r
    if d.length ≤ 255 then
      let buf := writeAt b.buf 0 (UInt8.ofNat d.length :: d)
      some ({ b with crc := crc, buf := buf.set (d.length + 1) (crcUpdate crc buf (d.length + 1)) }, w)
    else none

end Verif.OcpRecovery
