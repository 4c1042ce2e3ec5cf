import Verif.Protocol.Model
/-! Optional commands of the Cerberus protocol
(core/cmd_interface/cerberus_protocol_optional_commands.c) and the manifest commands
(cerberus_protocol_master_commands.c).  Builds with all features enabled. -/
namespace Verif.Protocol

/-! ### Firmware update -/

/-- `cerberus_protocol_fw_update_init` (optional:114-127). -/
def fwInit (env : Env) : M Unit := do
  let l ← len
  unlessErr (l != 9) .badLength
  let n ← u32 env 5
  let r ← call env (.fwPrepare n)
  done r
  setLen 0

/-- `cerberus_protocol_fw_update` (optional:137-153). -/
def fwUpdate (env : Env) : M Unit := do
  let l ← len
  unlessErr (decide (l < 6)) .badLength
  let d ← bytes env 5 (l - 5)
  let r ← call env (.fwWrite d)
  done r
  setLen 0

/-- `cerberus_protocol_fw_update_start` (optional:163-185): without option the firmware is
executed. -/
def fwComplete (env : Env) : M Unit := do
  let l ← len
  unlessErr (l != 5 && l != 6) .badLength
  let e ← if l = 5 then pure 1 else u8 env 5
  let r ← call env (.fwStart (e != 0))
  done r
  setLen 0

/-! ### Logs -/

/-- Size of a log, 0 if it cannot be determined (optional:205-214). -/
def sizeOrZero (r : Reply) : Nat := match r.rc with
  | .ok v => v
  | _ => 0

/-- `cerberus_protocol_get_log_info` (optional:195-222). -/
def logInfo (env : Env) : M Unit := do
  let l ← len
  unlessErr (l != 5) .badLength
  let r ← call env (.logSize .debug)
  put32 env 5 (sizeOrZero r)
  let r ← call env (.logSize .attestation)
  put32 env 9 (sizeOrZero r)
  put32 env 13 0
  setLen 17

/-- Log of a type (cerberus_protocol_optional_commands.h:32-38). -/
def logOf : Nat → Option Log
  | 1 => some .debug
  | 2 => some .attestation
  | 4 => some .tcg
  | _ => none

/-- `cerberus_protocol_log_read` (optional:233-268). -/
def logRead (env : Env) : M Unit := do
  let l ← len
  unlessErr (l != 10) .badLength
  let t ← u8 env 5
  let off ← u32 env 6
  match logOf t with
  | none => fail .unsupportedIndex
  | some log => do
    let r ← callAt env 5 (.logRead log off (room env 5))
    let n ← value r
    setLen (n + 5)

/-- `cerberus_protocol_log_clear` (optional:278-300). -/
def logClear (env : Env) : M Unit := do
  let l ← len
  unlessErr (l != 6) .badLength
  let t ← u8 env 5
  if t = 1 then do
    let r ← call env .logClear
    done r
    setLen 0
  else if t = 2 then setLen 0
  else fail .unsupportedIndex

/-! ### Manifests -/

/-- Length of the string a callee stored, with its terminator (`strlen`, master:455): a string that
is not terminated is read beyond its end. -/
def strLen (data : Bytes) : M Nat := fun s =>
  if (0 : UInt8) ∈ data then (.ok ((data.takeWhile (· ≠ 0)).length + 1), s) else (.error .stale, s)

/-- `cerberus_protocol_get_manifest_id_version` (master:401-427). -/
def idVersion (env : Env) (k : Kind) (present : Bool) : M Unit :=
  if present then do
    let r ← call env (.manifestId k)
    done r
    put32 env 6 r.val
    put8 env 5 1
    setLen 10
  else do
    put8 env 5 0
    put32 env 6 0
    setLen 10

/-- `cerberus_protocol_get_manifest_id_platform` (master:437-466). -/
def idPlatform (env : Env) (k : Kind) (present : Bool) : M Unit :=
  if present then do
    let r ← callAt env 6 (.platformId k ((room env 7 + 1) % env.size))
    done r
    put8 env 5 1
    let n ← strLen r.data
    setLen (n + 7 - 1)
  else do
    put8 env 5 0
    put env 6 [0]
    setLen (1 + 7 - 1)

/-- Either of the two (optional:372-377, master:535-540, 739-744). -/
def idResponse (env : Env) (k : Kind) (id : Nat) (present : Bool) : M Unit :=
  if id = 0 then idVersion env k present else idPlatform env k present

/-- Run a computation, release the manifest, then return its result (optional:379-383). -/
def releasing (env : Env) (k : Kind) (mgr : Bool) (m : M Unit) : M Unit := fun s =>
  let (r, s) := m s
  if mgr then
    match r with
    | .error .oob => (r, s)
    | .error .stale => (r, s)
    | _ => (r, { s with calls := .free k :: s.calls })
  else (r, s)

/-- Ask for the active or pending manifest: the value says whether there is one
(optional:47-52). -/
def getManifest (env : Env) (k : Kind) (pending : Bool) : M Bool := do
  let r ← call env (.manifest k pending)
  pure (r.val != 0)

/-- Default for a missing last byte of a request: zero is stored behind the request
(optional:352-357). -/
def optionalByte (env : Env) (l short i : Nat) : M Unit :=
  if l = short then put env i [0] else unlessErr (l != short + 1) .badLength

/-- `cerberus_protocol_get_pfm_id` (optional:343-384) for the two ports of
`cmd_interface_system_process_request`. -/
def pfmId (env : Env) : M Unit := do
  let l ← len
  optionalByte env l 7 7
  let port ← u8 env 5
  let id ← u8 env 7
  unlessErr (decide (port ≥ 2) || decide (id > 1)) .outOfRange
  if env.has (.pfmMgr port) then do
    let region ← u8 env 6
    unlessErr (decide (region > 1)) .outOfRange
    let p ← getManifest env (.pfm port) (region == 1)
    releasing env (.pfm port) true (idResponse env (.pfm port) id p)
  else idResponse env (.pfm port) id false

/-- `strcmp` of a string in the message with a known string (pfm_flash.c:570). -/
def strcmpAt (env : Env) (i : Nat) : Bytes → M Bool
  | [] => do
    let b ← u8 env i
    pure (b == 0)
  | k :: ks => do
    let b ← u8 env i
    if b = k.toNat then strcmpAt env (i + 1) ks else pure false

/-- Search for the firmware a string in the message names (pfm_flash.c:553-573). -/
def findFw (env : Env) (i : Nat) : List Bytes → M FwArg
  | [] => pure .unknown
  | id :: ids => do
    let found ← strcmpAt env i id
    if found then pure (.known id) else findFw env i ids

/-- Firmware a supported versions request asks for (optional:449-452, pfm_flash.c:553-573): the
identifier is passed on as a string, whether it is terminated or not.  (Its lookup is part of the
call that follows, before that call stores anything.) -/
def fwArg (env : Env) (l : Nat) (ids : List Bytes) : M FwArg :=
  if l > 11 then do
    let n ← u8 env 11
    if n ≠ 0 then findFw env 12 ids else pure .first
  else pure .first

/-- Response without manifest (optional:429-432, 464-466). -/
def noList (env : Env) : M Unit := do
  put8 env 5 0
  put32 env 6 0
  setLen 10

/-- Length check of the supported versions request (optional:409-416). -/
def fwLength (env : Env) (l : Nat) : M Unit :=
  if l < 11 then fail .badLength
  else if l > 11 then do
    let n ← u8 env 11
    unlessErr (l != 12 + n) .badLength
  else pure ()

/-- List of versions of a present manifest (optional:440-461). -/
def fwList (env : Env) (l port off : Nat) (pending : Bool) : M Unit := do
  put8 env 5 1
  let r ← call env (.manifestId (.pfm port))
  done r
  put32 env 6 r.val
  let a ← fwArg env l (env.fwIds port pending)
  let r ← callAt env 10 (.versions port a off (room env 10))
  let n ← value r
  setLen (n + 10)

/-- `cerberus_protocol_get_pfm_fw` (optional:395-475). -/
def pfmFw (env : Env) : M Unit := do
  let l ← len
  fwLength env l
  let port ← u8 env 5
  unlessErr (decide (port ≥ 2)) .outOfRange
  let off ← u32 env 7
  if env.has (.pfmMgr port) then do
    let region ← u8 env 6
    unlessErr (decide (region > 1)) .outOfRange
    let p ← getManifest env (.pfm port) (region == 1)
    releasing env (.pfm port) true
      (if p then fwList env l port off (region == 1) else noList env)
  else noList env

/-- Port of a PFM update request (optional:496-502): out of range or without PFM. -/
def pfmPort (env : Env) : M Nat := do
  let p ← u8 env 5
  unlessErr (decide (p ≥ 2)) .outOfRange
  unlessErr (!env.has (.pfmCmd p)) .unsupportedIndex
  pure p

/-- `cerberus_protocol_pfm_update_init` (optional:486-507). -/
def pfmInit (env : Env) : M Unit := do
  let l ← len
  unlessErr (l != 10) .badLength
  let p ← pfmPort env
  let n ← u32 env 6
  let r ← call env (.prepare (.pfm p) n)
  done r
  setLen 0

/-- `cerberus_protocol_pfm_update` (optional:518-542). -/
def pfmUpdate (env : Env) : M Unit := do
  let l ← len
  unlessErr (decide (l < 7)) .badLength
  let p ← pfmPort env
  let d ← bytes env 6 (l - 6)
  let r ← call env (.store (.pfm p) d)
  done r
  setLen 0

/-- `cerberus_protocol_pfm_update_complete` (optional:553-574). -/
def pfmComplete (env : Env) : M Unit := do
  let l ← len
  unlessErr (l != 7) .badLength
  let p ← pfmPort env
  let a ← u8 env 6
  let r ← call env (.finish (.pfm p) a)
  done r
  setLen 0

/-- Command interface of a CFM or PCD. -/
def cmdPart : Kind → Part
  | .pfm p => .pfmCmd p
  | .cfm => .cfmCmd
  | .pcd => .pcdCmd

/-- Manager of a kind of manifest. -/
def mgrPart : Kind → Part
  | .pfm p => .pfmMgr p
  | .cfm => .cfmMgr
  | .pcd => .pcdMgr

/-- `cerberus_protocol_manifest_update_init` (master:265-283). -/
def manifestInit (env : Env) (k : Kind) : M Unit := do
  let l ← len
  unlessErr (l != 9) .badLength
  unlessErr (!env.has (cmdPart k)) .unsupportedCommand
  let n ← u32 env 5
  let r ← call env (.prepare k n)
  done r
  setLen 0

/-- `cerberus_protocol_manifest_update` (master:293-314). -/
def manifestUpdate (env : Env) (k : Kind) : M Unit := do
  let l ← len
  unlessErr (decide (l < 6)) .badLength
  unlessErr (!env.has (cmdPart k)) .unsupportedCommand
  let d ← bytes env 5 (l - 5)
  let r ← call env (.store k d)
  done r
  setLen 0

/-- `cerberus_protocol_manifest_update_complete` (master:325-349). -/
def manifestComplete (env : Env) (k : Kind) (delayed : Bool) : M Unit := do
  let l ← len
  unlessErr (delayed && l != 6) .badLength
  unlessErr (!env.has (cmdPart k)) .unsupportedCommand
  let a ← if delayed then u8 env 5 else pure 1
  let r ← call env (.finish k a)
  done r
  setLen 0

/-- `cerberus_protocol_cfm_update_complete` (master:387-391). -/
def cfmComplete (env : Env) : M Unit := manifestComplete env .cfm true

/-- `cerberus_protocol_pcd_update_complete` (master:656-673). -/
def pcdComplete (env : Env) : M Unit := do
  let l ← len
  unlessErr (l != 5 && l != 6) .badLength
  manifestComplete env .pcd (l == 6)

/-- `cerberus_protocol_get_cfm_id` (master:508-545). -/
def cfmId (env : Env) : M Unit := do
  let l ← len
  optionalByte env l 6 6
  let id ← u8 env 6
  unlessErr (decide (id > 1)) .outOfRange
  if env.has .cfmMgr then do
    let region ← u8 env 5
    unlessErr (decide (region > 1)) .outOfRange
    let p ← getManifest env .cfm (region == 1)
    releasing env .cfm true (idResponse env .cfm id p)
  else idResponse env .cfm id false

/-- List of components of a present manifest (master:586-606, 787-807). -/
def componentList (env : Env) (k : Kind) (off : Nat) : M Unit := do
  put8 env 5 1
  let r ← call env (.manifestId k)
  done r
  put32 env 6 r.val
  let r ← callAt env 10 (.components k off (room env 10))
  let n ← value r
  setLen (n + 10)

/-- `cerberus_protocol_get_cfm_component_ids` (master:555-618). -/
def cfmComponents (env : Env) : M Unit := do
  let l ← len
  unlessErr (l != 10) .badLength
  if env.has .cfmMgr then do
    let region ← u8 env 5
    unlessErr (decide (region > 1)) .outOfRange
    let off ← u32 env 6
    let p ← getManifest env .cfm (region == 1)
    releasing env .cfm true (if p then componentList env .cfm off else noList env)
  else noList env

/-- `cerberus_protocol_get_pcd_id` (master:715-749). -/
def pcdId (env : Env) : M Unit := do
  let l ← len
  optionalByte env l 5 5
  let id ← u8 env 5
  unlessErr (decide (id > 1)) .outOfRange
  if env.has .pcdMgr then do
    let p ← getManifest env .pcd false
    releasing env .pcd true (idResponse env .pcd id p)
  else idResponse env .pcd id false

/-- `cerberus_protocol_get_pcd_component_ids` (master:759-820). -/
def pcdComponents (env : Env) : M Unit := do
  let l ← len
  unlessErr (l != 9) .badLength
  if env.has .pcdMgr then do
    let off ← u32 env 5
    let p ← getManifest env .pcd false
    releasing env .pcd true (if p then componentList env .pcd off else noList env)
  else noList env

/-- `cerberus_protocol_get_pcd_component_instance_info` (master:830-867).  The length is that of
the number of entries as stored in one byte. -/
def pcdInstances (env : Env) : M Unit := do
  let l ← len
  unlessErr (l != 9) .badLength
  let id ← u32 env 5
  let r ← callAt env 6 (.instances id (room env 6))
  let n ← value r
  put8 env 5 n
  setLen (2 * (n % 256) + 6)

/-! ### Host state, recovery images, configuration -/

/-- `cerberus_protocol_get_host_reset_status` (optional:585-639). -/
def hostState (env : Env) : M Unit := do
  let l ← len
  unlessErr (l != 6) .badLength
  let p ← u8 env 5
  unlessErr (decide (p > 1)) .outOfRange
  unlessErr (!env.has (.hostCtrl p)) .unsupportedIndex
  let r ← call env (.inReset p)
  match r.rc with
  | .ok 0 => do
    put8 env 5 0
    setLen 6
  | .ok 1 => do
    let r ← call env (.heldInReset p)
    match r.rc with
    | .ok 1 => do
      put8 env 5 1
      setLen 6
    | .ok 0 => do
      put8 env 5 2
      setLen 6
    | rc => rcErr rc
  | rc => rcErr rc

/-- Port of a recovery image request (optional:861-869). -/
def recPort (env : Env) : M Nat := do
  let p ← u8 env 5
  unlessErr (decide (p > 1)) .outOfRange
  unlessErr (!env.has (.recCmd p)) .unsupportedIndex
  pure p

/-- `cerberus_protocol_prepare_recovery_image` (optional:850-874). -/
def recPrepare (env : Env) : M Unit := do
  let l ← len
  unlessErr (l != 10) .badLength
  let p ← recPort env
  let n ← u32 env 6
  let r ← call env (.recPrepare p n)
  done r
  setLen 0

/-- `cerberus_protocol_update_recovery_image` (optional:885-913). -/
def recUpdate (env : Env) : M Unit := do
  let l ← len
  unlessErr (decide (l < 7)) .badLength
  let p ← recPort env
  let d ← bytes env 6 (l - 6)
  let r ← call env (.recUpdate p d)
  done r
  setLen 0

/-- `cerberus_protocol_activate_recovery_image` (optional:924-949). -/
def recActivate (env : Env) : M Unit := do
  let l ← len
  unlessErr (l != 6) .badLength
  let p ← recPort env
  let r ← call env (.recActivate p)
  done r
  setLen 0

/-- Version of a present recovery image, then its release (optional:991-1004). -/
def recVersionOf (env : Env) (p : Nat) : M Unit := do
  let r ← callAt env 5 (.recVersion p 32)
  let _ ← call env (.recFree p)
  done r
  setLen 37

/-- `cerberus_protocol_get_recovery_image_id` (optional:960-1007).  The optional identifier is not
used further. -/
def recVersion (env : Env) : M Unit := do
  let l ← len
  optionalByte env l 6 6
  let p ← u8 env 5
  unlessErr (decide (p > 1)) .outOfRange
  unlessErr (!env.has (.recMgr p)) .unsupportedIndex
  put env 5 (List.replicate 32 0)
  let r ← call env (.recImage p)
  if r.val ≠ 0 then recVersionOf env p else setLen 37

/-- Offsets in an unseal request (cerberus_protocol_optional_commands.h:877-922): the length of the
HMAC is read after the check at 689, which looks at the ciphertext once more instead of the HMAC. -/
def unsealTail (env : Env) (l seed : Nat) : M Unit := do
  let ct ← u16 env (9 + seed)
  unlessErr (ct == 0 || decide (9 + seed + 2 + ct ≥ l)) .badLength
  unlessErr (decide (9 + seed + 3 ≥ l)) .badLength
  let hm ← u16 env (9 + seed + 2 + ct)
  unlessErr (hm != 32 || decide (9 + seed + 2 + ct + 2 + hm ≥ l)) .badLength
  unlessErr (9 + seed + 2 + ct + 2 + hm + 320 != l) .badLength
  let d ← bytes env 0 l
  let r ← call env (.unsealStart d)
  done r
  setLen 0

/-- `cerberus_protocol_unseal_message` (optional:649-715). -/
def unsealMessage (env : Env) : M Unit := do
  let l ← len
  unlessErr (decide (l < 10)) .badLength
  let t ← u8 env 5
  unlessErr (t / 4 % 8 != 0 || decide (t % 4 > 1)) .outOfRange
  let p ← u8 env 6
  unlessErr (t % 4 == 0 && decide (p % 8 > 2)) .outOfRange
  let seed ← u16 env 7
  unlessErr (seed == 0 || decide (9 + seed ≥ l)) .badLength
  unlessErr (decide (9 + seed + 3 ≥ l)) .badLength
  unsealTail env l seed

/-- `cerberus_protocol_unseal_message_result` (optional:725-768): the key is stored before its
length and the status. -/
def unsealResult (env : Env) : M Unit := do
  let l ← len
  unlessErr (l != 5) .badLength
  let r ← callAt env 11 (.unsealResult ((room env 12 + 1) % env.size))
  let _ ← value r
  put32 env 5 r.val
  if r.val % 2 ^ 32 = 0 then do
    put16 env 9 r.data.length
    setLen (r.data.length + 12 - 1)
  else setLen 9

/-- Token of a reset configuration request: none if empty (optional:798-801). -/
def resetToken (env : Env) (l : Nat) : M (Option Bytes) :=
  if l = 6 then pure none else do
    let d ← bytes env 6 (l - 6)
    pure (some d)

/-- `cerberus_protocol_reset_config` (optional:779-839). -/
def resetConfig (env : Env) : M Unit := do
  let l ← len
  unlessErr (decide (l < 6)) .badLength
  let token ← resetToken env l
  let t ← u8 env 5
  let r ← call env (.authorize t token)
  match r.rc with
  | .ok 0 =>
    if r.val ≠ 0 then do
      let r ← call env .execute
      done r
      setLen 0
    else fail .unsupportedOperation
  | .challenge => do
    unlessErr (decide (r.data.length > room env 5)) .bufTooSmall
    put env 5 r.data
    setLen (r.data.length + 5)
  | .unsupportedOp => fail .unsupportedIndex
  | rc => rcErr rc

/-! ### Attestation data, sessions, host flash configuration -/

/-- `cerberus_protocol_get_attestation_data` (optional:1017-1041). -/
def attData (env : Env) : M Unit := do
  let l ← len
  unlessErr (l != 11) .badLength
  let pmr ← u8 env 5
  let entry ← u8 env 6
  let off ← u32 env 7
  let r ← callAt env 5 (.measurement pmr entry off (room env 5))
  let n ← value r
  setLen (n + 5)

/-- `cerberus_protocol_get_attestation_summary` (optional:1051-1082). -/
def attSummary (env : Env) : M Unit := do
  let l ← len
  unlessErr (l != 10) .badLength
  let id ← u32 env 5
  let inst ← u8 env 9
  let r ← call env (.component id inst)
  match r.rc with
  | .ok dev => do
    let r ← call env (.prevState dev)
    put8 env 5 r.val
    let _ ← callAt env 6 (.counters dev 12)
    setLen 18
  | _ => fail .unsupportedIndex

/-- HMAC in a key exchange request: the session manager looks at it only if its length is 32
(session_manager.c:349-353). -/
def hmacAt (env : Env) (i n : Nat) : M Bytes :=
  if n = 32 then bytes env i 32 else pure []

/-- End of the key exchange types 1 and 2 (optional:1146-1151). -/
def keysDone : M Unit := setLen 6

/-- Type 2 clears the encryption bit of the header (optional:1136-1138). -/
def clearCrypt (env : Env) : M Unit := do
  let h ← u8 env 3
  put8 env 3 (h - h / 32 % 2 * 32)

/-- `cerberus_protocol_key_exchange` (optional:1093-1153).  Type 0 is left to the session manager
(session_manager_ecc.c:18-199), which stores its response from offset 6 on. -/
def exchangeKeys (env : Env) : M Unit := do
  unlessErr (!env.has .session) .unsupportedCommand
  let l ← len
  unlessErr (decide (l ≤ 6)) .badLength
  let t ← u8 env 5
  if t = 0 then do
    let d ← bytes env 6 (l - 6)
    let r ← callAt env 6 (.establish d (room env 6))
    done r
    setLen (r.data.length + 6)
  else if t = 1 then do
    unlessErr (!env.encrypted) .shouldBeEncrypted
    let k ← u16 env 6
    let h ← hmacAt env 8 (restLen env l 8)
    let r ← call env (.pairedSession env.eid k (some h))
    done r
    keysDone
  else if t = 2 then do
    unlessErr (!env.encrypted) .shouldBeEncrypted
    let h ← hmacAt env 6 (restLen env l 6)
    let r ← call env (.resetSession env.eid (some h))
    done r
    clearCrypt env
    keysDone
  else fail .unsupportedIndex

/-- `cerberus_protocol_session_sync` (optional:1164-1196). -/
def sessionSync (env : Env) : M Unit := do
  unlessErr (!env.has .session) .unsupportedCommand
  unlessErr (!env.encrypted) .shouldBeEncrypted
  let l ← len
  unlessErr (l != 9) .badLength
  let rn ← u32 env 5
  let r ← callAt env 5 (.sync env.eid rn (room env 5))
  let n ← value r
  setLen (n + 5)

/-- `cerberus_protocol_get_host_flash_configuration` (optional:1207-1250). -/
def getHostFlash (env : Env) : M Unit := do
  let l ← len
  unlessErr (l != 6) .badLength
  let p ← u8 env 5
  unlessErr (decide (p ≥ 2)) .outOfRange
  unlessErr (!env.has (.host p)) .unsupportedIndex
  let r ← call env (.flashConfig p)
  done r
  put8 env 5 (r.vals.getD 0 0)
  put8 env 6 (r.vals.getD 1 0)
  put8 env 7 (r.vals.getD 2 0)
  put8 env 8 (r.vals.getD 3 0)
  setLen 9

/-- `cerberus_protocol_set_host_flash_configuration` (optional:1261-1301). -/
def setHostFlash (env : Env) : M Unit := do
  let l ← len
  unlessErr (l != 9) .badLength
  let p ← u8 env 5
  unlessErr (decide (p ≥ 2)) .outOfRange
  let c ← u8 env 6
  unlessErr (decide (c > 1) && c != 255) .outOfRange
  let n ← u8 env 7
  unlessErr (decide (n > 1) && n != 255) .outOfRange
  let a ← u8 env 8
  unlessErr (decide (a > 3) && a != 255) .outOfRange
  unlessErr (!env.has (.host p)) .unsupportedIndex
  let r ← call env (.setFlashConfig p c n a)
  done r
  setLen 0

/-! ### Progress of operations, diagnosis -/

/-- Response to a progress request (master:1171-1174). -/
def statusOf (env : Env) (t : Task) : M Unit := do
  let r ← call env (.status t)
  put32 env 5 r.val
  setLen 9

/-- Progress of an operation on one of the hosts (master:979-1006, 1078-1097). -/
def statusPort (env : Env) (part : Nat → Part) (f : Nat → M Unit) : M Unit := do
  let p ← u8 env 6
  unlessErr (decide (p ≥ 2)) .outOfRange
  unlessErr (!env.has (part p)) .unsupportedIndex
  f p

/-- Next verification of a host (master:998-1003). -/
def nextVerification (env : Env) (p : Nat) : M Unit := do
  let r ← call env (.nextVerification p)
  done r
  put32 env 5 r.val
  setLen 9

/-- `cerberus_protocol_get_update_status` (master:1115-1177). -/
def updateStatus (env : Env) : M Unit := do
  let l ← len
  unlessErr (l != 7) .badLength
  let t ← u8 env 5
  match t with
  | 0 => statusOf env .firmware
  | 1 => statusPort env .pfmCmd fun p => statusOf env (.pfm p)
  | 2 => do
    unlessErr (!env.has .cfmCmd) .unsupportedIndex
    statusOf env .cfm
  | 3 => do
    unlessErr (!env.has .pcdCmd) .unsupportedIndex
    statusOf env .pcd
  | 4 => statusPort env .host (nextVerification env)
  | 5 => statusPort env .recCmd fun p => statusOf env (.recovery p)
  | 6 => statusOf env .reset
  | 7 => statusPort env .host fun p => statusOf env (.hostFlash p)
  | _ => fail .unsupportedIndex

/-- Status and remaining length (master:1190-1191, 1234-1236). -/
def extStatusOf (env : Env) (t : Task) : M Unit := do
  let r ← call env (.status t)
  let n ← call env (.remaining t)
  put32 env 5 r.val
  put32 env 9 n.val
  setLen 13

/-- Response of zeros together with an error (master:1264-1286). -/
def extStatusErr (env : Env) (e : Err) : M Unit := do
  put32 env 5 0
  put32 env 9 0
  fail e

/-- `cerberus_protocol_get_extended_update_status` (master:1253-1297).  The handler of the firmware
stores the status before it asks for the remaining length. -/
def extStatus (env : Env) : M Unit := do
  let l ← len
  unlessErr (l != 7) .badLength
  let t ← u8 env 5
  if t = 0 then extStatusOf env .firmware
  else if t = 5 then do
    let p ← u8 env 6
    if p > 1 then extStatusErr env .outOfRange
    else if env.has (.recMgr p) && env.has (.recCmd p) then extStatusOf env (.recovery p)
    else extStatusErr env .unsupportedIndex
  else fail .unsupportedIndex

/-- Length of the data of a forced attestation request (master:1438-1458). -/
def forceLen (mode : Nat) : Nat := if mode = 4 then 10 else if mode = 3 then 6 else 1

/-- `cerberus_protocol_force_attestation` (master:1416-1472). -/
def forceAttestation (env : Env) : M Unit := do
  unlessErr (!env.has .attReq) .invalidArgument
  let l ← len
  unlessErr (decide (restLen env l 5 < 1)) .badLength
  let mode ← u8 env 5
  unlessErr (decide (mode > 4)) .outOfRange
  unlessErr (restLen env l 5 != forceLen mode) .badLength
  let d ← bytes env 5 (restLen env l 5)
  let r ← call env (.force d)
  done r
  setLen 5
  let _ ← call env .wake
  pure ()

/-- `cerberus_protocol_force_attestation_info` (master:1482-1517). -/
def forceInfo (env : Env) : M Unit := do
  unlessErr (!env.has .attReq) .unsupportedCommand
  let l ← len
  unlessErr (l != 5) .badLength
  let r ← call env .forceState
  let st ← value r
  put8 env 5 st
  put32 env 6 r.val
  setLen 10

/-- `cerberus_protocol_heap_stats` (cerberus_protocol_diagnostic_commands.c:19-39). -/
def heapStats (env : Env) : M Unit := do
  let l ← len
  unlessErr (l != 5) .badLength
  setLen 29
  let r ← callAt env 5 (.heap 24)
  done r

/-- `cerberus_protocol_stack_stats` (cerberus_protocol_diagnostic_commands.c:49-81): the result is
the length of the statistics behind the number of tasks. -/
def stackStats (env : Env) : M Unit := do
  let l ← len
  unlessErr (l != 9) .badLength
  let off ← u32 env 5
  let r ← callAt env 5 (.stack off (room env 9))
  let n ← value r
  setLen (n + 9)

/-- `cerberus_protocol_get_attestation_state` (cerberus_protocol_debug_commands.c:39-59). -/
def debugState (env : Env) : M Unit := do
  let l ← len
  unlessErr (l != 6) .badLength
  let d ← u8 env 5
  let r ← call env (.deviceState d)
  let n ← value r
  put8 env 5 n
  setLen 6

/-- `cerberus_protocol_debug_fill_log` (cerberus_protocol_debug_commands.c:19-29). -/
def debugFill (env : Env) : M Unit := do
  let l ← len
  unlessErr (l != 5) .badLength
  let r ← call env .fillLog
  done r
  setLen 0

end Verif.Protocol
