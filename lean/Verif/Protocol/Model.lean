import Verif.Common.Bytes
/-! Model of the Cerberus protocol request handlers
(core/cmd_interface/cerberus_protocol_required_commands.c, ..._optional_commands.c,
..._master_commands.c, ..._diagnostic_commands.c, ..._debug_commands.c).

A handler works in place on the message buffer that holds the request.  The buffer is a function
from offsets to optional bytes: the bytes of the request are known, all others are leftovers of
earlier messages (`none`).  Reading a leftover byte and touching anything beyond the buffer are
distinct outcomes.  Everything outside the handlers (attestation, logs, manifests, flash, sessions)
is reached through calls; every call is recorded with its arguments, and an arbitrary function of
the calls so far answers it. -/
namespace Verif.Protocol

/-- Parts of the device that may be absent (null pointers passed to `cmd_interface_system_init`,
cmd_interface_system.c:374-400). -/
inductive Part
  | pfmMgr (port : Nat) | pfmCmd (port : Nat) | cfmMgr | cfmCmd | pcdMgr | pcdCmd
  | host (port : Nat) | hostCtrl (port : Nat) | recCmd (port : Nat) | recMgr (port : Nat)
  | session | attReq
deriving DecidableEq, Repr

/-- Kinds of manifest. -/
inductive Kind
  | pfm (port : Nat) | cfm | pcd
deriving DecidableEq, Repr

/-- Logs that can be read (cerberus_protocol_optional_commands.h:32-38). -/
inductive Log
  | debug | attestation | tcg
deriving DecidableEq, Repr

/-- Progress that can be asked for (cerberus_protocol_master_commands.h:27-36). -/
inductive Task
  | firmware | pfm (port : Nat) | cfm | pcd | recovery (port : Nat) | reset | hostFlash (port : Nat)
deriving DecidableEq, Repr

/-- Firmware a version query asks for: the first one, an unknown one, or the one with an identifier
of the manifest. -/
inductive FwArg
  | first | unknown | known (id : Bytes)
deriving DecidableEq, Repr

/-- Calls from the handlers to the rest of the device.  The argument `max` is the number of bytes
the callee may store. -/
inductive Call
  | resetSession (eid : Nat) (hmac : Option Bytes)
  | digests (slot max : Nat)
  | certificate (slot cert : Nat)
  | challenge (data : Bytes) (max : Nat)
  | addSession (eid : Nat) (requester responder : Bytes)
  | csr (index : Nat)
  | storeCert (index : Nat) (cert : Bytes)
  | checkCerts
  | certState
  | deviceNum (eid : Nat)
  | setCaps (device : Nat) (caps : Bytes)
  | getCaps
  | uuid (max : Nat)
  | resetCounter (type port : Nat)
  | fwPrepare (size : Nat)
  | fwWrite (data : Bytes)
  | fwStart (execute : Bool)
  | logSize (log : Log)
  | logRead (log : Log) (offset max : Nat)
  | logClear
  | manifest (kind : Kind) (pending : Bool)
  | manifestId (kind : Kind)
  | platformId (kind : Kind) (max : Nat)
  | versions (port : Nat) (fw : FwArg) (offset max : Nat)
  | components (kind : Kind) (offset max : Nat)
  | free (kind : Kind)
  | prepare (kind : Kind) (size : Nat)
  | store (kind : Kind) (data : Bytes)
  | finish (kind : Kind) (activate : Nat)
  | inReset (port : Nat)
  | heldInReset (port : Nat)
  | unsealStart (request : Bytes)
  | unsealResult (max : Nat)
  | authorize (type : Nat) (token : Option Bytes)
  | execute
  | recPrepare (port size : Nat)
  | recUpdate (port : Nat) (data : Bytes)
  | recActivate (port : Nat)
  | recImage (port : Nat)
  | recVersion (port max : Nat)
  | recFree (port : Nat)
  | measurement (pmr entry offset max : Nat)
  | component (id inst : Nat)
  | prevState (device : Nat)
  | counters (device max : Nat)
  | establish (request : Bytes) (max : Nat)
  | pairedSession (eid keyLen : Nat) (hmac : Option Bytes)
  | sync (eid rn max : Nat)
  | flashConfig (port : Nat)
  | setFlashConfig (port cur next apply : Nat)
  | instances (id max : Nat)
  | status (task : Task)
  | remaining (task : Task)
  | nextVerification (port : Nat)
  | force (data : Bytes)
  | wake
  | forceState
  | heap (max : Nat)
  | stack (offset max : Nat)
  | deviceState (device : Nat)
  | fillLog
  | decrypt (message : Bytes) (max : Nat)
  | encrypt (payload : Bytes)
deriving DecidableEq, Repr

/-- Results of calls.  Errors the handlers treat specially are named. -/
inductive Rc
  | ok (v : Nat)
  | invalidSlot | invalidCert | certNotAvailable | unknownCsr | challenge | unsupportedOp
  | err (code : Nat)
deriving DecidableEq, Repr

/-- `ROT_IS_ERROR`: results other than non-negative values. -/
def Rc.isErr : Rc → Bool
  | .ok _ => false
  | _ => true

/-- Answer to a call: result, bytes stored through the output pointer, further output values. -/
structure Reply where
  rc : Rc
  data : Bytes := []
  val : Nat := 0
  vals : List Nat := []
deriving Repr

/-- Errors of the handlers (cmd_interface.h, `CMD_HANDLER_...`). -/
inductive Err
  | badLength | outOfRange | unsupportedIndex | unsupportedCommand | unsupportedOperation
  | bufTooSmall | responseTooSmall | shouldBeEncrypted | unknownRequest | invalidArgument
  | tooShort | unsupportedMsg | reservedNotZero | encryptionUnsupported
  | sub (rc : Rc)
deriving DecidableEq, Repr

/-- Ways a handler stops: with an error, or by touching memory it must not touch: `oob` is an access
beyond the message buffer, `stale` a read of a byte that is neither part of the request nor written
since. -/
inductive Stop
  | err (e : Err) | oob | stale
deriving DecidableEq, Repr

/-- What a handler depends on. -/
structure Env where
  /-- Size of the message buffer from the start of the request on (mctp_interface.c:94-95). -/
  cap : Nat := 4096
  /-- Number of values of `size_t`. -/
  size : Nat := 2 ^ 32
  /-- `max_response` of the message. -/
  maxResp : Nat
  /-- `source_eid` of the message. -/
  eid : Nat
  /-- `is_encrypted` of the message. -/
  encrypted : Bool := false
  /-- Parts that are present. -/
  has : Part → Bool
  /-- Firmware versions: `fw_version->count` entries, each null or a string. -/
  fwVersions : List (Option Bytes)
  /-- Firmware identifiers in the manifest of a port (active or pending one), without terminators. -/
  fwIds : Nat → Bool → List Bytes
  /-- `interface->device_id`: vendor, device, subsystem vendor, subsystem. -/
  ids : List Nat
  /-- Answers. -/
  reply : List Call → Call → Reply

/-- State while a request is handled: message buffer, `length` of the message, calls so far (last
one first), `key_exchange_algorithm` of the attestation responder. -/
structure St where
  mem : Nat → Option UInt8
  len : Nat
  calls : List Call := []
  keyAlg : Nat := 0

/-- Computations of the handlers. -/
def M (α : Type) : Type := St → Except Stop α × St

instance : Monad M where
  pure a := fun s => (.ok a, s)
  bind m f := fun s => match m s with
    | (.ok a, s) => f a s
    | (.error e, s) => (.error e, s)

/-- Return an error. -/
def fail (e : Err) : M α := fun s => (.error (.err e), s)

/-- Read the byte at an offset of the message. -/
def u8 (env : Env) (i : Nat) : M Nat := fun s =>
  if i ≥ env.cap then (.error .oob, s) else
  match s.mem i with
  | none => (.error .stale, s)
  | some b => (.ok b.toNat, s)

/-- Read `n` bytes from an offset of the message. -/
def bytes (env : Env) (i : Nat) : Nat → M Bytes
  | 0 => pure []
  | n + 1 => do
    let b ← u8 env i
    let r ← bytes env (i + 1) n
    pure (UInt8.ofNat b :: r)

/-- Read a 16-bit value (packed structures, little endian). -/
def u16 (env : Env) (i : Nat) : M Nat := do
  let a ← u8 env i
  let b ← u8 env (i + 1)
  pure (a + 256 * b)

/-- Read a 32-bit value. -/
def u32 (env : Env) (i : Nat) : M Nat := do
  let a ← u16 env i
  let b ← u16 env (i + 2)
  pure (a + 65536 * b)

/-- Contents of a buffer after `data` has been stored at offset `i`. -/
def upd (mem : Nat → Option UInt8) (i : Nat) (data : Bytes) : Nat → Option UInt8 := fun j =>
  if i ≤ j ∧ j < i + data.length then data[j - i]? else mem j

/-- Store bytes at an offset of the message. -/
def put (env : Env) (i : Nat) (data : Bytes) : M Unit := fun s =>
  if i + data.length > env.cap ∧ data ≠ [] then (.error .oob, s)
  else (.ok (), { s with mem := upd s.mem i data })

/-- Little endian bytes of a value. -/
def le : Nat → Nat → Bytes
  | 0, _ => []
  | k + 1, v => UInt8.ofNat (v % 256) :: le k (v / 256)

/-- Store an 8, 16 or 32-bit value. -/
def put8 (env : Env) (i v : Nat) : M Unit := put env i (le 1 v)
def put16 (env : Env) (i v : Nat) : M Unit := put env i (le 2 v)
def put32 (env : Env) (i v : Nat) : M Unit := put env i (le 4 v)

/-- `request->length`. -/
def len : M Nat := fun s => (.ok s.len, s)

/-- Set `request->length`. -/
def setLen (n : Nat) : M Unit := fun s => (.ok (), { s with len := n })

/-- A call without output buffer. -/
def call (env : Env) (c : Call) : M Reply := fun s =>
  (.ok (env.reply s.calls c), { s with calls := c :: s.calls })

/-- A call that stores its output at an offset of the message, also when it fails. -/
def callAt (env : Env) (i : Nat) (c : Call) : M Reply := do
  let r ← call env c
  put env i r.data
  pure r

/-- Fail with the error of a call. -/
def rcErr (rc : Rc) : M α := fail (.sub rc)

/-- Handlers that pass on the result of a call: success is the value 0. -/
def done (r : Reply) : M Unit := match r.rc with
  | .ok 0 => pure ()
  | rc => rcErr rc

/-- Value of a successful call. -/
def value (r : Reply) : M Nat := match r.rc with
  | .ok v => pure v
  | rc => rcErr rc

/-- Continue unless the condition holds. -/
def unlessErr (c : Bool) (e : Err) : M Unit := if c then fail e else pure ()

/-- `request->max_response - n` in `size_t`. -/
def room (env : Env) (n : Nat) : Nat := (env.maxResp + env.size - n % env.size) % env.size

/-- `request->length - n` in `size_t`. -/
def restLen (env : Env) (l n : Nat) : Nat := (l + env.size - n % env.size) % env.size

/-! ### Required commands -/

/-- `strncpy` of a string (without its terminator) into a field of 32 bytes, then termination of
the field (cerberus_protocol_required_commands.c:92-97). -/
def versionField (s : Option Bytes) : Bytes := match s with
  | none => List.replicate 32 0
  | some s => (s.take 31 ++ List.replicate 32 0).take 31 ++ [0]

/-- `cerberus_protocol_get_fw_version` (required:74-102). -/
def getFwVersion (env : Env) : M Unit := do
  let l ← len
  unlessErr (l != 6) .badLength
  let area ← u8 env 5
  unlessErr (decide (area ≥ env.fwVersions.length)) .unsupportedIndex
  put env 5 (versionField ((env.fwVersions[area]?).getD none))
  setLen 37

/-- Set the key exchange algorithm of the responder (required:147). -/
def setKeyAlg (alg : Nat) : M Unit := fun s => (.ok (), { s with keyAlg := alg })

/-- Store the certificate digests, and the key exchange algorithm of later challenges
(required:147-166): the algorithm is kept in the responder, for all requesters.  The length is that
of the number of digests as stored in one byte. -/
def digestsTail (env : Env) (slot alg : Nat) : M Unit := do
  setKeyAlg alg
  let r ← callAt env 7 (.digests slot (room env 7))
  match r.rc with
  | .ok _ => do
    put8 env 5 1
    put8 env 6 r.val
    setLen (32 * (r.val % 256) + 7)
  | .invalidSlot | .certNotAvailable => do
    put8 env 5 1
    put8 env 6 0
    setLen (32 * 0 + 7)
  | rc => rcErr rc

/-- Session handling of the digest command (required:137-145). -/
def digestsSession (env : Env) (alg : Nat) : M Unit :=
  if alg = 0 then pure () else
  if env.has .session then do
    let h ← u8 env 3
    if h / 32 % 2 = 0 then do
      let _ ← call env (.resetSession env.eid none)
      pure ()
    else pure ()
  else fail .unsupportedOperation

/-- `cerberus_protocol_get_certificate_digest` (required:113-167). -/
def getDigests (env : Env) : M Unit := do
  let l ← len
  unlessErr (l != 7) .badLength
  let slot ← u8 env 5
  unlessErr (decide (slot > 7)) .outOfRange
  let alg ← u8 env 6
  unlessErr (decide (alg ≥ 2)) .unsupportedIndex
  digestsSession env alg
  digestsTail env slot alg

/-- Number of certificate bytes returned (required:210-222): `length` is 16 bits wide, so the
available room is truncated. -/
def certLen (env : Env) (certLength offset length : Nat) : Nat :=
  if offset < certLength then
    min (if length = 0 ∨ length > room env 7 then room env 7 % 65536 else length) (certLength - offset) % 65536
  else 0

/-- Copy the requested part of a certificate (required:210-228). -/
def certCopy (env : Env) (r : Reply) (offset length : Nat) : M Nat :=
  match r.rc with
  | .ok _ => do
    put env 7 ((r.data.drop offset).take (certLen env r.data.length offset length))
    pure (certLen env r.data.length offset length)
  | .invalidSlot | .invalidCert | .certNotAvailable => pure 0
  | rc => rcErr rc

/-- `cerberus_protocol_get_certificate` (required:177-236).  The certificate is the data of the
reply; the handler copies from it. -/
def getCertificate (env : Env) : M Unit := do
  let l ← len
  unlessErr (l != 11) .badLength
  let slot ← u8 env 5
  let cert ← u8 env 6
  let length ← u16 env 9
  let offset ← u16 env 7
  unlessErr (decide (slot > 7)) .outOfRange
  let r ← call env (.certificate slot cert)
  let n ← certCopy env r offset length
  put8 env 5 slot
  put8 env 6 cert
  setLen (n + 7)

/-- The key exchange algorithm of the responder (required:271). -/
def getKeyAlg : M Nat := fun s => (.ok s.keyAlg, s)

/-- Add a session with both nonces (required:270-273): bytes 11 to 42 of the response are the nonce
of the responder. -/
def challengeSession (env : Env) (nonce : Bytes) : M Unit := do
  let alg ← getKeyAlg
  if env.has .session && alg == 1 then do
    let own ← bytes env 11 32
    let _ ← call env (.addSession env.eid nonce own)
    pure ()
  else pure ()

/-- `cerberus_protocol_get_challenge_response` (required:247-277). -/
def getChallenge (env : Env) : M Unit := do
  let l ← len
  unlessErr (l != 39) .badLength
  let nonce ← bytes env 7 32
  let chal ← bytes env 5 34
  let r ← callAt env 5 (.challenge chal (room env 5))
  let n ← value r
  setLen (5 + n)
  challengeSession env nonce

/-- `cerberus_protocol_export_csr` (required:287-319).  The request is the data of the reply. -/
def exportCsr (env : Env) : M Unit := do
  let l ← len
  unlessErr (l != 6) .badLength
  let idx ← u8 env 5
  let r ← call env (.csr idx)
  match r.rc with
  | .ok 0 => do
    unlessErr (decide (r.data.length > 4096 - 6 + 1)) .bufTooSmall
    unlessErr (decide (r.data.length > (room env 6 + 1) % env.size)) .responseTooSmall
    put env 5 r.data
    setLen (r.data.length + 6 - 1)
  | .unknownCsr => fail .unsupportedIndex
  | rc => rcErr rc

/-- `asn1_get_der_item_len` (asn1_util.c; the model in `Verif.Asn1` has its details): here the
length in the header of a DER item as a function of the bytes. -/
abbrev ItemLen := Bytes → Nat

/-- `cerberus_protocol_import_ca_signed_cert` (required:330-387). -/
def importCert (itemLen : ItemLen) (env : Env) : M Unit := do
  let l ← len
  unlessErr (decide (l < 9)) .badLength
  let n ← u16 env 6
  unlessErr (n == 0 || l != 8 + n) .badLength
  let cert ← bytes env 8 n
  unlessErr (itemLen cert != n) .badLength
  let idx ← u8 env 5
  unlessErr (decide (idx > 2)) .unsupportedIndex
  let r ← call env (.storeCert idx cert)
  done r
  let r ← call env .checkCerts
  done r
  setLen 0

/-- `cerberus_protocol_get_signed_cert_state` (required:397-412). -/
def getCertState (env : Env) : M Unit := do
  let l ← len
  unlessErr (l != 5) .badLength
  let r ← call env .certState
  put32 env 5 r.val
  setLen 9

/-- `cerberus_protocol_get_device_capabilities` (required:422-456), with
`device_manager_update_device_capabilities_request` (device_manager.c:819-836) as the call
`setCaps`: any capabilities are accepted. -/
def getCapabilities (env : Env) : M Unit := do
  let l ← len
  unlessErr (l != 13) .badLength
  let r ← call env (.deviceNum env.eid)
  let dev ← value r
  let caps ← bytes env 5 8
  let r ← call env (.setCaps dev caps)
  done r
  let r ← callAt env 5 .getCaps
  done r
  setLen 15

/-- `cerberus_protocol_get_device_info` (required:466-490). -/
def getDeviceInfo (env : Env) : M Unit := do
  let l ← len
  unlessErr (l != 6) .badLength
  let idx ← u8 env 5
  unlessErr (idx != 0) .unsupportedIndex
  let r ← callAt env 5 (.uuid ((room env 6 + 1) % env.size))
  let n ← value r
  setLen (n + 6 - 1)

/-- `cerberus_protocol_get_device_id` (required:500-518). -/
def getDeviceId (env : Env) : M Unit := do
  let l ← len
  unlessErr (l != 5) .badLength
  put16 env 5 (env.ids.getD 0 0)
  put16 env 7 (env.ids.getD 1 0)
  put16 env 9 (env.ids.getD 2 0)
  put16 env 11 (env.ids.getD 3 0)
  setLen 13

/-- `cerberus_protocol_reset_counter` (required:528-549). -/
def resetCounter (env : Env) : M Unit := do
  let l ← len
  unlessErr (l != 7) .badLength
  let t ← u8 env 5
  let p ← u8 env 6
  let r ← callAt env 5 (.resetCounter t p)
  done r
  setLen 7

end Verif.Protocol
