import Verif.CmdMsg.Model
import Verif.Pcisig.Model
/-! Secured sessions of the SPDM responder: `core/spdm/spdm_secure_session_manager.c`. The lock of the context is not modelled: in
`spdm_persistent_context.c:40-44` it does nothing. Null arguments, failures of the context and the log are not modelled. The cryptography is a
parameter. -/
namespace Verif.Spdm
open Verif.CmdMsg (Msg removeHeader addHeader setPayloadLength)
open Verif.Pcisig (get put)

/-- `enum spdm_secure_session_state`, spdm_secure_session_manager.h:90-95. -/
inductive SState
  | notStarted
  | handshaking
  | established
  deriving DecidableEq, Repr

/-- `enum spdm_secure_session_type`, spdm_secure_session_manager.h:80-85. -/
inductive SType
  | none
  | macOnly
  | encMac
  deriving DecidableEq, Repr

/-- One direction of `struct spdm_secure_session_handshake_secrets` or `struct spdm_secure_session_data_secrets`
(spdm_secure_session_manager.h:209-218, 247-254). -/
structure Keys where
  key : Bytes
  salt : Bytes
  seq : Nat
  deriving DecidableEq, Repr

/-- `struct spdm_secure_session`, spdm_secure_session_manager.h:279-. The finished keys and the master secret are left out (they are only
passed to the key derivation), as are the fields that are only stored. The backup keys are never made valid in the code (no `KEY_UPDATE`). -/
structure Session where
  id : Nat
  index : Nat
  state : SState
  type : SType
  keySize : Nat
  ivSize : Nat
  tagSize : Nat
  hsReq : Keys
  hsRsp : Keys
  dataReq : Keys
  dataRsp : Keys
  backup : Bool
  policy : Nat
  deriving DecidableEq, Repr

/-- Keys filled with 0. -/
def Keys.zero : Keys := ⟨List.replicate 32 0, List.replicate 12 0, 0⟩

/-- A session filled with 0. -/
def Session.zero : Session := ⟨0, 0, .notStarted, .none, 0, 0, 0, .zero, .zero, .zero, .zero, false, 0⟩

/-- `struct spdm_secure_session_manager_persistent_state`. `sessions` has `SPDM_MAX_SESSION_COUNT` entries. -/
structure Mgr where
  sessions : List Session
  count : Nat
  lastId : Nat
  lastValid : Bool
  deriving DecidableEq, Repr

/-- The AEAD engine: `seal_ key iv aad plain` gives the cipher text and the tag, `open_ key iv aad cipher tag` the plain text. -/
structure Aead where
  seal_ : Bytes → Bytes → Bytes → Bytes → Bytes × Bytes
  open_ : Bytes → Bytes → Bytes → Bytes → Bytes → Option Bytes

/-- The parameters: the engine and `max_spdm_session_sequence_number`. -/
structure SCfg where
  aead : Aead
  maxSeq : Nat

/-- Failures of one message: of setting the key, of the engine (apart from a wrong tag), and what a failed decryption leaves in the buffer. -/
structure SFault where
  setKey : Bool
  engine : Bool
  junk : Bytes
  deriving DecidableEq, Repr

/-- The errors: `SPDM_SECURE_SESSION_MANAGER_...`, `CMD_HANDLER_SPDM_RESPONDER_INVALID_REQUEST` and those of the engine. -/
inductive SErr
  | invalidRequest
  | internal
  | overflow
  | size
  | capability
  | tooSmall
  | discard
  | crypto
  deriving DecidableEq, Repr

/-- The use of a key: key and IV. -/
structure Use where
  key : Bytes
  iv : Bytes
  deriving DecidableEq, Repr

/-- Look up a session, `spdm_secure_session_manager_get_session`, spdm_secure_session_manager.c:262-292: its place in the table. -/
def findSession (m : Mgr) (id : Nat) : Option Nat :=
  if id = 0 then none else m.sessions.findIdx? (fun s => decide (s.id = id))

/-- The session at a place. -/
def Mgr.at_ (m : Mgr) (i : Nat) : Session := m.sessions.getD i .zero

/-- Store a session. -/
def Mgr.set (m : Mgr) (i : Nat) (s : Session) : Mgr := { m with sessions := m.sessions.set i s }

/-- `spdm_secure_session_manager_create_session` and `..._init_session_state`, spdm_secure_session_manager.c:21-142. The argument `new` carries
what comes from the connection: type and sizes. Result: the place of the new session. The reset of the TH transcript (62-63) is left out. -/
def createSession (m : Mgr) (id : Nat) (new : Session) : Option (Nat × Mgr) :=
  if id = 0 then none
  else if m.count ≥ m.sessions.length then none
  else if m.sessions.any (fun s => decide (s.id = id)) then none
  else match m.sessions.findIdx? (fun s => decide (s.id = 0)) with
    | none => none
    | some i => some (i, { (m.set i { Session.zero with id := id, index := i, type := new.type, keySize := new.keySize, ivSize := new.ivSize,
                                                        tagSize := new.tagSize }) with count := m.count + 1 })

/-- `spdm_secure_session_manager_release_session`, spdm_secure_session_manager.c:144-178; the reset of the transcripts is left out. The counter
has 32 bits. -/
def releaseSession (m : Mgr) (id : Nat) : Mgr :=
  match findSession m id with
  | none => m
  | some i => { (m.set i .zero) with count := (m.count + (2 ^ 32 - 1)) % 2 ^ 32 }

/-- `spdm_secure_session_manager_set_session_state`, spdm_secure_session_manager.c:193-219. -/
def setState (m : Mgr) (id : Nat) (st : SState) : Mgr :=
  match findSession m id with
  | none => m
  | some i =>
    let s := m.at_ i
    if s.state ≠ st then
      m.set i (if st = .established then { s with state := st, hsReq := .zero, hsRsp := .zero, backup := false } else { s with state := st })
    else m

/-- `spdm_secure_session_manager_reset`, spdm_secure_session_manager.c:221-260, and the identifiers of the sessions that the observers hear of. -/
def resetSessionsAll (m : Mgr) : List Nat × Mgr :=
  ((m.sessions.filter (fun s => decide (s.id ≠ 0))).map (·.id), ⟨List.replicate m.sessions.length .zero, 0, 0, false⟩)

/-- `spdm_secure_session_manager_generate_iv`, spdm_secure_session_manager.c:837-856: 8 bytes are changed, `iv_size` bytes are copied; `none`: outside
of the arrays of 12 bytes. -/
def generateIv (seq : Nat) (salt : Bytes) (ivSize : Nat) : Option Bytes :=
  if ivSize > 12 then none
  else
    let iv := salt.take ivSize ++ List.replicate (12 - ivSize) 0
    some (List.zipWith (· ^^^ ·) (iv.take 8) (toLE 8 seq) ++ iv.drop 8)

/-- `spdm_secure_session_manager_decrypt_message`, spdm_secure_session_manager.c:872-961, without sequence number in the header. -/
def decryptMessage (c : SCfg) (s : Session) (m : Msg) (key iv : Bytes) (f : SFault) : Option (Except SErr Unit × Msg × Option Use) :=
  if m.payloadLength < 6 + s.tagSize then some (.error .size, m, none)
  else do
    let len := leNat (← get m.buf (m.off + 4) 2)
    if len > m.payloadLength - 6 then return (.error .size, m, none)
    if len < s.tagSize then return (.error .size, m, none)
    let n := len - s.tagSize
    if n > m.payloadLength - (6 + s.tagSize) then return (.error .size, m, none)
    if f.setKey then return (.error .crypto, m, none)
    let aad ← get m.buf m.off 6
    let ct ← get m.buf (m.off + 6) n
    let tag ← get m.buf (m.off + 6 + n) s.tagSize
    let iv' := iv.take s.ivSize
    let use : Use := ⟨key.take s.keySize, iv'⟩
    match if f.engine then none else c.aead.open_ (key.take s.keySize) iv' aad ct tag with
    | none =>
      let buf ← put m.buf (m.off + 6) ((f.junk ++ ct).take n)
      return (.error (if s.backup then .discard else .crypto), { m with buf := buf }, some use)
    | some plain =>
      let buf ← put m.buf (m.off + 6) (plain.take n)
      let app := leNat (← get buf (m.off + 6) 2)
      if app > n then return (.error .size, { m with buf := buf }, some use)
      return (.ok (), { (removeHeader { m with buf := buf } 8) with payloadLength := app }, some use)

/-- The request keys in use, spdm_secure_session_manager.c:1015-1031. -/
def Session.reqKeys (s : Session) : Option Keys :=
  match s.state with
  | .handshaking => some s.hsReq
  | .established => some s.dataReq
  | .notStarted => none

/-- The response keys in use, spdm_secure_session_manager.c:1213-1229. -/
def Session.rspKeys (s : Session) : Option Keys :=
  match s.state with
  | .handshaking => some s.hsRsp
  | .established => some s.dataRsp
  | .notStarted => none

/-- The next sequence number of requests, spdm_secure_session_manager.c:1043-1048. -/
def Session.nextReq (s : Session) : Session :=
  match s.state with
  | .handshaking => { s with hsReq := { s.hsReq with seq := s.hsReq.seq + 1 } }
  | _ => { s with dataReq := { s.dataReq with seq := s.dataReq.seq + 1 } }

/-- The next sequence number of responses, spdm_secure_session_manager.c:1241-1246. -/
def Session.nextRsp (s : Session) : Session :=
  match s.state with
  | .handshaking => { s with hsRsp := { s.hsRsp with seq := s.hsRsp.seq + 1 } }
  | _ => { s with dataRsp := { s.dataRsp with seq := s.dataRsp.seq + 1 } }

/-- `spdm_secure_session_manager_decode_secure_message`, spdm_secure_session_manager.c:963-1073. The session is marked as the last one even if the
message could not be decrypted (1050-1063). -/
def decodeMessage (c : SCfg) (m : Mgr) (q : Msg) (f : SFault) : Option (Except SErr Unit × Mgr × Msg × Option Use) :=
  let m := { m with lastId := 0, lastValid := false }
  if q.payloadLength < 4 then some (.error .invalidRequest, m, q, none)
  else do
    let id := leNat (← get q.buf q.off 4)
    match findSession m id with
    | none => return (.error .invalidRequest, m, q, none)
    | some i =>
      let s := m.at_ i
      match s.reqKeys with
      | none => return (.error .internal, m, q, none)
      | some k =>
        if k.seq ≥ c.maxSeq then return (.error .overflow, m, q, none)
        let iv ← generateIv k.seq k.salt s.ivSize
        let m := m.set i s.nextReq
        match s.type with
        | .encMac =>
          let (r, q', u) ← decryptMessage c s q k.key iv f
          return (r, { m with lastId := s.id, lastValid := true }, q', u)
        | _ => return (.error .capability, m, q, none)

/-- `spdm_secure_session_manager_encrypt_message`, spdm_secure_session_manager.c:1087-1167. -/
def encryptMessage (c : SCfg) (s : Session) (q : Msg) (key iv : Bytes) (f : SFault) : Option (Except SErr Unit × Msg × Option Use) :=
  let n := q.payloadLength
  let total := 6 + (2 + n) + s.tagSize
  if q.maxResponse < total then some (.error .tooSmall, q, none)
  else do
    let q := addHeader q 8
    let buf ← put q.buf q.off (toLE 4 s.id ++ toLE 2 (2 + n + s.tagSize) ++ toLE 2 n)
    let q := { q with buf := buf }
    if f.setKey then return (.error .crypto, q, none)
    let aad ← get buf q.off 6
    let plain ← get buf (q.off + 6) (2 + n)
    let iv' := iv.take s.ivSize
    let use : Use := ⟨key.take s.keySize, iv'⟩
    if f.engine then return (.error .crypto, q, some use)
    let (ct, tag) := c.aead.seal_ (key.take s.keySize) iv' aad plain
    let buf ← put buf (q.off + 6) (ct.take (2 + n))
    let buf ← put buf (q.off + 6 + (2 + n)) (tag.take s.tagSize)
    return (.ok (), setPayloadLength { q with buf := buf } total, some use)

/-- What the observers hear of. -/
inductive Note
  | opened (id : Nat)
  | closed (id : Nat)
  deriving DecidableEq, Repr

/-- The steps behind a message that was encrypted, spdm_secure_session_manager.c:1263-1284. `SPDM_RESPONSE_FINISH` is 0x65, `SPDM_RESPONSE_END_SESSION`
is 0x6c (spdm_protocol.h:163, 170). -/
def afterEncode (m : Mgr) (id : Nat) (code : UInt8) : Mgr × List Note :=
  if code = 0x65 then (setState m id .established, [.opened id])
  else if code = 0x6c then (releaseSession m id, [.closed id])
  else (m, [])

/-- `spdm_secure_session_manager_encode_secure_message`, spdm_secure_session_manager.c:1169-1294. -/
def encodeMessage (c : SCfg) (m : Mgr) (q : Msg) (f : SFault) : Option (Except SErr Unit × Mgr × Msg × Option Use × List Note) :=
  if m.lastValid = false then some (.error .internal, m, q, none, [])
  else match findSession m m.lastId with
    | none => some (.error .internal, m, q, none, [])
    | some i =>
      let s := m.at_ i
      match s.rspKeys with
      | none => some (.error .internal, m, q, none, [])
      | some k =>
        if k.seq ≥ c.maxSeq then some (.error .overflow, m, q, none, [])
        else do
          let iv ← generateIv k.seq k.salt s.ivSize
          let m := m.set i s.nextRsp
          let code ← get q.buf (q.off + 1) 1
          match s.type with
          | .encMac =>
            let (r, q', u) ← encryptMessage c s q k.key iv f
            match r with
            | .ok _ =>
              let (m', notes) := afterEncode m s.id (code.getD 0 0)
              return (.ok (), m', q', u, notes)
            | .error e => return (.error e, m, q', u, [])
          | _ => return (.error .capability, m, q, none, [])

/-- `spdm_secure_session_manager_is_termination_policy_set`, spdm_secure_session_manager.c:1296-1335. -/
def terminationPolicySet (m : Mgr) : Bool :=
  !m.sessions.any (fun s => decide (s.id ≠ 0) && decide (s.state = .established) && decide (s.policy = 0))

end Verif.Spdm
