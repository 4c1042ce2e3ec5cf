import Verif.Spdm.Session
/-! The responder at the level of sessions: `cmd_interface_spdm_process_request` (core/spdm/cmd_interface_spdm_responder.c) and those parts of the
handlers in core/spdm/spdm_commands.c that decide about sessions. The state of the connection (version, negotiated algorithms and so on) is an input of
every request: it may be anything. The contents of replies are inputs, except for the code in the second byte. Everything that can fail on the way to the keys
is one input. -/
namespace Verif.Spdm
open Verif.CmdMsg (Msg setPayloadLength)
open Verif.Pcisig (get put)

/-- The keys that a FINISH produced, `spdm_secure_session_manager_generate_session_data_keys`, spdm_secure_session_manager.c:736-827: it can fail behind the keys for
requests. -/
inductive DataKeys
  | both (req rsp : Keys)
  | onlyReq (req : Keys)
  | failed

/-- What is given with a request: the state of the connection, the results of the checks that are not modelled, keys, contents of replies, failures. -/
structure Given where
  /-- `spdm_get_connection_version`, spdm_commands.c:303-307 -/
  version : UInt8
  /-- `response_state == SPDM_RESPONSE_STATE_NORMAL` and `connection_state >= SPDM_CONNECTION_STATE_NEGOTIATED` -/
  ready : Bool
  /-- `key_ex_cap` of both sides -/
  keyEx : Bool
  /-- `handshake_in_the_clear_cap` of both sides -/
  clear : Bool
  /-- `SPDM_DATA_HANDLE_ERROR_RETURN_POLICY_DROP_ON_DECRYPT_ERROR` -/
  drop : Bool
  /-- `current_local_session_id` -/
  localId : Nat
  /-- type and sizes of a new session -/
  new : Session
  /-- all other checks of the request and steps in front of the session -/
  checks : Bool
  /-- the keys of the handshake, or a failure between the creation of the session and the end of the key exchange -/
  hsKeys : Option (Keys × Keys)
  /-- `spdm_verify_finish_req_hmac` -/
  hmacOk : Bool
  /-- the keys for data; failures of the transcript behind the verification of the HMAC count as failures of the keys -/
  dataKeys : DataKeys
  policy : Nat
  /-- the handler for vendor defined requests succeeded, or all steps of the other handlers -/
  handled : Bool
  /-- the reply from the third byte on -/
  body : Bytes
  /-- failures of the engine -/
  dec : SFault
  enc : SFault

/-- What happened, for the property. -/
inductive Ev
  /-- a key exchange for this session was answered -/
  | begun (id : Nat)
  /-- a FINISH was verified and answered -/
  | proved (id : Nat)
  /-- a request was served in this session -/
  | served (id : Nat)
  /-- the answer to END_SESSION left -/
  | ended (id : Nat)
  /-- all sessions were dropped -/
  | reset
  deriving DecidableEq, Repr

/-- The result of a handler: is there an answer, the sessions, the message, events and new keys. -/
structure Handled where
  answer : Bool
  mgr : Mgr
  msg : Msg
  events : List Ev
  keys : List Keys

/-- Write a reply: `spdm_populate_header`, spdm_commands.c:59-65, and the body; the first byte has the version. `none`: beyond the end of the buffer. -/
def reply (q : Msg) (code : UInt8) (body : Bytes) : Option Msg := do
  let buf ← put q.buf q.off ([0x12, code] ++ body)
  return setPayloadLength { q with buf := buf } (2 + body.length)

/-- `spdm_generate_error_response`, spdm_commands.c:92-117: `SPDM_RESPONSE_ERROR` is 0x7f. The error code is left out. -/
def replyError (m : Mgr) (q : Msg) : Option Handled := do
  return ⟨true, m, ← reply q 0x7f [0, 0], [], []⟩

/-- The version in the request: first byte. -/
def versionOk (g : Given) (q : Msg) : Bool := q.buf.getD q.off 0 == g.version

/-- `spdm_get_version`, spdm_commands.c:1366-1479. The checks of the state and the first update of the transcript are in `checks`, the last update is in `handled`. -/
def getVersion (g : Given) (m : Mgr) (q : Msg) : Option Handled :=
  if q.payloadLength < 4 then replyError m q
  else if q.buf.getD q.off 0 ≠ 0x10 then replyError m q
  else if g.checks = false then replyError m q
  else do
    let m := (resetSessionsAll m).2
    let q ← reply q (if g.handled then 0x04 else 0x7f) g.body
    return ⟨true, m, q, [.reset], []⟩

/-- `spdm_key_exchange`, spdm_commands.c:3560-3976. -/
def keyExchange (g : Given) (m : Mgr) (q : Msg) : Option Handled :=
  if q.payloadLength < 40 then replyError m q
  else if versionOk g q = false then replyError m q
  else if g.ready = false then replyError m q
  else if g.keyEx = false then replyError m q
  else if m.lastValid = true then replyError m q
  else if g.checks = false then replyError m q
  else do
    let reqId := leNat (← get q.buf (q.off + 4) 2)
    let id := ((g.localId + 1) % 65536) <<< 16 ||| reqId
    match createSession m id g.new with
    | none => replyError m q
    | some (i, m) =>
      match g.hsKeys with
      | none => replyError (releaseSession m id) q
      | some (kr, kp) =>
        let m := m.set i { m.at_ i with hsReq := { kr with seq := 0 }, hsRsp := { kp with seq := 0 }, policy := g.policy }
        let m := setState m id .handshaking
        let q ← reply q 0x64 g.body
        return ⟨true, m, q, [.begun id], [kr, kp]⟩

/-- `spdm_finish`, spdm_commands.c:3986-4187. With the policy of dropping, nothing is answered (4122-4131). -/
def finish (g : Given) (m : Mgr) (q : Msg) : Option Handled :=
  if q.payloadLength < 4 then replyError m q
  else if versionOk g q = false then replyError m q
  else if g.ready = false then replyError m q
  else if g.clear = true then replyError m q
  else if m.lastValid = false then replyError m q
  else match findSession m m.lastId with
    | none => replyError m q
    | some i =>
      if (m.at_ i).state ≠ .handshaking then replyError m q
      else if g.checks = false then replyError m q
      else if g.hmacOk = false then
        if g.drop then some ⟨false, m, q, [], []⟩ else replyError m q
      else
        match g.dataKeys with
        | .failed => replyError m q
        | .onlyReq kr => do
          let h ← replyError (m.set i { m.at_ i with dataReq := { kr with seq := 0 } }) q
          return { h with keys := [kr] }
        | .both kr kp => do
          let m := m.set i { m.at_ i with dataReq := { kr with seq := 0 }, dataRsp := { kp with seq := 0 } }
          let q ← reply q 0x65 [0, 0]
          return ⟨true, m, q, [.proved m.lastId], [kr, kp]⟩

/-- `spdm_end_session`, spdm_commands.c:4197-4321. -/
def endSession (g : Given) (m : Mgr) (q : Msg) : Option Handled :=
  if q.payloadLength ≠ 4 then replyError m q
  else if versionOk g q = false then replyError m q
  else if g.ready = false then replyError m q
  else if m.lastValid = false then replyError m q
  else match findSession m m.lastId with
    | none => replyError m q
    | some i =>
      if (m.at_ i).state ≠ .established then replyError m q
      else do return ⟨true, m, ← reply q 0x6c [0, 0], [], []⟩

/-- `spdm_vendor_defined_request`, spdm_commands.c:4331-4455. A request outside of a session is no event. -/
def vendorDefined (g : Given) (enc : Bool) (m : Mgr) (q : Msg) : Option Handled :=
  if g.checks = false then replyError m q
  else if q.payloadLength < 7 then replyError m q
  else if versionOk g q = false then replyError m q
  else if g.ready = false then replyError m q
  else
    let serve (events : List Ev) : Option Handled := do
      if g.handled = false then
        let h ← replyError m q
        return { h with events := events }
      return ⟨true, m, ← reply q 0x7e g.body, events, []⟩
    if enc then
      if m.lastValid = false then replyError m q
      else match findSession m m.lastId with
        | none => replyError m q
        | some i =>
          if (m.at_ i).state ≠ .established then replyError m q
          else serve [.served m.lastId]
    else serve []

/-- `spdm_get_measurements`, spdm_commands.c:3133-3423. -/
def getMeasurements (g : Given) (m : Mgr) (q : Msg) : Option Handled :=
  let serve (events : List Ev) : Option Handled := do
    if q.payloadLength < 4 ∨ versionOk g q = false ∨ g.ready = false ∨ g.checks = false ∨ g.handled = false then replyError m q
    else return ⟨true, m, ← reply q 0x60 g.body, events, []⟩
  if m.lastValid then
    match findSession m m.lastId with
    | none => replyError m q
    | some i =>
      if (m.at_ i).state ≠ .established then replyError m q
      else serve [.served m.lastId]
  else serve []

/-- The handlers that do not touch sessions (`spdm_get_capabilities`, `spdm_negotiate_algorithms`, `spdm_get_digests`, `spdm_get_certificate`, `spdm_challenge`): an error or an
answer with their own code (spdm_protocol.h:155-181). -/
def otherHandler (g : Given) (code : UInt8) (m : Mgr) (q : Msg) : Option Handled :=
  if g.handled = false then replyError m q
  else do return ⟨true, m, ← reply q code g.body, [], []⟩

/-- The choice of the handler, cmd_interface_spdm_responder.c:74-159. -/
def dispatch (g : Given) (enc : Bool) (code : UInt8) (m : Mgr) (q : Msg) : Option Handled :=
  if code = 0x84 then getVersion g m q
  else if code = 0xe1 then otherHandler g 0x61 m q
  else if code = 0xe3 then otherHandler g 0x63 m q
  else if code = 0x81 then otherHandler g 0x01 m q
  else if code = 0x82 then otherHandler g 0x02 m q
  else if code = 0x83 then otherHandler g 0x03 m q
  else if code = 0xe0 then getMeasurements g m q
  else if code = 0xe4 then keyExchange g m q
  else if code = 0xe5 then finish g m q
  else if code = 0xec then endSession g m q
  else if code = 0xfe then vendorDefined g enc m q
  else replyError m q

/-- The result of a request: the answer if there is one, the sessions, every call of the AEAD engine (key and IV), new keys and events. -/
structure Outcome where
  answer : Option Msg
  mgr : Mgr
  uses : List Use
  keys : List Keys
  events : List Ev

/-- What the notes of the encoding mean. -/
def noteEvents (n : List Note) : List Ev :=
  n.filterMap fun x => match x with
    | .closed id => some (.ended id)
    | .opened _ => none

/-- `cmd_interface_spdm_process_request`, cmd_interface_spdm_responder.c:27-178, with a session manager. `none`: an access outside of the buffer. -/
def respond (c : SCfg) (m : Mgr) (g : Given) (enc : Bool) (q : Msg) : Option Outcome := do
  let m := { m with lastValid := false }
  if enc then
    let (r, m, q, u) ← decodeMessage c m q g.dec
    match r with
    | .error _ =>
      let q ← reply q 0x7f [0, 0]
      return ⟨some q, m, u.toList, [], []⟩
    | .ok _ =>
      if q.payloadLength < 2 then return ⟨none, m, u.toList, [], []⟩
      let h ← dispatch g enc (q.buf.getD (q.off + 1) 0) m q
      if h.answer then
        let (r, m, q, u', notes) ← encodeMessage c h.mgr h.msg g.enc
        match r with
        | .error _ =>
          let q ← reply q 0x7f [0, 0]
          return ⟨some q, m, u.toList ++ u'.toList, h.keys, h.events⟩
        | .ok _ => return ⟨some q, m, u.toList ++ u'.toList, h.keys, h.events ++ noteEvents notes⟩
      else return ⟨none, h.mgr, u.toList, h.keys, h.events⟩
  else
    if q.payloadLength < 2 then return ⟨none, m, [], [], []⟩
    let h ← dispatch g enc (q.buf.getD (q.off + 1) 0) m q
    return ⟨if h.answer then some h.msg else none, h.mgr, [], h.keys, h.events⟩

/-- One request as it arrives. -/
structure Req where
  given : Given
  encrypted : Bool
  msg : Msg

/-- A history. -/
structure History where
  mgr : Mgr
  uses : List Use
  keys : List Keys
  events : List Ev

/-- A history of requests. -/
def serveAll (c : SCfg) (m : Mgr) : List Req → Option History
  | [] => some ⟨m, [], [], []⟩
  | r :: rs => do
    let o ← respond c m r.given r.encrypted r.msg
    let h ← serveAll c o.mgr rs
    return ⟨h.mgr, o.uses ++ h.uses, o.keys ++ h.keys, o.events ++ h.events⟩

end Verif.Spdm
