import Verif.Protocol.Optional
/-! Dispatch of Cerberus protocol requests (core/cmd_interface/cmd_interface_system.c,
cmd_interface.c) and the protocol layer below it
(core/mctp/cmd_interface_protocol_mctp_msft_vdm.c). -/
namespace Verif.Protocol

/-- Command codes (core/cmd_interface/cerberus_protocol.h:33-108) and their handlers
(cmd_interface_system.c:38-326), for a build with all commands. -/
def handler (itemLen : ItemLen) (env : Env) : Nat → M Unit
  | 0x01 => getFwVersion env
  | 0x81 => getDigests env
  | 0x82 => getCertificate env
  | 0x83 => getChallenge env
  | 0x4F => logInfo env
  | 0x50 => logRead env
  | 0x51 => logClear env
  | 0x59 => pfmId env
  | 0x5A => pfmFw env
  | 0x5B => pfmInit env
  | 0x5C => pfmUpdate env
  | 0x5D => pfmComplete env
  | 0x5E => cfmId env
  | 0x5F => manifestInit env .cfm
  | 0x60 => manifestUpdate env .cfm
  | 0x61 => cfmComplete env
  | 0x62 => pcdId env
  | 0x63 => manifestInit env .pcd
  | 0x64 => manifestUpdate env .pcd
  | 0x65 => pcdComplete env
  | 0x8C => pcdComponents env
  | 0x8F => pcdInstances env
  | 0x8D => cfmComponents env
  | 0x66 => fwInit env
  | 0x67 => fwUpdate env
  | 0x69 => fwComplete env
  | 0x68 => updateStatus env
  | 0x8E => extStatus env
  | 0x02 => getCapabilities env
  | 0x87 => resetCounter env
  | 0x89 => unsealMessage env
  | 0x8A => unsealResult env
  | 0x20 => exportCsr env
  | 0x21 => importCert itemLen env
  | 0x22 => getCertState env
  | 0x6A => resetConfig env
  | 0x72 => recPrepare env
  | 0x73 => recUpdate env
  | 0x74 => recActivate env
  | 0x75 => recVersion env
  | 0x40 => hostState env
  | 0x41 => getHostFlash env
  | 0x42 => setHostFlash env
  | 0x04 => getDeviceInfo env
  | 0x03 => getDeviceId env
  | 0x52 => attData env
  | 0x53 => attSummary env
  | 0xD0 => heapStats env
  | 0xD1 => stackStats env
  | 0x84 => exchangeKeys env
  | 0x85 => sessionSync env
  | 0xF1 => debugState env
  | 0xF2 => debugFill env
  | 0x90 => forceAttestation env
  | 0x91 => forceInfo env
  | _ => fail .unknownRequest

/-- Commands whose handlers return without preparing the response (cmd_interface_system.c:284-292). -/
def direct (cmd : Nat) : Bool := cmd == 0xD0 || cmd == 0xD1

/-- Header checks of `cmd_interface_process_cerberus_protocol_message` (cmd_interface.c:271-288):
message type, integrity bit, vendor, reserved bits. -/
def checkHeader (env : Env) : M Unit := do
  let t ← u8 env 0
  let v ← u16 env 1
  unlessErr (t % 128 != 0x7E || t / 128 == 1 || v != 0x1414) .unsupportedMsg
  let f ← u8 env 3
  unlessErr (f % 32 != 0 || f / 64 % 2 != 0) .reservedNotZero

/-- Decryption of a request (cmd_interface.c:293-310, `session_manager_decrypt_message`,
session_manager.c:191-229): the plaintext, from the command on, replaces the ciphertext. -/
def decrypt (env : Env) (l : Nat) : M Unit := do
  unlessErr (!env.has .session) .encryptionUnsupported
  unlessErr (decide (l ≤ 28 + 5)) (.sub (.err 1))
  unlessErr (decide (env.maxResp < l - 28) || decide (env.maxResp ≤ 5 + 28)) (.sub (.err 2))
  let d ← bytes env 0 l
  let r ← callAt env 4 (.decrypt d (l - 32))
  done r
  setLen (l - 28)

/-- `cmd_interface_prepare_response` with `cmd_interface_is_request_encrypted` and
`session_manager_encrypt_message` (cmd_interface.c:215-230, 319-350, session_manager.c:239-290) for a
request that was encrypted.  `env.maxResp` is the limit before the trailer was subtracted. -/
def encryptResponse (env : Env) : M Unit := do
  let l ← len
  if l < 5 then pure () else do
    let t ← u8 env 0
    let v ← u16 env 1
    let f ← u8 env 3
    if t % 128 != 0x7E || v != 0x1414 || f / 32 % 2 == 0 then pure () else do
      unlessErr (decide (l + 28 > env.maxResp)) (.sub (.err 2))
      let d ← bytes env 4 (l - 4)
      let r ← callAt env 4 (.encrypt d)
      done r
      setLen (l + 28)

/-- Handling of an encrypted request (cmd_interface.c:301-304, cmd_interface_system.c:328-330). -/
def processEncrypted (itemLen : ItemLen) (env : Env) (l : Nat) : M Unit := do
  decrypt env l
  let cmd ← u8 env 4
  handler itemLen { env with maxResp := (env.maxResp + env.size - 28) % env.size, encrypted := true } cmd
  if direct cmd then pure () else encryptResponse env

/-- `cmd_interface_system_process_request` (cmd_interface_system.c:23-333). -/
def processRequest (itemLen : ItemLen) (env : Env) : M Unit := do
  let l ← len
  unlessErr (decide (l < 5)) .tooShort
  checkHeader env
  let f ← u8 env 3
  if f / 32 % 2 = 1 then processEncrypted itemLen env l
  else do
    let cmd ← u8 env 4
    handler itemLen { env with encrypted := false } cmd

/-- `cerberus_protocol_build_error_response` (required:35-64): the message is replaced by an error
message. -/
def errorMessage (rq code data : Nat) : Bytes :=
  [0x7E, 0x14, 0x14, UInt8.ofNat (rq * 128), 0x7F, UInt8.ofNat code] ++ le 4 data

/-- What becomes of a message. -/
inductive Outcome
  | dropped (e : Err)
  | fault (f : Stop)
  | sent (response : List (Option UInt8))
deriving DecidableEq

/-- `cmd_interface_protocol_mctp_msft_vdm_handle_request_result`
(cmd_interface_protocol_mctp_msft_vdm.c:53-105).  `code` gives the values of errors. -/
def finishResponse (env : Env) (code : Err → Nat) (rq : Nat) : Except Stop Unit × St → Outcome
  | (.ok _, s) =>
    if s.len = 0 then .sent ((errorMessage rq 0 0).map some)
    else
      let m := upd s.mem 0 [0x7E, 0x14, 0x14]
      let m := fun i => if i = 3 then (m 3).map fun b => UInt8.ofNat (b.toNat % 128 + rq * 128) else m i
      .sent ((List.range s.len).map m)
  | (.error (.err e), s) =>
    match s.mem 4 with
    | none => .fault .stale
    | some _ => .sent ((errorMessage rq 4 (code e)).map some)
  | (.error f, _) => .fault f

/-- State at the start: the request in the buffer. -/
def St.init (msg : Bytes) (keyAlg : Nat) : St := { mem := fun i => msg[i]?, len := msg.length, keyAlg }

/-- `cmd_interface_protocol_mctp_msft_vdm_parse_message`
(cmd_interface_protocol_mctp_msft_vdm.c:14-51): drop other messages; otherwise the largest response is
the negotiated size, if that is smaller than the buffer. -/
def accept (msg : Bytes) : Except Err Nat :=
  if msg.length < 5 then .error .tooShort
  else if (msg.getD 0 0).toNat % 128 ≠ 0x7E ∨ (msg.getD 0 0).toNat / 128 = 1 ∨
      (msg.getD 1 0).toNat + 256 * (msg.getD 2 0).toNat ≠ 0x1414 then .error .unsupportedMsg
  else .ok ((msg.getD 3 0).toNat / 128)

/-- A request handled by the layers together: outcome and final state. -/
def serve (itemLen : ItemLen) (env : Env) (code : Err → Nat) (negotiated keyAlg : Nat) (msg : Bytes) : Outcome × St :=
  match accept msg with
  | .error e => (.dropped e, St.init msg keyAlg)
  | .ok rq =>
    let r := processRequest itemLen { env with maxResp := min negotiated env.cap } (St.init msg keyAlg)
    (finishResponse env code rq r, r.2)

/-! ### Negotiated sizes -/

/-- Entry of the device manager (device_manager.h): endpoint and capabilities, of which the message
size is the first 16-bit value. -/
structure Dev where
  eid : Nat
  caps : Bytes
deriving DecidableEq, Repr

/-- `device_manager_get_device_num` (device_manager.c:269-284). -/
def devNum (devs : List Dev) (eid : Nat) : Option Nat := devs.findIdx? (·.eid == eid)

/-- `max_message_size` of capabilities. -/
def msgSize (caps : Bytes) : Nat := (caps.getD 0 0).toNat + 256 * (caps.getD 1 0).toNat

/-- Message size of a device, or the default of the protocol if it is not known
(device_manager.c:848-860). -/
def remoteLen (devs : List Dev) (n : Nat) : Nat :=
  match devs[n]? with
  | none => 4096
  | some d => if msgSize d.caps = 0 then 4096 else msgSize d.caps

/-- `device_manager_get_max_message_len_by_eid` (device_manager.c:874-884). -/
def maxMessageLen (devs : List Dev) (eid : Nat) : Nat :=
  min (msgSize ((devs[0]?.map Dev.caps).getD [])) (remoteLen devs ((devNum devs eid).getD 0))

/-- `device_manager_update_device_capabilities_request` (device_manager.c:819-836). -/
def setCaps (devs : List Dev) (n : Nat) (caps : Bytes) : List Dev := devs.modify n fun d => { d with caps }

/-- Effects of the calls of a request (last one first) on the devices. -/
def devsAfter (devs : List Dev) : List Call → List Dev
  | [] => devs
  | .setCaps n caps :: cs => setCaps (devsAfter devs cs) n caps
  | _ :: cs => devsAfter devs cs

/-- A structure of `n` bytes. -/
def fixed (n : Nat) (b : Bytes) : Bytes := (b ++ List.replicate n 0).take n

/-- Answers of the device manager; other calls are answered by `rest`. `times` are the two timeouts
of the own device.  Capabilities are a structure of 8 bytes, with the timeouts 10 bytes. -/
def devReply (devs : List Dev) (times : Bytes) (rest : List Call → Call → Reply) (cs : List Call) : Call → Reply
  | .deviceNum eid => match devNum (devsAfter devs cs) eid with
    | some n => { rc := .ok n }
    | none => { rc := .err 1 }
  | .setCaps n _ => if n < devs.length then { rc := .ok 0 } else { rc := .err 1 }
  | .getCaps => match (devsAfter devs cs)[0]? with
    | some d => { rc := .ok 0, data := fixed 8 d.caps ++ fixed 2 times }
    | none => { rc := .err 1 }
  | c => rest cs c

/-- A request from an endpoint: outcome and devices afterwards. -/
def exchange (itemLen : ItemLen) (env : Env) (code : Err → Nat) (times : Bytes) (devs : List Dev) (keyAlg eid : Nat) (msg : Bytes) :
    Outcome × List Dev × Nat :=
  let r := serve itemLen { env with eid, reply := devReply devs times env.reply } code (maxMessageLen devs eid) keyAlg msg
  (r.1, devsAfter devs r.2.calls, r.2.keyAlg)

end Verif.Protocol
