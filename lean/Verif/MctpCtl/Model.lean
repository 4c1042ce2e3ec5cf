import Verif.Common.Res
import Verif.MctpCtl.Spec
/-!
Model of `core/mctp/cmd_interface_mctp_control.c` and `core/mctp/mctp_control_protocol_commands.c`.

A message is a buffer of which the first bytes are the payload; the response is written over the request. Null arguments, logging and the channel are not
modelled.
-/
namespace Verif.MctpCtl
open Verif

/-- `struct device_manager_entry`, the fields used here. -/
structure Dev where
  eid : UInt8
  addr : UInt8
  pcd : UInt8
  state : Nat
deriving DecidableEq, Repr

/-- `CMD_HANDLER_MCTP_CTRL_*`: too short, with D bit, reserved bit set, and `CMD_HANDLER_ERROR_MESSAGE`. -/
inductive Err where
  | short | unsupported | reserved | errorMessage
deriving DecidableEq, Repr

/-- The endpoint: device table, PCI vendor ID, protocol version. -/
structure Ep where
  devs : List Dev
  vid : Nat
  ver : Nat
deriving DecidableEq, Repr

/-- A message: buffer, `payload_length`, `source_eid`, `source_addr`. -/
structure Msg where
  buf : Bytes
  len : Nat
  srcEid : UInt8
  srcAddr : UInt8
deriving DecidableEq, Repr

/-- What a request leads to. `resp`: the payload of the response; `newEid`: the observers of the own EID are told; `told`: the observers of Set EID requests are told. -/
structure Out where
  ep : Ep
  resp : Bytes
  newEid : Option UInt8
  told : Bool
deriving DecidableEq, Repr

/-- A response with a failure: only the completion code is written, the length is `MCTP_CONTROL_PROTOCOL_FAILURE_RESP_LEN`, 3 + 1 bytes, mctp_control_protocol.h:22-28. -/
def failure (ep : Ep) (newEid : Option UInt8) (told : Bool) (buf : Bytes) (code : UInt8) : Res Err Out :=
  if buf.length < 4 then .oob else .ok ⟨ep, window (writeAt buf 2 [code]) 0 4, newEid, told⟩

/-- A response with success: completion code and parameters are written behind the two bytes of the header. -/
def success (ep : Ep) (newEid : Option UInt8) (told : Bool) (buf : Bytes) (params : Bytes) : Res Err Out :=
  if buf.length < 3 + params.length then .oob
  else .ok ⟨ep, window (writeAt buf 2 ([0] ++ params)) 0 (3 + params.length), newEid, told⟩

/-- `cmd_interface_mctp_control_process_mctp_protocol_message`, cmd_interface_mctp_control.c:23-66: the command, and the buffer without request bit. The bits of the first byte,
mctp_control_protocol.h:71-77: instance 0-4, reserved 5, D 6, request 7. -/
def header (buf : Bytes) (len : Nat) : Res Err (UInt8 × Bytes) :=
  if len < 2 then .err .short
  else
    let b0 := (buf.getD 0 0).toNat
    if b0 / 64 % 2 ≠ 0 then .err .unsupported
    else if b0 / 32 % 2 ≠ 0 then .err .reserved
    else if b0 / 128 = 0 then
      if buf.length < 3 then .oob
      else if buf.getD 2 0 ≠ 0 then .err .errorMessage
      else .ok (buf.getD 1 0, buf)
    else .ok (buf.getD 1 0, buf.set 0 (UInt8.ofNat (b0 - 128)))

/-- `device_manager_update_not_attestable_device_entry`, device_manager.c:580-597, of the bridge, device 1. `clockOk`: its timer can be set; the entry is changed in
any case. 5 is `DEVICE_MANAGER_NOT_ATTESTABLE`, 0xFF `DEVICE_MANAGER_NOT_PCD_COMPONENT`. -/
def updateBridge (devs : List Dev) (eid addr : UInt8) (clockOk : Bool) : List Dev × Bool :=
  if devs.length ≤ 1 then (devs, false) else (devs.set 1 ⟨eid, addr, 0xff, 5⟩, clockOk)

/-- `device_manager_update_device_eid`, device_manager.c:449-467, of the own device, device 0. -/
def updateOwn (devs : List Dev) (eid : UInt8) : List Dev := devs.modify 0 fun d => { d with eid := eid }

/-- `mctp_control_protocol_set_eid`, mctp_control_protocol_commands.c:42-110. The handler always returns 0, so that the observers are always told,
cmd_interface_mctp_control.c:110-121. -/
def setEid (ep : Ep) (m : Msg) (clockOk : Bool) (buf : Bytes) : Res Err Out :=
  if m.len ≠ 4 then failure ep none true buf 3
  else if (buf.getD 2 0).toNat / 4 ≠ 0 ∨ 1 < (buf.getD 2 0).toNat % 4 ∨ buf.getD 3 0 = 0 ∨ buf.getD 3 0 = 0xff then failure ep none true buf 2
  else if ep.devs.length = 0 then failure ep none true buf 1
  else
    let eid := buf.getD 3 0
    let r := updateBridge (updateOwn ep.devs eid) m.srcEid m.srcAddr clockOk
    if !r.2 then failure { ep with devs := r.1 } (some eid) true buf 1
    else success { ep with devs := r.1 } (some eid) true buf [0, eid, 0]

/-- `mctp_control_protocol_get_eid`, mctp_control_protocol_commands.c:120-168. -/
def getEid (ep : Ep) (m : Msg) (buf : Bytes) : Res Err Out :=
  if m.len ≠ 2 then failure ep none false buf 3
  else match ep.devs with
    | [] => failure ep none false buf 1
    | d :: _ => success ep none false buf [d.eid, 1, 0]

/-- `mctp_control_protocol_get_mctp_version_support`, mctp_control_protocol_commands.c:177-262. Versions: control 1.1.0, mctp_control_protocol.h:33-35; Cerberus protocol 4; SPDM
1.2; MCTP base 1.1.0. -/
def getVersion (ep : Ep) (m : Msg) (buf : Bytes) : Res Err Out :=
  if m.len ≠ 3 then failure ep none false buf 3
  else
    let t := buf.getD 2 0
    if t = 0 then success ep none false buf [1, 0, 0xf0 ||| 0, 0xf0 ||| 1, 0xf0 ||| 1]
    else if t = 0x7e then success ep none false buf [1, 0, 0xff, 0xf0 ||| 0, 0xf0 ||| 4]
    else if t = 5 then success ep none false buf [1, 0, 0xff, 0xf0 ||| 2, 0xf0 ||| 1]
    else if t = 0xff then success ep none false buf [1, 0, 0xf0 ||| 0, 0xf0 ||| 1, 0xf0 ||| 1]
    else failure ep none false buf 0x80

/-- `mctp_control_protocol_get_message_type_support`, mctp_control_protocol_commands.c:292-327. -/
def getTypes (ep : Ep) (m : Msg) (buf : Bytes) : Res Err Out :=
  if m.len ≠ 2 then failure ep none false buf 3 else success ep none false buf [3, 0, 0x7e, 5]

/-- `mctp_control_protocol_get_vendor_def_msg_support`, mctp_control_protocol_commands.c:391-429. -/
def getVendor (ep : Ep) (m : Msg) (buf : Bytes) : Res Err Out :=
  if m.len ≠ 3 then failure ep none false buf 3
  else if buf.getD 2 0 ≠ 0 then failure ep none false buf 2
  else success ep none false buf ([0xff, 0] ++ toBE 2 ep.vid ++ toBE 2 ep.ver)

/-- `cmd_interface_mctp_control_process_request`, cmd_interface_mctp_control.c:91-158. The handlers return 0, so that the error response is never made. -/
def process (ep : Ep) (m : Msg) (clockOk : Bool) : Res Err Out :=
  (header m.buf m.len).bind fun r =>
    if r.1 = 1 then setEid ep m clockOk r.2
    else if r.1 = 2 then getEid ep m r.2
    else if r.1 = 4 then getVersion ep m r.2
    else if r.1 = 5 then getTypes ep m r.2
    else if r.1 = 6 then getVendor ep m r.2
    else failure ep none false r.2 5

/-- `mctp_control_protocol_process_get_message_type_support_response`, mctp_control_protocol_commands.c:363-381. -/
def typesOk (p : Bytes) : Bool := decide (4 < p.length) && decide (p.length = 4 + (p.getD 3 0).toNat)

/-- `mctp_control_protocol_process_get_vendor_def_msg_support_response`, mctp_control_protocol_commands.c:471-506. -/
def vendorOk (p : Bytes) : Bool :=
  decide (9 ≤ p.length) && ((decide (p.getD 4 0 = 0) && decide (p.length = 9)) || (decide (p.getD 4 0 = 1) && decide (p.length = 11)))

/-- `mctp_control_protocol_process_get_routing_table_entries_response`, mctp_control_protocol_commands.c:548-567. -/
def routingOk (p : Bytes) : Bool := decide (5 < p.length) && decide (p.length = 5 + 7 * (p.getD 4 0).toNat)

/-- The use of the entries, attestation_requester.c:4928-4946: entries of 7 bytes behind the header. -/
def ranges : Nat → Bytes → List Discovery.Spec.Range
  | 0, _ => []
  | k + 1, b => ⟨b.getD 1 0, b.getD 0 0⟩ :: ranges k (b.drop 7)

/-- Response to a request for routing table entries, as used by attestation_requester.c:4923-4948. -/
def parseRouting (p : Bytes) : Option Discovery.Spec.Page :=
  if routingOk p then some ⟨p.getD 3 0, ranges (p.getD 4 0).toNat (p.drop 5)⟩ else none

/-- Requests to other endpoints: `mctp_control_protocol_populate_header`, mctp_control_protocol_commands.c:24-32, and the generators of 338-353, 441-461, 518-538, 578-593. -/
def request (cmd : UInt8) (params : Bytes) : Bytes := [0x80, cmd] ++ params

end Verif.MctpCtl
