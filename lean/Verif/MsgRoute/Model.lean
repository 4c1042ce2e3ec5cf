import Verif.MsgRoute.Spec
import Verif.CmdMsg.Spec
/-! Model of `core/cmd_interface/cmd_interface_multi_handler.c` with the protocol `core/mctp/cmd_interface_protocol_mctp.c`, over the message
descriptors of `Verif.CmdMsg`. Handlers are arbitrary functions. NULL arguments, log entries and initialisation are not modelled. -/
namespace Verif.MsgRoute
open CmdMsg (Msg removeHeader addHeader getMaxResponse setMaxResponse)

/-- Statuses; `handler` is any error of a handler. -/
inductive Status where
  | ok
  | tooShort
  | maxRespTooSmall
  | invalidMsg
  | unknownType
  | handler (code : Int)
deriving DecidableEq, Repr

/-- `process_request` of a handler. -/
abbrev Handler := Msg → Status × Msg

/-- `cmd_interface_multi_handler_find_message_type`, cmd_interface_multi_handler.c:18-30. -/
def find : List (Nat × Handler) → Nat → Option Handler
  | [], _ => none
  | (t, h) :: hs, type => if t = type then some h else find hs type

/-- The first byte of the payload (`struct mctp_base_protocol_message_header`, mctp_base_protocol.h:193-196). -/
def first (m : Msg) : Nat := (m.buf.getD m.off 0).toNat

/-- `cmd_interface_protocol_mctp_parse_message`, cmd_interface_protocol_mctp.c:29-72. -/
def parse (m : Msg) : Except Status (Nat × Msg) :=
  if m.payloadLength < 1 then .error .tooShort
  else if getMaxResponse m < 64 then .error .maxRespTooSmall
  else
    let type := first m % 128
    if type ≠ 0x7e then
      if first m / 128 ≠ 0 then .error .invalidMsg
      else
        let m := if type = 0 then setMaxResponse m 64 else m
        .ok (type, removeHeader m 1)
    else .ok (type, m)

/-- `cmd_interface_protocol_mctp_populate_header`, cmd_interface_protocol_mctp.c:19-27. -/
def populate (type : Nat) (m : Msg) : Msg := { m with buf := writeAt m.buf m.off [UInt8.ofNat (type % 128)] }

/-- `cmd_interface_protocol_mctp_handle_request_result`, cmd_interface_protocol_mctp.c:74-102. -/
def handleResult (r : Status) (type : Nat) (m : Msg) : Status × Msg :=
  if type ≠ 0x7e then
    let m := addHeader m 1
    (r, if r = .ok then populate type m else m)
  else (r, m)

/-- `cmd_interface_multi_handler_process_request`, cmd_interface_multi_handler.c:32-72. A message that is not parsed is left as it is. -/
def process (hs : List (Nat × Handler)) (m : Msg) : Status × Msg :=
  match parse m with
  | .error e => (e, m)
  | .ok (type, m1) =>
    let r := match find hs type with
      | some h => h m1
      | none => (.unknownType, m1)
    handleResult r.1 type r.2

/-- `cmd_interface_multi_handler_is_message_type_supported`, cmd_interface_multi_handler.c:74-87. -/
def isSupported (hs : List (Nat × Handler)) (type : Nat) : Status :=
  if (find hs type).isSome then .ok else .unknownType

end Verif.MsgRoute
