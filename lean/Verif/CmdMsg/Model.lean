import Verif.Common.Bytes
/-! The message descriptor: the `cmd_interface_msg_...` functions of `core/cmd_interface/cmd_interface.c`. Null arguments are not modelled, nor are the
fields that are only stored (endpoints, addresses, channel, flags). -/
namespace Verif.CmdMsg

/-- Values of `size_t` on a 32-bit device. -/
def SZ : Nat := 2 ^ 32

/-- `struct cmd_interface_msg`, cmd_interface.h:17-. `buf` is the whole buffer that `data` points to, `off` is `payload - data`. -/
structure Msg where
  buf : Bytes
  length : Nat
  maxResponse : Nat
  off : Nat
  payloadLength : Nat
  deriving DecidableEq, Repr

/-- `cmd_interface_msg_new_message`, cmd_interface.c:23-37. -/
def newMessage (m : Msg) : Msg := { m with length := 0, off := 0, payloadLength := 0 }

/-- `cmd_interface_msg_add_payload_data`, cmd_interface.c:51-61; `none`: the copy goes beyond the end of the buffer. -/
def addPayloadData (m : Msg) (data : Bytes) : Option Msg :=
  if data = [] then some m
  else if m.buf.length < m.off + m.payloadLength + data.length then none
  else some { m with buf := writeAt m.buf (m.off + m.payloadLength) data, length := m.length + data.length,
                     payloadLength := m.payloadLength + data.length }

/-- `cmd_interface_msg_set_message_payload_length`, cmd_interface.c:73-79. -/
def setPayloadLength (m : Msg) (n : Nat) : Msg := { m with length := n, payloadLength := n }

/-- `cmd_interface_msg_remove_protocol_header`, cmd_interface.c:89-100. -/
def removeHeader (m : Msg) (h : Nat) : Msg :=
  let h := if h > m.payloadLength then m.payloadLength else h
  { m with off := m.off + h, payloadLength := m.payloadLength - h }

/-- `cmd_interface_msg_add_protocol_header`, cmd_interface.c:112-131. -/
def addHeader (m : Msg) (h : Nat) : Msg :=
  let h := if m.off < h then m.off else h
  { m with off := m.off - h, length := if m.length = m.payloadLength then m.length + h else m.length, payloadLength := m.payloadLength + h }

/-- `cmd_interface_msg_get_protocol_length`, cmd_interface.c:140-151 (the payload is never in front of the data here). -/
def protocolLength (m : Msg) : Nat := m.off

/-- `cmd_interface_msg_get_max_response`, cmd_interface.c:162-182. -/
def getMaxResponse (m : Msg) : Nat := if m.maxResponse ≥ protocolLength m then m.maxResponse - protocolLength m else 0

/-- `cmd_interface_msg_set_max_response`, cmd_interface.c:196-204. -/
def setMaxResponse (m : Msg) (n : Nat) : Msg :=
  let n := (n + protocolLength m) % SZ
  if n < m.maxResponse then { m with maxResponse := n } else m

/-- The operations. -/
inductive Op
  | new
  | addData (d : Bytes)
  | setLength (n : Nat)
  | remove (h : Nat)
  | add (h : Nat)
  | setMax (n : Nat)

/-- One operation. -/
def step (m : Msg) : Op → Option Msg
  | .new => some (newMessage m)
  | .addData d => addPayloadData m d
  | .setLength n => some (setPayloadLength m n)
  | .remove h => some (removeHeader m h)
  | .add h => some (addHeader m h)
  | .setMax n => some (setMaxResponse m n)

end Verif.CmdMsg
