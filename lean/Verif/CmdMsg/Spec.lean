import Verif.CmdMsg.Model
/-! What the property of message descriptors talks about. -/
namespace Verif.CmdMsg

/-- The payload and the space for a response are inside the buffer. -/
def Inside (m : Msg) : Prop := m.off + m.payloadLength ≤ m.buf.length ∧ m.maxResponse ≤ m.buf.length

/-- The payload, and the message with all that is in front of the payload. -/
def payload (m : Msg) : Bytes := window m.buf m.off m.payloadLength
/-- The headers in front of the payload. -/
def headers (m : Msg) : Bytes := m.buf.take m.off

/-- The operations keep to what the descriptor allows: data that are added and lengths that are set fit in the space for a response. -/
def Allowed (m : Msg) : Op → Prop
  | .addData d => m.payloadLength + d.length ≤ getMaxResponse m
  | .setLength n => n ≤ getMaxResponse m
  | _ => True

/-- Sequences of allowed operations. -/
inductive Run : Msg → Msg → Prop
  | refl {m} : Run m m
  | next {m m' m''} (op : Op) : Run m m' → Allowed m' op → step m' op = some m'' → Run m m''

/-- Adding headers again, the last one first. -/
def addAll (m : Msg) (l : List Nat) : Msg := l.foldl addHeader m
/-- Removing headers one after the other. -/
def removeAll (m : Msg) (l : List Nat) : Msg := l.foldl removeHeader m

end Verif.CmdMsg
