import Verif.Common.Bytes
/-! Which MCTP messages are handed to a handler, and what the handler sees. -/
namespace Verif.MsgRoute.Spec

/-- Why a message is not handed to a handler. -/
inductive Refused where
  | tooShort
  | noRoom
  | integrity
deriving DecidableEq, Repr

/-- The type of a message is in the low seven bits of its first byte; the high bit announces an integrity check. Vendor messages (type
`0x7e`) are handed over whole, other messages without the first byte and only without an integrity check. There must be room for a
response of 64 bytes. -/
def parse (room : Nat) : Bytes → Except Refused (Nat × Bytes)
  | [] => .error .tooShort
  | b :: body =>
    if room < 64 then .error .noRoom
    else if b.toNat % 128 = 0x7e then .ok (0x7e, b :: body)
    else if 128 ≤ b.toNat then .error .integrity
    else .ok (b.toNat, body)

/-- Room for a response with all headers: control messages (type 0) are limited to 64 bytes. -/
def room (type given : Nat) : Nat := if type = 0 then min 64 given else given

end Verif.MsgRoute.Spec
