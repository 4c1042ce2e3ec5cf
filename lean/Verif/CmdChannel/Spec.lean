import Verif.CmdChannel.Model
/-! What the properties of command channels talk about. -/
namespace Verif.CmdChannel

/-- A transaction on the bus: it fits in one packet, or the receive buffer overflowed once or more, and the rest of it comes as another packet. -/
inductive Transaction
  | fits (p : Packet)
  | tooLong (over : List Packet) (rest : Packet)

/-- The packet states are those of the kind of transaction. -/
def Transaction.Ok : Transaction → Prop
  | .fits p => p.state ≠ .overflow
  | .tooLong over rest => over ≠ [] ∧ (∀ p ∈ over, p.state = .overflow) ∧ rest.state ≠ .overflow

/-- The packets of a transaction. -/
def Transaction.packets : Transaction → List Packet
  | .fits p => [p]
  | .tooLong over rest => over ++ [rest]

/-- What should be processed of a transaction. -/
def Transaction.wanted : Transaction → List Packet
  | .fits p => [p]
  | .tooLong _ _ => []

/-- The packets received, without failed calls. -/
def received (l : List Rx) : List Packet := l.filterMap fun | .packet p => some p | .failed _ => none
/-- The packets processed. -/
def processed (l : List Fate) : List Packet := l.filterMap fun | .processed p => some p | _ => none

/-- The packets of one call on the wire. -/
def sentBy (w : List (Nat × Bytes)) (i : Nat) : List Bytes := (w.filter fun x => x.1 = i).map (·.2)

/-- A message was split into packets. -/
def SplitInto (n : Nat) (data : Bytes) (pkts : List Bytes) : Prop :=
  pkts.flatten = data ∧ (∀ p ∈ pkts, p ≠ [] ∧ p.length ≤ n) ∧ ∀ p ∈ pkts.dropLast, p.length = n

/-- Messages are not mixed: between two packets of a call there are no packets of others. -/
def NotMixed (w : List (Nat × Bytes)) : Prop :=
  ∀ (i j k : Nat) (x y z : Nat × Bytes), i < j → j < k → w[i]? = some x → w[j]? = some y → w[k]? = some z → x.1 = z.1 → y.1 = x.1

/-- The event is a busy bus. -/
def Ev.isBusy : Ev → Bool
  | .busy _ => true
  | _ => false

end Verif.CmdChannel
