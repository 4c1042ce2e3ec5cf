import Verif.Counters.Model
/-! What the property of reset counters talks about. -/
namespace Verif.Counters

/-- The counters. -/
inductive Ctr | own | comp0 | comp1
  deriving DecidableEq, Repr

/-- The counter that a request with this type and port is about. -/
def named (type port : UInt8) : Option Ctr :=
  if type = 0 then some .own
  else if type = 1 ∧ port = 0 then some .comp0
  else if type = 1 ∧ port = 1 then some .comp1
  else none

/-- The value of a counter; the third exists only with a second register. -/
def value (r : Regs) : Ctr → Option Nat
  | .own => some (r.reg1.toNat % 65536)
  | .comp0 => some (r.reg1.toNat / 65536)
  | .comp1 => r.reg2.map fun v => v.toNat % 65536

/-- The number of increments of a counter since it was last cleared (`n` to begin with). -/
def counted (c : Ctr) : Nat → List Op → Nat
  | n, [] => n
  | n, .increment t p :: l => counted c (if named t p = some c then n + 1 else n) l
  | n, .clear t p :: l => counted c (if named t p = some c then 0 else n) l

/-- The same for the events of several tasks. -/
def tally (c : Ctr) : Nat → List Ev → Nat
  | n, [] => n
  | n, .read _ _ _ :: l => tally c n l
  | n, .write _ t p :: l => tally c (if named t p = some c then n + 1 else n) l
  | n, .clear _ t p :: l => tally c (if named t p = some c then 0 else n) l

/-- The task of an event. -/
def Ev.task : Ev → Nat
  | .read t _ _ => t
  | .write t _ _ => t
  | .clear t _ _ => t

/-- The counter of an event. -/
def Ev.ctr : Ev → Option Ctr
  | .read _ t p => named t p
  | .write _ t p => named t p
  | .clear _ t p => named t p

end Verif.Counters
