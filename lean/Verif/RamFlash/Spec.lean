import Verif.Common.Bytes
/-!
Specification of a flash device kept in RAM: a memory of a fixed size, that is erased in blocks of 256 bytes.
-/
namespace Verif.RamFlash.Spec
open Verif

/-- A request to the device. -/
inductive Op where
  | read (address length : Nat)
  | write (address : Nat) (data : Bytes)
  | erase (address : Nat)
  | eraseAll
deriving DecidableEq, Repr

/-- What the caller is told. -/
inductive Answer where
  /-- The bytes that were read. -/
  | data (bytes : Bytes)
  /-- The number of bytes that were written. -/
  | wrote (count : Int)
  /-- The erase is done. -/
  | done
  /-- The request is outside the device. -/
  | outOfRange
deriving DecidableEq, Repr

/-- The contents: a byte for each address. -/
abbrev Mem := Nat → UInt8

/-- `length` bytes at `address` are in a device of `size` bytes; the address itself always has to be. -/
abbrev InRange (size address length : Nat) : Prop := address < size ∧ address + length ≤ size

/-- One request: the new contents and the answer. -/
def step (size : Nat) (m : Mem) : Op → Mem × Answer
  | .read a n => if InRange size a n then (m, .data ((List.range n).map fun i => m (a + i))) else (m, .outOfRange)
  | .write a d => if InRange size a d.length then (fun i => if a ≤ i ∧ i < a + d.length then d.getD (i - a) 0 else m i, .wrote d.length) else (m, .outOfRange)
  | .erase a => if a < size then (fun i => if i / 256 = a / 256 then 0xff else m i, .done) else (m, .outOfRange)
  | .eraseAll => (fun _ => 0xff, .done)

/-- A history of requests: the contents at the end and all answers. -/
def run (size : Nat) : Mem → List Op → Mem × List Answer
  | m, [] => (m, [])
  | m, o :: os =>
    let r := step size m o
    let q := run size r.1 os
    (q.1, r.2 :: q.2)

end Verif.RamFlash.Spec
