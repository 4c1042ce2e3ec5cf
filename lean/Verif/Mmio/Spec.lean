import Verif.Common.Bytes
/-!
A block of 32-bit registers as its single bits, and what reads and writes of fields do to them.
-/
namespace Verif.Mmio.Spec
open Verif

/-- Bits of the registers by offset in the block and number. -/
abbrev Bits := Nat → Nat → Bool

/-- Bits `pos` to `pos + n - 1` of the register at `off` become the low `n` bits of `v`. -/
def write (b : Bits) (off pos n v : Nat) : Bits := fun o i => if o = off ∧ pos ≤ i ∧ i < pos + n then v.testBit (i - pos) else b o i

/-- The field as a number. -/
def read (b : Bits) (off pos : Nat) : Nat → Nat
  | 0 => 0
  | n + 1 => read b off pos n + if b off (pos + n) then 2 ^ n else 0

/-- A field of a register. -/
def ValidField (pos n : Nat) : Prop := 0 < n ∧ pos + n ≤ 32

/-- Requests. -/
inductive Op
  | readBits (off pos n : Nat)
  | writeBits (off pos n v : Nat)
  | readBit (off pos : Nat)
  | writeBit (off pos : Nat) (v : Bool)
  | setBit (off pos : Nat)
  | clearBit (off pos : Nat)

/-- Their effect on the bits. -/
def step (b : Bits) : Op → Bits
  | .readBits .. => b
  | .writeBits off pos n v => write b off pos n v
  | .readBit .. => b
  | .writeBit off pos v => write b off pos 1 (if v then 1 else 0)
  | .setBit off pos => write b off pos 1 1
  | .clearBit off pos => write b off pos 1 0

/-- Their result: the value for reads. -/
def result (b : Bits) : Op → Nat
  | .readBits off pos n => read b off pos n
  | .readBit off pos => if b off pos then 1 else 0
  | _ => 0

def Op.off : Op → Nat
  | .readBits o _ _ | .writeBits o _ _ _ | .readBit o _ | .writeBit o _ _ | .setBit o _ | .clearBit o _ => o

/-- The field a request is about. -/
def Op.field : Op → Nat × Nat
  | .readBits _ p n | .writeBits _ p n _ => (p, n)
  | .readBit _ p | .writeBit _ p _ | .setBit _ p | .clearBit _ p => (p, 1)

/-- Results and final bits of a sequence of requests. -/
def run (b : Bits) : List Op → List Nat × Bits
  | [] => ([], b)
  | o :: os => ((result b o) :: (run (step b o) os).1, (run (step b o) os).2)

end Verif.Mmio.Spec
