import Mathlib.Algebra.Polynomial.Div
import Mathlib.Data.ZMod.Basic
import Verif.Common.Bytes
/-! The CRC-8 of SMBus: the remainder of a polynomial division over GF(2). -/
namespace Verif.Checksum
open Polynomial

/-- The bits of a byte, most significant first. -/
def byteBits (b : UInt8) : List Bool := [7, 6, 5, 4, 3, 2, 1, 0].map fun i => b.toNat.testBit i

/-- The bits of a message in transmission order. -/
def bits (m : Bytes) : List Bool := m.flatMap byteBits

/-- The polynomial over GF(2) whose coefficients are the given bits, highest first. -/
noncomputable def poly (l : List Bool) : (ZMod 2)[X] := l.foldl (fun p b => p * X + if b then 1 else 0) 0

/-- The generator polynomial x^8 + x^2 + x + 1. -/
noncomputable def generator : (ZMod 2)[X] := X ^ 8 + X ^ 2 + X + 1

end Verif.Checksum
