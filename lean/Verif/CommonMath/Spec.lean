import Verif.Common.Bytes
/-! Vocabulary for the statements about `common_math.c`. -/
namespace Verif.CommonMath

/-- Bit `k` of a byte array: bit `k % 8` of byte `k / 8`; clear outside the array. -/
def bitAt (l : Bytes) (k : Nat) : Bool := (l.getD (k / 8) 0).toNat.testBit (k % 8)

/-- `m` is the number of leading set bits: the first `m` bits are set and bit `m`, if there is one,
is not. -/
def IsFirstClear (l : Bytes) (m : Nat) : Prop :=
  m ≤ 8 * l.length ∧ (∀ j, j < m → bitAt l j = true) ∧ (m < 8 * l.length → bitAt l m = false)

end Verif.CommonMath
