import Verif.Common.Bytes
/-! When a key pair is consistent, FIPS 140-3 implementation guidance 10.3.A. -/
namespace Verif.KeyGen.Spec
variable {P Q : Type}

/-- Key agreement: the private key with the test public key and the test private key with the public key give the same secret.
`s₁` and `s₂` are the two computations. -/
def Agree (s₁ s₂ : P → Q → Option Bytes) (p : P) (q : Q) (tp : P) (tq : Q) : Prop :=
  ∃ a, s₁ p tq = some a ∧ s₂ tp q = some a

/-- Signatures: a signature with the private key verifies with the public key. -/
def Signs (sign : P → Option Bytes) (verify : Q → Bytes → Bool) (p : P) (q : Q) : Prop :=
  ∃ s, sign p = some s ∧ verify q s = true

/-- The curves that are supported, by their key lengths in bytes. -/
def curves : List Nat := [32, 48, 66]

/-- SHA-2 digest sizes in bits used with the curves: as strong as the curve; P-256 and anything else: SHA-256. -/
def digestBits (keyLength : Nat) : Nat := if keyLength = 48 then 384 else if keyLength = 66 then 512 else 256

end Verif.KeyGen.Spec
