import Verif.Common.Bytes
/-! NIST SP 800-108 (counter mode) and RFC 5869 (expand) as mathematical definitions. -/
namespace Verif.Kdf.Spec

/-- `K(i) = PRF(K, [i]_32 || Label || 0x00 || Context || [L]_32)`. -/
def K (mac : Bytes → Bytes) (label context : Bytes) (bits i : Nat) : Bytes :=
  mac (toBE 4 i ++ label ++ [0x00] ++ context ++ toBE 4 bits)

/-- `T(0)` is empty, `T(i) = HMAC(PRK, T(i-1) | info | i)`. -/
def T (mac : Bytes → Bytes) (info : Bytes) : Nat → Bytes
  | 0 => []
  | i + 1 => mac (T mac info i ++ info ++ [UInt8.ofNat (i + 1)])

/-- `out` is the prefix of the concatenation `B(1) || B(2) || ...` of blocks of `h` bytes: byte `p` is byte `p % h` of block
`p / h + 1`. -/
def IsPrefixOfBlocks (B : Nat → Bytes) (h : Nat) (out : Bytes) : Prop :=
  ∀ p, p < out.length → out[p]? = (B (p / h + 1))[p % h]?

end Verif.Kdf.Spec
