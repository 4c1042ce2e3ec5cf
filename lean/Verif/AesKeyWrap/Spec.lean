import Verif.Common.Bytes
/-! Independent description of the key wrap algorithm: the shift-register form of RFC 3394, section 2.2.1 (the code implements
the index-based form), for any block cipher. -/
namespace Verif.AesKeyWrap.Spec

/-- One step of RFC 3394, 2.2.1: `A = MSB(64, AES(K, A | R[1])) ^ t`, the registers shift down and the last one
gets `LSB(64, AES(K, A | R[1]))`. -/
def step (E : Bytes → Bytes) (t : Nat) : Bytes × List Bytes → Bytes × List Bytes
  | (a, []) => (a, [])
  | (a, r :: rs) =>
    let b := E (a ++ r)
    (List.zipWith (· ^^^ ·) (b.take 8) (toBE 8 t), rs ++ [b.drop 8])

/-- Steps `t = first, …, first + count - 1`. -/
def steps (E : Bytes → Bytes) : (first count : Nat) → Bytes × List Bytes → Bytes × List Bytes
  | _, 0, s => s
  | t, n + 1, s => steps E (t + 1) n (step E t s)

/-- RFC 3394: `6 n` steps from the initial value, `C[0] = A`, `C[i] = R[i]`. -/
def wrap (E : Bytes → Bytes) (iv : Bytes) (blocks : List Bytes) : Bytes :=
  let (a, rs) := steps E 1 (6 * blocks.length) (iv, blocks)
  a ++ rs.flatten

/-- A block cipher on 16-byte blocks and its inverse. -/
structure IsCipher (E D : Bytes → Bytes) : Prop where
  len : ∀ b, b.length = 16 → (E b).length = 16
  inv : ∀ b, b.length = 16 → D (E b) = b

/-- The inverse property in the other direction. -/
structure IsPermutation (E D : Bytes → Bytes) : Prop extends IsCipher E D where
  dlen : ∀ b, b.length = 16 → (D b).length = 16
  dinv : ∀ b, b.length = 16 → E (D b) = b

end Verif.AesKeyWrap.Spec
