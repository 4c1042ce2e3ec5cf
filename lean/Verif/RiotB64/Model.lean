import Verif.Common.Bytes
/-!
Model of `core/riot/reference/RiotBase64.c`, with `size_t` of 32 bits.
-/
namespace Verif.RiotB64
open Verif

/-- `base64char`, RiotBase64.c:14-32. -/
def base64char (v : Nat) : UInt8 :=
  if v < 26 then UInt8.ofNat (0x41 + v)
  else if v < 52 then UInt8.ofNat (0x61 + (v - 26))
  else if v < 62 then UInt8.ofNat (0x30 + (v - 52))
  else if v = 62 then 0x2b
  else 0x2f

/-- `base64b16`, RiotBase64.c:34-45; a word is the list of its bytes. -/
def base64b16 (v : Nat) : UInt8 :=
  let words : List Bytes := [[0x41, 0x45, 0x49, 0x4d], [0x51, 0x55, 0x59, 0x63], [0x67, 0x6b, 0x6f, 0x73], [0x77, 0x30, 0x34, 0x38]]
  (words.getD (v >>> 2) []).getD (v &&& 3) 0

/-- `base64b8`, RiotBase64.c:47-53. -/
def base64b8 (v : Nat) : UInt8 := [0x41, 0x51, 0x67, 0x77].getD v (0 : UInt8)

/-- `base64toValue`, RiotBase64.c:55-81; `none` for -1. -/
def toValue (c : UInt8) : Option UInt8 :=
  if 0x41 ≤ c ∧ c ≤ 0x5a then some (c - 0x41)
  else if 0x61 ≤ c ∧ c ≤ 0x7a then some (26 + (c - 0x61))
  else if 0x30 ≤ c ∧ c ≤ 0x39 then some (52 + (c - 0x30))
  else if c = 0x2b then some 62
  else if c = 0x2f then some 63
  else none

/-- `Base64DecodedLength`, RiotBase64.c:96-119, of a string without its NUL. -/
def decodedLength (s : Bytes) : Nat :=
  if s.length = 0 then 0
  else
    let r := s.length / 4 * 3
    if s.getD (s.length - 1) 0 = 0x3d then (if s.getD (s.length - 2) 0 = 0x3d then r - 1 else r) - 1 else r

/-- The values of the characters that `base64CharacterCount` counts, RiotBase64.c:83-94: up to the first other one, or the NUL. -/
def values : Bytes → List UInt8
  | [] => []
  | c :: r => match toValue c with
    | none => []
    | some v => v :: values r

/-- The loop and the tail of `Base64Decode`, RiotBase64.c:151-190: the bytes written to the output. -/
def decodeBody : List UInt8 → Bytes
  | c1 :: c2 :: c3 :: c4 :: r => ((c1 <<< 2) ||| (c2 >>> 4)) :: (((c2 &&& 0x0f) <<< 4) ||| (c3 >>> 2)) :: (((c3 &&& 0x03) <<< 6) ||| c4) :: decodeBody r
  | [c1, c2, c3] => [(c1 <<< 2) ||| (c2 >>> 4), ((c2 &&& 0x0f) <<< 4) ||| (c3 >>> 2)]
  | [c1, c2] => [(c1 <<< 2) ||| (c2 >>> 4)]
  | _ => []

/-- `Base64Decode`, RiotBase64.c:121-193, of a string without its NUL: `.error` for -1, otherwise the bytes written, and `*OutLen` afterwards. -/
def decode (s : Bytes) (outLen : Nat) : Except Unit Bytes × Nat :=
  if s.length % 4 ≠ 0 then (.error (), outLen)
  else if outLen < decodedLength s then (.error (), decodedLength s)
  else (.ok (decodeBody (values s)), outLen)

/-- The loop and the tail of `Base64Encode`, RiotBase64.c:230-267: the bytes written, with the NUL. -/
def encodeBody : Bytes → Bytes
  | a :: b :: c :: r => base64char (a.toNat >>> 2) :: base64char (((a.toNat &&& 3) <<< 4) ||| (b.toNat >>> 4)) :: base64char (((b.toNat &&& 15) <<< 2) ||| ((c.toNat >>> 6) &&& 3)) ::
    base64char (c.toNat &&& 63) :: encodeBody r
  | [a, b] => [base64char (a.toNat >>> 2), base64char (((a.toNat &&& 3) <<< 4) ||| (b.toNat >>> 4)), base64b16 (b.toNat &&& 15), 0x3d, 0]
  | [a] => [base64char (a.toNat >>> 2), base64b8 (a.toNat &&& 3), 0x3d, 0x3d, 0]
  | [] => [0]

/-- The size that is needed, RiotBase64.c:214-217. -/
def reqSize (n : Nat) : Nat := ((if n = 0 then 0 else ((n - 1) / 3 + 1) * 4 % 2 ^ 32) + 1) % 2 ^ 32

/-- `Base64Encode`, RiotBase64.c:195-275: the bytes written, or `.error` for -1, and `*OutLen` afterwards. `OutLen` is not NULL. -/
def encode (data : Bytes) (outLen : Nat) : Except Unit Bytes × Nat :=
  if outLen < reqSize data.length then (.error (), reqSize data.length)
  else (.ok (encodeBody data), reqSize data.length)

end Verif.RiotB64
