import Verif.Common.Res
/-! Model of `core/asn1/asn1_util.c`. Buffers are lists whose length is the length argument. -/
namespace Verif.Asn1

/-- Error codes, asn1_util.h:28-35. -/
inductive Err | invalidArgument | notValid | smallDerBuffer | outOfRange | unexpectedTag
deriving DecidableEq, Repr

abbrev R := Res Err

/-- The 4-byte length `(der[2] << 24) | ...` (asn1_util.c:73) is computed in `int` and converted to a
`w`-bit `size_t`: a negative `int` is sign extended. -/
def signExtend (w n : Nat) : Nat := if n < 2 ^ 31 then n else n + 2 ^ w - 2 ^ 32

/-- `asn1_parse_der_header`, asn1_util.c:29-90. Returns item length and header length. `w` is the width of
`size_t` (32 or 64). -/
def parseHeader (w : Nat) (der : Bytes) : R (Nat × Nat) := do
  if der.length < 2 then .err .notValid
  else
    let l ← rd der 1
    if l = 0x81 then
      if der.length < 3 then .err .notValid
      else
        let b2 ← rd der 2
        return (b2.toNat, 3)
    else if l = 0x82 then
      if der.length < 4 then .err .notValid
      else
        let b2 ← rd der 2
        let b3 ← rd der 3
        return (b2.toNat * 2 ^ 8 + b3.toNat, 4)
    else if l = 0x83 then
      if der.length < 5 then .err .notValid
      else
        let b2 ← rd der 2
        let b3 ← rd der 3
        let b4 ← rd der 4
        return (b2.toNat * 2 ^ 16 + b3.toNat * 2 ^ 8 + b4.toNat, 5)
    else if l = 0x84 then
      if der.length < 6 then .err .notValid
      else
        let b2 ← rd der 2
        let b3 ← rd der 3
        let b4 ← rd der 4
        let b5 ← rd der 5
        return (signExtend w (b2.toNat * 2 ^ 24 + b3.toNat * 2 ^ 16 + b4.toNat * 2 ^ 8 + b5.toNat), 6)
    else if l < 0x80 then return (l.toNat, 2)
    else .err .notValid

/-- `asn1_get_item`, asn1_util.c:104-126. Returns the offset of the content (how far `*der` moved) and the
item length. The sum in the bound check is a `w`-bit `size_t`. -/
def getItem (w : Nat) (tag : UInt8) (der : Bytes) : R (Nat × Nat) := do
  let (length, headerLength) ← parseHeader w der
  let t ← rd der 0
  if t ≠ tag then .err .unexpectedTag
  else if (headerLength + length) % 2 ^ w > der.length then .err .smallDerBuffer
  else return (headerLength, length)

/-- `asn1_get_der_item_len`, asn1_util.c:137-153: the total length as an `int` in two's complement
(here: its `w`-bit `size_t` image as used by the caller below), or an error. -/
def itemLen (w : Nat) (der : Bytes) : R Nat := do
  let (length, headerLength) ← parseHeader w der
  return signExtend w ((length + headerLength) % 2 ^ 32)

/-- `asn1_get_der_encoded_length`, asn1_util.c:169-180. Error codes are at least
0x7f000000 (rot_status.h:13-21); buffers are assumed to be no longer than that, so `max_length` is returned. -/
def encodedLength (w : Nat) (der : Bytes) : R Nat :=
  match itemLen w der with
  | .ok n => .ok (if der.length ≤ n then der.length else n)
  | .err _ => .ok der.length
  | .oob => .oob

/-- The loop at asn1_util.c:206-208. The byte index is `i / 8`. -/
def findTop (v : Nat) : Nat → Nat
  | 0 => 0
  | k + 1 => if v / 256 ^ (k + 1) % 256 = 0 then findTop v k else k + 1

/-- The loop at asn1_util.c:218-227 from byte index `k` down to 0; returns the new `der_length`. -/
def emit (v : Nat) : (k derLength : Nat) → Bytes → R (Nat × Bytes)
  | k, derLength, der =>
    if der.length > 2 + derLength then do
      let der ← wr der (2 + derLength) (UInt8.ofNat (v / 256 ^ k))
      match k with
      | 0 => return (derLength + 1, der)
      | k + 1 => emit v k (derLength + 1) der
    else .err .smallDerBuffer

/-- `asn1_encode_integer`, asn1_util.c:191-234, for `value < 2^64`. Returns the encoded length and the
buffer. The buffer content after a failed call is not tracked. -/
def encodeInteger (value : Nat) (der : Bytes) : R (Nat × Bytes) := do
  if der.length < 3 then .err .smallDerBuffer
  else
    let k := findTop value 7
    let (derLength, der) ←
      if (value / 256 ^ k) &&& 0x80 ≠ 0 then do
        let der ← wr der 2 0
        pure (1, der)
      else pure (0, der)
    let (derLength, der) ← emit value k derLength der
    let der ← wr der 0 0x02
    let der ← wr der 1 (UInt8.ofNat derLength)
    return (2 + derLength, der)

/-- The loop at asn1_util.c:271-273. -/
def sumLoop (der : Bytes) (base : Nat) : (n i tmp : Nat) → R Nat
  | 0, _, tmp => .ok tmp
  | n + 1, i, tmp => do
    let b ← rd der (base + i)
    sumLoop der base n (i + 1) ((tmp * 256 + b.toNat) % 2 ^ 64)

/-- `asn1_decode_integer`, asn1_util.c:245-278. -/
def decodeInteger (w : Nat) (der : Bytes) : R Nat := do
  let (base, derLength) ← getItem w 0x02 der
  let b0 ← rd der base
  if b0 &&& 0x80 ≠ 0 then .err .outOfRange
  else if derLength > 9 ∨ (derLength = 9 ∧ b0 ≠ 0) then .err .outOfRange
  else sumLoop der base derLength 0 0

/-- `asn1_encode_base128_oid`, asn1_util.c:291-314. -/
def encodeOid (oid : Bytes) (der : Bytes) : R (Nat × Bytes) := do
  if oid.length = 0 then .err .invalidArgument
  else if oid.length > 127 then .err .outOfRange
  else if der.length < 2 + oid.length then .err .smallDerBuffer
  else
    let der ← wr der 0 0x06
    let der ← wr der 1 (UInt8.ofNat oid.length)
    let der ← wrN der 2 oid
    return (2 + oid.length, der)

/-- `asn1_decode_base128_oid`, asn1_util.c:328-338: offset and length of the content. -/
def decodeOid (w : Nat) (der : Bytes) : R (Nat × Nat) := getItem w 0x06 der

end Verif.Asn1
