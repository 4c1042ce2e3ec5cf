import Verif.CommonMath.Model
/-! Model of `core/crypto/aes_key_wrap.c` and `core/crypto/aes_key_wrap_with_padding.c`.

The block cipher is a parameter: `enc t b` / `dec t b` is the result of `encrypt_data` / `decrypt_data` on the 16-byte block
`b` at the point where the step counter is `t`; `none` is a failed call. (The counter is different at every call, so a call can
fail or not independently of the others.) -/
namespace Verif.AesKeyWrap

/-- Return codes, aes_key_wrap_interface.h. `engine` is an error of the AES engine. -/
inductive Status
  | ok | notBlockAligned | notEnoughData | tooMuchData | smallOutputBuffer | integrityCheckFail | lengthCheckFail
  | paddingCheckFail | engine
deriving DecidableEq, Repr

abbrev Cipher := Bytes → Bytes → Option Bytes

/-- `AES_KEY_WRAP_IV`, aes_key_wrap.c:18-20. -/
def iv : Bytes := List.replicate 8 0xa6

/-- `AES_KEY_WRAP_WITH_PADDING_IV`, aes_key_wrap_with_padding.c:19-21. -/
def ivPadding : Bytes := [0xa6, 0x59, 0x59, 0xa6]

/-- `*a ^= t` on two 8-byte values (aes_key_wrap.c:98, 182). -/
def xorBytes (a b : Bytes) : Bytes := List.zipWith (· ^^^ ·) a b

/-- A buffer seen as an array of 8-byte blocks (`&wrapped[i * AES_KEY_WRAP_INTERFACE_BLOCK_SIZE]`); an incomplete
last block is dropped, as `AES_KEY_WRAP_BLOCK_COUNT` does. -/
def blocks : Bytes → List Bytes
  | a :: b :: c :: d :: e :: f :: g :: h :: rest => [a, b, c, d, e, f, g, h] :: blocks rest
  | _ => []

/-- The inner loop of `aes_key_wrap_data_wrap`, aes_key_wrap.c:86-101, over the blocks `i = 1..n`. State: `a` and `t`. -/
def wrapPass (enc : Cipher) : (a t : Bytes) → List Bytes → Option (Bytes × Bytes × List Bytes)
  | a, t, [] => some (a, t, [])
  | a, t, r :: rs => do
    let b ← enc t (a ++ r)
    let t' := (CommonMath.increment t false).2
    let a' := xorBytes (b.take 8) t'
    let (a'', t'', rs') ← wrapPass enc a' t' rs
    return (a'', t'', b.drop 8 :: rs')

/-- The outer loop, aes_key_wrap.c:85-102, `j` iterations left. -/
def wrapLoop (enc : Cipher) : (j : Nat) → (a t : Bytes) → List Bytes → Option (Bytes × Bytes × List Bytes)
  | 0, a, t, rs => some (a, t, rs)
  | j + 1, a, t, rs => do
    let (a, t, rs) ← wrapPass enc a t rs
    wrapLoop enc j a t rs

/-- `aes_key_wrap_data_wrap`, aes_key_wrap.c:71-111: the wrapped data (integrity value, then blocks). -/
def dataWrap (enc : Cipher) (initial : Bytes) (data : Bytes) : Option Bytes := do
  let (a, _, rs) ← wrapLoop enc 6 initial (List.replicate 8 0) (blocks data)
  return a ++ rs.flatten

/-- `aes_key_wrap_wrap`, aes_key_wrap.c:113-146. Returns the status and the content of the output buffer `wrapped`.
Input and output do not overlap, or overlap so that the data is in place already. -/
def wrap (enc : Cipher) (data wrapped : Bytes) : Status × Bytes :=
  if data.length % 8 ≠ 0 then (.notBlockAligned, wrapped)
  else if data.length < 16 then (.notEnoughData, wrapped)
  else if wrapped.length < data.length + 8 then (.smallOutputBuffer, wrapped)
  else
    match dataWrap enc iv data with
    | some out => (.ok, out ++ wrapped.drop (data.length + 8))
    | none => (.engine, List.replicate wrapped.length 0)

/-- The inner loop of `aes_key_wrap_data_unwrap`, aes_key_wrap.c:181-196. The loop runs from the last block to the first: the list
argument and the list result are in this (reversed) order. -/
def unwrapPass (dec : Cipher) : (a t : Bytes) → List Bytes → Option (Bytes × Bytes × List Bytes)
  | a, t, [] => some (a, t, [])
  | a, t, r :: rs => do
    let a' := xorBytes a t
    let b ← dec t (a' ++ r)
    let t' := (CommonMath.decrement t false).2
    let (a'', t'', rs') ← unwrapPass dec (b.take 8) t' rs
    return (a'', t'', b.drop 8 :: rs')

/-- The outer loop, aes_key_wrap.c:180-197. -/
def unwrapLoop (dec : Cipher) : (j : Nat) → (a t : Bytes) → List Bytes → Option (Bytes × Bytes × List Bytes)
  | 0, a, t, rs => some (a, t, rs)
  | j + 1, a, t, rs => do
    let (a, t, rs) ← unwrapPass dec a t rs
    unwrapLoop dec j a t rs

/-- `aes_key_wrap_data_unwrap`, aes_key_wrap.c:160-206: the integrity value and the data. -/
def dataUnwrap (dec : Cipher) (wrapped : Bytes) : Option (Bytes × Bytes) := do
  let n := (wrapped.length - 8) / 8
  let t := toBE 8 (n * 6)
  let (a, _, rs) ← unwrapLoop dec 6 (wrapped.take 8) t (blocks (wrapped.drop 8)).reverse
  return (a, rs.reverse.flatten)

/-- `aes_key_wrap_unwrap`, aes_key_wrap.c:208-247. `data` is the whole output buffer (`*out_length` bytes). Returns the status, the
content of the output buffer and the value of `*out_length`. -/
def unwrap (dec : Cipher) (wrapped data : Bytes) : Status × Bytes × Nat :=
  if wrapped.length % 8 ≠ 0 then (.notBlockAligned, data, data.length)
  else if wrapped.length < 24 then (.notEnoughData, data, data.length)
  else if data.length < wrapped.length - 8 then (.smallOutputBuffer, data, data.length)
  else
    match dataUnwrap dec wrapped with
    | none => (.engine, List.replicate data.length 0, data.length)
    | some (check, plain) =>
      if check = iv then (.ok, plain ++ data.drop (wrapped.length - 8), wrapped.length - 8)
      else (.integrityCheckFail, List.replicate data.length 0, data.length)

/-- `AES_KEY_WRAP_INTERFACE_ALIGNED_LENGTH`, aes_key_wrap_interface.h: round up to a multiple of 8. -/
def alignedLength (n : Nat) : Nat := (n + 7) / 8 * 8

/-- `aes_key_wrap_with_padding_wrap`, aes_key_wrap_with_padding.c:31-83. The single-block case passes the initial
counter value to the cipher parameter. -/
def wrapPadded (enc : Cipher) (data wrapped : Bytes) : Status × Bytes :=
  let aligned := alignedLength data.length
  if data.length = 0 then (.notEnoughData, wrapped)
  else if data.length > 0xfffffff8 then (.tooMuchData, wrapped)
  else if wrapped.length < aligned + 8 then (.smallOutputBuffer, wrapped)
  else
    let initial := ivPadding ++ toBE 4 data.length
    let padded := data ++ List.replicate (aligned - data.length) 0
    let r := if aligned > 8 then dataWrap enc initial padded else enc (List.replicate 8 0) (initial ++ padded)
    match r with
    | some out => (.ok, out ++ wrapped.drop (aligned + 8))
    | none => (.engine, List.replicate wrapped.length 0)

/-- `aes_key_wrap_with_padding_unwrap`, aes_key_wrap_with_padding.c:85-168. -/
def unwrapPadded (dec : Cipher) (wrapped data : Bytes) : Status × Bytes × Nat :=
  if alignedLength wrapped.length ≠ wrapped.length then (.notBlockAligned, data, data.length)
  else if wrapped.length < 16 then (.notEnoughData, data, data.length)
  else if data.length < wrapped.length - 8 then (.smallOutputBuffer, data, data.length)
  else
    let r :=
      if wrapped.length > 16 then dataUnwrap dec wrapped
      else (dec (List.replicate 8 0) wrapped).map (fun b => (b.take 8, b.drop 8))
    let zero := List.replicate data.length (0 : UInt8)
    match r with
    | none => (.engine, zero, data.length)
    | some (check, plain) =>
      if check.take 4 = ivPadding then
        let dataLength := beNat (check.drop 4)
        if wrapped.length - 16 ≥ dataLength then (.lengthCheckFail, zero, data.length)
        else if dataLength > wrapped.length - 8 then (.lengthCheckFail, zero, data.length)
        else if (plain.drop dataLength).any (· != 0) then (.paddingCheckFail, zero, data.length)
        else (.ok, plain ++ data.drop (wrapped.length - 8), dataLength)
      else (.integrityCheckFail, zero, data.length)

end Verif.AesKeyWrap
