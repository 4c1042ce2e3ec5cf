import Verif.Common.Res
/-! Model of `core/asn1/ecc_der_util.c`.

A C pointer into the DER buffer is the list of bytes from the pointer to the real end of the buffer, so a read past the end of the
buffer is `oob` whatever the code believes about the remaining `length`. `mx` is `ECC_MAX_KEY_LENGTH` (32, 48 or 66, crypto/ecc.h:20-28). -/
namespace Verif.EccDer

/-- Error codes, ecc_der_util.h. -/
inductive Err
  | malformed | unexpectedTag | unknownSequence | unsupportedKeyLength | unsupportedCurve | smallKeyBuffer | unsupportedAlgorithm
  | infinityEcPoint | invalidEcPoint | compressedEcPoint | smallDerBuffer | sigTooLong | invalidSignature | invalidArgument
deriving DecidableEq, Repr

abbrev R := Res Err

/-- Curve OIDs, ecc_der_util.c:12-39. -/
def p256Oid : Bytes := [0x2a, 0x86, 0x48, 0xce, 0x3d, 0x03, 0x01, 0x07]
def p384Oid : Bytes := [0x2b, 0x81, 0x04, 0x00, 0x22]
def p521Oid : Bytes := [0x2b, 0x81, 0x04, 0x00, 0x23]
def ecPublicKeyOid : Bytes := [0x2a, 0x86, 0x48, 0xce, 0x3d, 0x02, 0x01]

/-- `ecc_der_get_next_tag`, ecc_der_util.c:54-97. Returns the moved pointer, the remaining length and the length of the item. -/
def getNextTag (type : UInt8) (p : Bytes) (length : Nat) : R (Bytes × Nat × Nat) := do
  if length < 3 then .err .malformed
  else
    let t ← rd p 0
    if t ≠ type then .err .unexpectedTag
    else
      let l ← rd p 1
      if l < 0x80 then
        if length < 2 + l.toNat then .err .malformed else return (p.drop 2, length - 2, l.toNat)
      else if l = 0x81 then do
        let l2 ← rd p 2
        if length < 3 + l2.toNat then .err .malformed else return (p.drop 3, length - 3, l2.toNat)
      else .err .unknownSequence

/-- The `switch` at ecc_der_util.c:314-362: skips an extra zero byte before a P256 or P384 key (the remaining
`length` is not adjusted) and selects the expected OID. -/
def privKeyCase (mx : Nat) (p : Bytes) (typeLen : Nat) : R (Bytes × Nat × Bytes) := do
  if typeLen = 33 then
    let b ← rd p 0
    if b ≠ 0 then .err .unsupportedKeyLength else return (p.drop 1, 32, p256Oid)
  else if typeLen = 32 then return (p, 32, p256Oid)
  else if typeLen = 49 ∧ mx ≥ 48 then
    let b ← rd p 0
    if b ≠ 0 then .err .unsupportedKeyLength else return (p.drop 1, 48, p384Oid)
  else if typeLen = 48 ∧ mx ≥ 48 then return (p, 48, p384Oid)
  else if (typeLen = 65 ∨ typeLen = 66) ∧ mx ≥ 66 then return (p, typeLen, p521Oid)
  else .err .unsupportedKeyLength

/-- The version check at ecc_der_util.c:300-303: `*pos` is only read if the item has one byte. -/
def checkVersion (p : Bytes) (typeLen : Nat) : R Unit := do
  if typeLen = 1 then
    let v ← rd p 0
    if v ≠ 1 then .err .unknownSequence else return ()
  else .err .unknownSequence

/-- `ecc_der_decode_private_key_no_copy`, ecc_der_util.c:277-390. `length` is the length argument, `der` the readable
memory. Returns the key length and the pointer to the key. -/
def decodePrivNoCopy (mx : Nat) (der : Bytes) (length : Nat) : R (Nat × Bytes) := do
  let (p, len, _) ← getNextTag 0x30 der length
  let (p, len, tl) ← getNextTag 0x02 p len
  checkVersion p tl
  let (p, len, tl) ← getNextTag 0x04 (p.drop tl) (len - tl)
  let (key, keyLen, oid) ← privKeyCase mx p tl
  let (p, len, _) ← getNextTag 0xa0 (key.drop keyLen) (len - keyLen)
  let (p, _, tl) ← getNextTag 0x06 p len
  if tl ≠ oid.length then .err .unsupportedCurve
  else
    let b ← rdN p 0 oid.length
    if b ≠ oid then .err .unsupportedCurve else return (keyLen, key)

/-- `ecc_der_decode_private_key`, ecc_der_util.c:218-259. Returns the length and the output buffer. -/
def decodePriv (mx : Nat) (der : Bytes) (length : Nat) (out : Bytes) : R (Nat × Bytes) := do
  let (tl, p) ← decodePrivNoCopy mx der length
  let short : Bool := mx ≥ 66 ∧ tl = 65
  let keyLen := if short then tl + 1 else tl
  if out.length ≥ keyLen then
    if short then do
      let out ← wr out 0 0
      let k ← rdN p 0 tl
      let out ← wrN out 1 k
      return (keyLen, out)
    else do
      let k ← rdN p 0 keyLen
      let out ← wrN out 0 k
      return (keyLen, out)
  else .err .smallKeyBuffer

/-- The OID expected for a public key of the given length, ecc_der_util.c:692-720. -/
def pubOid (mx keyLen : Nat) : Option Bytes :=
  if keyLen = 32 then some p256Oid
  else if keyLen = 48 ∧ mx ≥ 48 then some p384Oid
  else if keyLen = 66 ∧ mx ≥ 66 then some p521Oid
  else none

/-- `ecc_der_decode_public_key_no_copy`, ecc_der_util.c:608-725. Returns the length of the point and the pointer to it. -/
def decodePubNoCopy (mx : Nat) (der : Bytes) (length : Nat) : R (Nat × Bytes) := do
  let (p, len, _) ← getNextTag 0x30 der length
  let (p, len, _) ← getNextTag 0x30 p len
  let (p, len, tl) ← getNextTag 0x06 p len
  if tl ≠ ecPublicKeyOid.length then .err .unsupportedAlgorithm
  else
    let b ← rdN p 0 tl
    if b ≠ ecPublicKeyOid then .err .unsupportedAlgorithm
    else
      let (oid, len, oidLen) ← getNextTag 0x06 (p.drop tl) (len - tl)
      let (p, _, tl) ← getNextTag 0x03 (oid.drop oidLen) (len - oidLen)
      if tl < 2 then .err .malformed
      else
        let p := p.drop 1
        let tl := tl - 1
        let f ← rd p 0
        if f = 0 then .err .infinityEcPoint
        else if f ≠ 2 ∧ f ≠ 3 ∧ f ≠ 4 then .err .invalidEcPoint
        else
          match pubOid mx ((tl - 1) / 2) with
          | none => .err .unsupportedKeyLength
          | some expected =>
            if oidLen ≠ expected.length then .err .unsupportedCurve
            else
              let o ← rdN oid 0 oidLen
              if o ≠ expected then .err .unsupportedCurve else return (tl, p)

/-- `ecc_der_decode_public_key`, ecc_der_util.c:560-593. The two output buffers have the same length. -/
def decodePub (mx : Nat) (der : Bytes) (length : Nat) (x y : Bytes) (keyLength : Nat) : R (Nat × Bytes × Bytes) := do
  let (tl, p) ← decodePubNoCopy mx der length
  let f ← rd p 0
  if f ≠ 4 then .err .compressedEcPoint
  else
    let keyLen := (tl - 1) / 2
    if keyLength < keyLen then .err .smallKeyBuffer
    else
      let kx ← rdN p 1 keyLen
      let x ← wrN x 0 kx
      let ky ← rdN p (1 + keyLen) keyLen
      let y ← wrN y 0 ky
      return (keyLen, x, y)

/-- Skipping the extra zero byte, ecc_der_util.c:872-881. -/
def skipPadding (p : Bytes) (len tl keyLength : Nat) : R (Bytes × Nat × Nat) := do
  if tl > keyLength then
    let b ← rd p 0
    if b ≠ 0 then .err .sigTooLong else return (p.drop 1, len - 1, tl - 1)
  else return (p, len, tl)

/-- `ecc_der_decode_ecdsa_integer`, ecc_der_util.c:855-889. Returns the pointer, the remaining length and the integer written to
the output, of exactly `keyLength` bytes. -/
def decodeEcdsaInteger (p : Bytes) (length keyLength : Nat) : R (Bytes × Nat × Bytes) := do
  let (p, len, tl) ← getNextTag 0x02 p length
  if tl > keyLength + 1 then .err .sigTooLong
  else
    let (p, len, tl) ← skipPadding p len tl keyLength
    let v ← rdN p 0 tl
    let sig ← wrN (List.replicate keyLength 0) (keyLength - tl) v
    return (p.drop tl, len - tl, sig)

/-- `ecc_der_decode_ecdsa_signature`, ecc_der_util.c:958-990. -/
def decodeSig (der : Bytes) (length keyLength : Nat) : R (Bytes × Bytes) := do
  let (p, _, tl) ← getNextTag 0x30 der length
  let (p, tl, r) ← decodeEcdsaInteger p tl keyLength
  let (_, tl, s) ← decodeEcdsaInteger p tl keyLength
  if tl ≠ 0 then .err .invalidSignature else return (r, s)

/-! Encoding. The output buffer has `cap` bytes. `out` is what has been written so far, starting at the beginning of the buffer;
`length` is the remaining length the code keeps track of. -/

/-- Write `data` at the current position; past the end of the buffer it is `oob`. -/
def put (cap : Nat) (out data : Bytes) : R Bytes :=
  if out.length + data.length ≤ cap then .ok (out ++ data) else .oob

/-- `ecc_der_add_next_tag`, ecc_der_util.c:112-145. `data` is `none` for `NULL`, otherwise it has `typeLen` bytes. -/
def addNextTag (cap : Nat) (type : UInt8) (typeLen : Nat) (data : Option Bytes) (out : Bytes) (length : Nat) :
    R (Bytes × Nat) := do
  if length < 3 then .err .smallDerBuffer
  else
    let out ← put cap out [type]
    let (out, length) ← if typeLen ≥ 0x80 then do
        let out ← put cap out [0x81]
        pure (out, length - 1)
      else pure (out, length)
    let out ← put cap out [UInt8.ofNat typeLen]
    let length := length - 2
    match data with
    | none => return (out, length)
    | some d =>
      if length < typeLen then .err .smallDerBuffer
      else
        let out ← put cap out d
        return (out, length - typeLen)

/-- `ecc_der_encode_public_key_bit_string`, ecc_der_util.c:173-202. -/
def encodePubBitString (cap : Nat) (x y : Bytes) (keyLength : Nat) (out : Bytes) (length : Nat) : R (Bytes × Nat) := do
  let (out, length) ← addNextTag cap 0x03 (keyLength * 2 + 2) none out length
  if length < 2 + keyLength * 2 then .err .smallDerBuffer
  else
    let out ← put cap out [0x00, 0x04]
    let out ← put cap out x
    let out ← put cap out y
    return (out, length - (2 + keyLength * 2))

/-- The optional public key of a private key, ecc_der_util.c:475-498. -/
def addPub (cap : Nat) (pub : Option (Bytes × Bytes)) (keyLength : Nat) (out : Bytes) (length : Nat) : R (Bytes × Nat) := do
  match pub with
  | none => return (out, length)
  | some (x, y) =>
    let (out, length) ← addNextTag cap 0xa1 (if keyLength ≠ 66 then keyLength * 2 + 4 else keyLength * 2 + 5) none out length
    encodePubBitString cap x y keyLength out length

/-- `ecc_der_encode_private_key`, ecc_der_util.c:410-507. `pub` is `none` when a public coordinate is `NULL`. Returns the
encoded length and the data written. -/
def encodePriv (mx cap : Nat) (priv : Bytes) (pub : Option (Bytes × Bytes)) (keyLength : Nat) : R (Nat × Bytes) := do
  let long : Bool := mx ≥ 48 ∧ pub.isSome ∧ keyLength > 32
  let hasPub := if long then 0x80 else 0
  let hdr := if long then 3 else 2
  match pubOid mx keyLength with
  | none => .err .unsupportedKeyLength
  | some oid =>
    let (out, length) ← addNextTag cap 0x30 hasPub none [] cap
    let (out, length) ← addNextTag cap 0x02 1 (some [1]) out length
    let (out, length) ← addNextTag cap 0x04 keyLength (some priv) out length
    let (out, length) ← addNextTag cap 0xa0 (oid.length + 2) none out length
    let (out, length) ← addNextTag cap 0x06 oid.length (some oid) out length
    let (out, _) ← addPub cap pub keyLength out length
    let n := UInt8.ofNat (out.length - hdr)
    return (n.toNat + hdr, out.set (hdr - 1) n)

/-- `ecc_der_encode_public_key`, ecc_der_util.c:742-813. -/
def encodePub (mx cap : Nat) (x y : Bytes) (keyLength : Nat) : R (Nat × Bytes) := do
  match pubOid mx keyLength with
  | none => .err .unsupportedKeyLength
  | some oid =>
    let hdr := if keyLength = 66 then 3 else 2
    let algoLen := if keyLength = 32 then 0x13 else 0x10
    let (out, length) ← addNextTag cap 0x30 (if hdr = 2 then 0 else 0x80) none [] cap
    let (out, length) ← addNextTag cap 0x30 algoLen none out length
    let (out, length) ← addNextTag cap 0x06 ecPublicKeyOid.length (some ecPublicKeyOid) out length
    let (out, length) ← addNextTag cap 0x06 oid.length (some oid) out length
    let (out, _) ← encodePubBitString cap x y keyLength out length
    let n := UInt8.ofNat (out.length - hdr)
    return (n.toNat + hdr, out.set (hdr - 1) n)

/-- The loop at ecc_der_util.c:917-920: the value without leading zeros, keeping at least one byte. -/
def trim : Bytes → Bytes
  | 0 :: b :: bs => trim (b :: bs)
  | bs => bs

/-- `ecc_der_encode_ecdsa_integer`, ecc_der_util.c:903-942, for a non-empty `sig`. -/
def encodeEcdsaInteger (cap : Nat) (sig out : Bytes) (length : Nat) : R (Bytes × Nat) := do
  let intLen := out.length + 1
  let (out, length) ← addNextTag cap 0x02 0 none out length
  let sig := trim sig
  let top ← rd sig 0
  let (out, length, n) ←
    if top &&& 0x80 ≠ 0 then do
      let out ← put cap out [0]
      pure (out, length - 1, 1)
    else pure (out, length, 0)
  if length < sig.length then .err .smallDerBuffer
  else
    let out ← put cap out sig
    return (out.set intLen (UInt8.ofNat (n + sig.length)), length - sig.length)

/-- `ecc_der_encode_ecdsa_signature`, ecc_der_util.c:1004-1048. Returns the length and the data written. -/
def encodeSig (mx cap : Nat) (r s : Bytes) : R (Nat × Bytes) := do
  if r.length = 0 then .err .invalidArgument
  else
    let (out, length) ← addNextTag cap 0x30 0 none [] cap
    let (out, length) ← encodeEcdsaInteger cap r out length
    let (out, length) ← encodeEcdsaInteger cap s out length
    let total := out.length - 2
    let out := out.set 1 (UInt8.ofNat total)
    if mx ≥ 66 ∧ total ≥ 0x80 then
      if length = 0 then .err .smallDerBuffer
      else
        -- memmove (&der[2], &der[1], total_len + 1); der[1] = 0x81
        let moved ← rdN out 1 (total + 1)
        let out ← put cap (out.take 1 ++ [0x81]) moved
        return (total + 3, out)
    else return (total + 2, out)

/-- `ecc_der_get_ecdsa_max_signature_length`, ecc_der_util.c:1077-1096 and ecc_der_util.h:99-101. -/
def maxSigLength (mx keyLength : Nat) : Option Nat :=
  if keyLength = 32 then some (32 * 2 + 8)
  else if keyLength = 48 ∧ mx ≥ 48 then some (48 * 2 + 8)
  else if keyLength = 66 ∧ mx ≥ 66 then some (66 * 2 + 7)
  else none

end Verif.EccDer
