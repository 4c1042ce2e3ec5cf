import Verif.Common.Res
/-!
Model of the DER decoder, `core/riot/reference/RiotDerDec.c`.

`size_t` has 64 bits: sums that can exceed it are taken modulo 2^64. A read outside the encoding is
`oob`. All failures (-1, `RIOT_FAILURE`) are one error, except where a function tells two apart.
-/
namespace Verif.RiotDer.Dec
open Verif

/-- Failures: -1 or `RIOT_FAILURE`, and `RIOT_INVALID_PARAMETER`. -/
inductive Fail where
  | failure
  | invalid
deriving DecidableEq, Repr

/-- 2^64. -/
abbrev W : Nat := 2 ^ 64

/-- `der[i]`. -/
def rd (der : Bytes) (i : Nat) : Res Fail UInt8 :=
  match der[i]? with
  | some b => .ok b
  | none => .oob

/-- `(size_t) (int) n` for the 32 bits `n`, RiotDerDec.c:69-70: negative values are extended with
ones. (The shift of a byte above 127 by 24 is undefined in C; compilers give this value.) -/
def signExt (n : Nat) : Nat := if n < 2 ^ 31 then n else n + (2 ^ 64 - 2 ^ 32)

/-- `read_length`, RiotDerDec.c:29-90: the length and the position after it. -/
def readLength (der : Bytes) (pos : Nat) : Res Fail (Nat × Nat) :=
  if pos ≥ der.length then .err .failure
  else do
    let h ← rd der pos
    if h = 0x81 then
      if pos + 1 ≥ der.length then .err .failure
      else do
        let a ← rd der (pos + 1)
        .ok (a.toNat, pos + 2)
    else if h = 0x82 then
      if pos + 2 ≥ der.length then .err .failure
      else do
        let a ← rd der (pos + 1)
        let b ← rd der (pos + 2)
        .ok (a.toNat * 2 ^ 8 + b.toNat, pos + 3)
    else if h = 0x83 then
      if pos + 3 ≥ der.length then .err .failure
      else do
        let a ← rd der (pos + 1)
        let b ← rd der (pos + 2)
        let c ← rd der (pos + 3)
        .ok (a.toNat * 2 ^ 16 + b.toNat * 2 ^ 8 + c.toNat, pos + 4)
    else if h = 0x84 then
      if pos + 4 ≥ der.length then .err .failure
      else do
        let a ← rd der (pos + 1)
        let b ← rd der (pos + 2)
        let c ← rd der (pos + 3)
        let d ← rd der (pos + 4)
        .ok (signExt (a.toNat * 2 ^ 24 + b.toNat * 2 ^ 16 + c.toNat * 2 ^ 8 + d.toNat), pos + 5)
    else if h < 0x80 then .ok (h.toNat, pos + 1)
    else .err .failure

/-- `process_asn1_type`, RiotDerDec.c:92-106; `process_asn1_explicit_type`, 108-122, is the same with
the tag 0xA0 + n. -/
def header (tag : UInt8) (der : Bytes) (pos : Nat) : Res Fail (Nat × Nat) :=
  if pos ≥ der.length then .err .failure
  else do
    let t ← rd der pos
    if t ≠ tag then .err .failure else readLength der (pos + 1)

/-- Read a header and step over the contents, `(*position) += len`, as in RiotDerDec.c:134-139,
265-266. -/
def skip (tag : UInt8) (der : Bytes) (pos : Nat) : Res Fail Nat := do
  let (len, p) ← header tag der pos
  .ok ((p + len) % W)

/-- Read a header and step into the contents. -/
def enter (tag : UInt8) (der : Bytes) (pos : Nat) : Res Fail Nat := do
  let (_, p) ← header tag der pos
  .ok p

/-- `read_cert_subject_name`, RiotDerDec.c:258-287: length and position of the common name. -/
def subjectName (der : Bytes) : Res Fail (Nat × Nat) := do
  let p ← enter 0x30 der 0
  let p ← enter 0x30 der p
  let p ← enter 0xa0 der p
  let p ← skip 0x02 der p
  let p ← skip 0x02 der p
  let p ← skip 0x30 der p
  let p ← enter 0x30 der p
  let p ← enter 0x31 der p
  let p ← enter 0x30 der p
  let p ← skip 0x06 der p
  let p ← skip 0x0c der p
  let p ← skip 0x30 der p
  let p ← enter 0x30 der p
  let p ← enter 0x31 der p
  let p ← enter 0x30 der p
  let p ← skip 0x06 der p
  header 0x0c der p

/-- `DERDECVerifyCert`, RiotDerDec.c:413-430. -/
def verifyCert (der : Bytes) : Res Fail Unit := do
  let (len, p) ← subjectName der
  if (p + len) % W > der.length then .err .failure else .ok ()

/-- `memcpy` of `len` bytes from `der[p]` into an allocation of `size` bytes. -/
def copyOut (der : Bytes) (p len size : Nat) : Res Fail Bytes :=
  if p + len ≤ der.length ∧ len ≤ size then .ok (window der p len) else .oob

/-- The string up to the first NUL, as its users see it. -/
def cstr (b : Bytes) : Bytes := b.takeWhile (· ≠ 0)

/-- `DERDECGetSubjectName`, RiotDerDec.c:383-411. `malloc n` says whether `n` bytes can be
allocated. -/
def getSubjectName (malloc : Nat → Bool) (der : Bytes) : Res Fail Bytes := do
  let (len, p) ← subjectName der
  if (p + len) % W > der.length then .err .failure
  else if malloc ((len + 1) % W) = false then .err .failure
  else do
    let s ← copyOut der p len ((len + 1) % W)
    .ok (cstr s)

/-- `decode_bit_string`, RiotDerDec.c:174-192: length and position of the contents. -/
def bitString (der : Bytes) (pos : Nat) : Res Fail (Nat × Nat) := do
  let (len, p) ← header 0x03 der pos
  if (p + len) % W > der.length then .err .failure else .ok (len, p)

/-- `DERDECGetPubKey`, RiotDerDec.c:333-355: offset and length of the key in the encoding. -/
def getPubKey (der : Bytes) : Res Fail (Nat × Nat) := do
  let p ← enter 0x30 der 0
  let p ← skip 0x30 der p
  let (len, p) ← bitString der p
  .ok (p + 1, (len + (W - 1)) % W)

/-- `RIOT_X509_MAX_KEY_LEN`, RiotX509Bldr.h:31. -/
def maxKeyLen : Nat := 512
/-- `RIOT_ECC_PRIVATE_BYTES`, RiotEcc.h:58. -/
def privateBytes : Nat := 32

/-- `DERDECGetPrivKey`, RiotDerDec.c:300-331, with `decode_octet_string`, 213-236. -/
def getPrivKey (der : Bytes) : Res Fail Bytes :=
  if der.length > maxKeyLen then .err .failure
  else do
    let p ← enter 0x30 der 0
    let p ← skip 0x02 der p
    let (len, p) ← header 0x04 der p
    if (p + len) % W > der.length then .err .failure
    else if len > privateBytes then .err .invalid
    else copyOut der p len privateBytes

/-- `DERDECGetPubKeyFromPrivKey`, RiotDerDec.c:357-381. -/
def getPubKeyFromPrivKey (der : Bytes) : Res Fail (Nat × Nat) :=
  if der.length > maxKeyLen then .err .failure
  else do
    let p ← enter 0x30 der 0
    let p ← skip 0x02 der p
    let p ← skip 0x04 der p
    let p ← skip 0xa0 der p
    let p ← enter 0xa1 der p
    let (len, p) ← bitString der p
    .ok (p, len)

end Verif.RiotDer.Dec
