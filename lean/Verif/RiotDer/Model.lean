import Verif.Common.Res
/-!
Model of the DER builder, `core/riot/reference/RiotDerEnc.c`.

A write outside the encoding buffer is the outcome `oob`. Lengths are numbers: buffers and inputs
below 2^31 bytes, so that `size_t` to `int` conversions keep values. When a function fails the
contents of the buffer are not described (the C code says they are indeterminate, lines 103-104).
-/
namespace Verif.RiotDer
open Verif

/-- Errors: `der` is the -1 of the builder; `code` any other status, used by callers. -/
inductive Err where
  | der
  | code (n : Nat)
deriving DecidableEq, Repr

/-- `DERBuilderContext`, RiotDerEnc.h:24-34. `buf` has the size `Length`; `stack` holds
`CollectionStart`, the innermost collection first (`CollectionPos` is its length). -/
structure Ctx where
  /-- `Buffer`, `Length` -/
  buf : Bytes
  /-- `Position` -/
  pos : Nat
  /-- `CollectionStart`, `CollectionPos` -/
  stack : List Nat
deriving DecidableEq, Repr

/-- Result of a builder function. -/
abbrev Out := Res Err Ctx

/-- `DER_MAX_NESTED`, RiotDerEnc.h:17. -/
def maxNested : Nat := 16

/-- `DERInitContext`, RiotDerEnc.c:98-118, for a buffer of `length` bytes. -/
def init (length : Nat) : Ctx := ⟨List.replicate length 0, 0, []⟩

/-- `DERGetEncodedLength` and the bytes it delimits, RiotDerEnc.c:120-125. -/
def Ctx.out (c : Ctx) : Bytes := c.buf.take c.pos

/-- `CHECK_SPACE`, RiotDerEnc.c:46. `Position` never exceeds `Length` here, since a step that would
move it past the end is `oob`. -/
def chk (c : Ctx) : Out := if c.buf.length - c.pos < 32 then .err .der else .ok c

/-- `CHECK_SPACE2`, RiotDerEnc.c:47: the length of the data is added to the free space, not taken
from it. -/
def chk2 (c : Ctx) (n : Nat) : Out := if (c.buf.length - c.pos) + n < 32 then .err .der else .ok c

/-- `Buffer[Position++] = …` for each byte, or `memcpy` and `Position += …`. -/
def put (bs : Bytes) (c : Ctx) : Out :=
  if c.pos + bs.length ≤ c.buf.length then
    .ok { c with buf := writeAt c.buf c.pos bs, pos := c.pos + bs.length }
  else .oob

/-- `ASRT (…)`, RiotDerEnc.c:39. -/
def asrt (p : Bool) (c : Ctx) : Out := if p then .ok c else .err .der

/-- `EncodeInt` and `GetIntEncodedNumBytes`, RiotDerEnc.c:49-96: the bytes stored, or nothing
from 166536 on. -/
def encInt (n : Nat) : Option Bytes :=
  if n < 166536 then
    if n < 128 then some [UInt8.ofNat n]
    else if n < 256 then some [0x81, UInt8.ofNat n]
    else some [0x82, UInt8.ofNat (n / 256), UInt8.ofNat (n % 256)]
  else none

/-- `EncodeInt (Buffer + Position, n); Position += GetIntEncodedNumBytes (n)`, as in
RiotDerEnc.c:409-410, 426-427, 483-484. Callers ignore the error, so that `Position` goes back by one
(it is at least one there, since a tag has been stored). -/
def putLen (n : Nat) (c : Ctx) : Out :=
  match encInt n with
  | some l => put l c
  | none => .ok { c with pos := c.pos - 1 }

/-- Base 128 digits, the least significant first, RiotDerEnc.c:168-176. `digits` has five entries,
enough for an `int`. -/
def digits : Nat → Nat → List Nat
  | 0, _ => []
  | fuel + 1, v => v % 128 :: (if v / 128 = 0 then [] else digits fuel (v / 128))

/-- Reverse the digits into the buffer, setting the top bit of all but the last,
RiotDerEnc.c:178-185. -/
def revDigits : List Nat → Bytes
  | [] => []
  | d :: ds => (ds.reverse.map fun x => UInt8.ofNat (x + 128)) ++ [UInt8.ofNat d]

/-- The loop over the arcs from the third on, RiotDerEnc.c:164-187. -/
def oidArcs : List Nat → Ctx → Out
  | [], c => .ok c
  | v :: vs, c => put (revDigits (digits 5 v)) c >>= chk >>= oidArcs vs

/-- Room for the length byte, RiotDerEnc.c:151-153. -/
def skip (c : Ctx) : Out := .ok { c with pos := c.pos + 1 }

/-- Store the length, RiotDerEnc.c:190. -/
def poke (lenPos : Nat) (c : Ctx) : Out :=
  if lenPos < c.buf.length then
    .ok { c with buf := writeAt c.buf lenPos [UInt8.ofNat (c.pos - 1 - lenPos)] }
  else .oob

/-- The part of `DERAddOID` after the first tests, RiotDerEnc.c:149-192. -/
def oidBody (a : Nat) (arcs : List Nat) (c : Ctx) : Out :=
  put [6] c >>= skip >>= put [UInt8.ofNat (a * 40 + arcs.headD 0)] >>= oidArcs arcs.tail >>=
    poke (c.pos + 1)

/-- `DERAddOID`, RiotDerEnc.c:127-196. `arcs` are the values before the terminating -1, none
negative. With no value at all the function reads past the terminator (line 156). -/
def addOID (arcs : List Nat) (c : Ctx) : Out :=
  match arcs with
  | [] => .oob
  | a :: rest => asrt (decide (arcs.length < 16)) c >>= chk >>= oidBody a rest

/-- `DERAddEncodedOID`, RiotDerEnc.c:198-217. -/
def addEncodedOID (oid : Bytes) (c : Ctx) : Out := do
  let c ← asrt (decide (oid.length < 127)) c
  let c ← chk2 c oid.length
  let c ← put [0x06, UInt8.ofNat oid.length] c
  put oid c

/-- `DERAddString`, RiotDerEnc.c:219-238. -/
def addString (tag : UInt8) (str : Bytes) (c : Ctx) : Out := do
  let c ← asrt (decide (str.length < 127)) c
  let c ← chk2 c str.length
  let c ← put [tag, UInt8.ofNat str.length] c
  put str c

/-- `DERAddUTF8String`, RiotDerEnc.c:240-244. -/
def addUTF8String (str : Bytes) (c : Ctx) : Out := addString 0x0c str c
/-- `DERAddPrintableString`, RiotDerEnc.c:246-250. -/
def addPrintableString (str : Bytes) (c : Ctx) : Out := addString 0x13 str c
/-- `DERAddIA5String`, RiotDerEnc.c:252-256. -/
def addIA5String (str : Bytes) (c : Ctx) : Out := addString 0x16 str c

/-- `DERAddTime`, RiotDerEnc.c:258-284. -/
def addTime (str : Bytes) (c : Ctx) : Out := do
  let c ← asrt (decide (str.length = 13 ∨ str.length = 15)) c
  let c ← chk c
  let c ← put [if str.length = 13 then 0x17 else 0x18, UInt8.ofNat str.length] c
  put str c

/-- Leading zeros removed, RiotDerEnc.c:298-303. -/
def stripZeros : Bytes → Bytes
  | [] => []
  | b :: bs => if b = 0 then stripZeros bs else b :: bs

/-- What is stored after the tag, RiotDerEnc.c:307-325. -/
def intBytes (val : Bytes) : Bytes :=
  match stripZeros val with
  | [] => [1, 0]
  | b :: bs =>
    if b ≥ 128 then UInt8.ofNat ((b :: bs).length + 1) :: 0 :: b :: bs
    else UInt8.ofNat (b :: bs).length :: b :: bs

/-- `DERAddTaggedIntegerFromArray`, RiotDerEnc.c:286-331. -/
def addTaggedIntegerFromArray (val : Bytes) (tag : UInt8) (c : Ctx) : Out := do
  let c ← asrt (decide (val.length < 128)) c
  let c ← chk2 c val.length
  let c ← put [tag] c
  put (intBytes val) c

/-- `DERAddIntegerFromArray`, RiotDerEnc.c:333-337. -/
def addIntegerFromArray (val : Bytes) (c : Ctx) : Out := addTaggedIntegerFromArray val 0x02 c

/-- `DERAddTaggedInteger`, RiotDerEnc.c:339-346. `Val` is the 32 bit pattern of the `int`; the first
four bytes of the `long` are its big-endian form on a little-endian processor. -/
def addTaggedInteger (val : UInt32) (tag : UInt8) (c : Ctx) : Out :=
  addTaggedIntegerFromArray (toBE 4 val.toNat) tag c

/-- `DERAddInteger`, RiotDerEnc.c:348-352. -/
def addInteger (val : UInt32) (c : Ctx) : Out := addTaggedInteger val 0x02 c

/-- `DERAddShortExplicitInteger`, RiotDerEnc.c:354-370, for values that are not negative. No test for
space before the first two bytes. -/
def addShortExplicitInteger (val : UInt32) (c : Ctx) : Out := do
  let c ← asrt (decide (val < 127)) c
  let c ← put [0xa0, 3] c
  addIntegerFromArray (toBE 4 val.toNat) c

/-- `DERAddBoolean`, RiotDerEnc.c:372-389. -/
def addBoolean (b : Bool) (c : Ctx) : Out := do
  let c ← chk c
  put [0x01, 0x01, if b then 0xff else 0x00] c

/-- `DERAddNamedBitString`, RiotDerEnc.c:397-419. `unused_bits` is unsigned: more bits than there are
wrap around to a large number. -/
def addNamedBitString (b : Bytes) (nbits : Nat) (c : Ctx) : Out := do
  let c ← asrt (decide (nbits ≤ b.length * 8 ∧ b.length * 8 - nbits ≤ 7)) c
  let c ← chk2 c b.length
  let c ← put [0x03] c
  let c ← putLen (b.length + 1) c
  let c ← put [UInt8.ofNat (b.length * 8 - nbits)] c
  put b c

/-- `DERAddBitString`, RiotDerEnc.c:391-395. -/
def addBitString (b : Bytes) (c : Ctx) : Out := addNamedBitString b (b.length * 8) c

/-- The common body of `DERAddOctetString`, RiotDerEnc.c:421-435, and `DERAddAuthKeyBitString`,
RiotDerEnc.c:478-492, which differ in the tag. -/
def addData (tag : UInt8) (b : Bytes) (c : Ctx) : Out := do
  let c ← chk2 c b.length
  let c ← put [tag] c
  let c ← putLen b.length c
  put b c

/-- `DERAddOctetString`, RiotDerEnc.c:421-435. -/
def addOctetString (b : Bytes) (c : Ctx) : Out := addData 0x04 b c

/-- `DERAddAuthKeyBitString`, RiotDerEnc.c:478-492. -/
def addAuthKeyBitString (b : Bytes) (c : Ctx) : Out := addData 0x80 b c

/-- `CollectionStart[CollectionPos++] = Position`. -/
def push (c : Ctx) : Out := .ok { c with stack := c.pos :: c.stack }

/-- `DERStartConstructed`, RiotDerEnc.c:437-453. -/
def startConstructed (tag : UInt8) (c : Ctx) : Out := do
  let c ← chk c
  let c ← asrt (decide (c.stack.length < maxNested)) c
  let c ← put [tag] c
  push c

/-- `DERStartSequenceOrSet`, RiotDerEnc.c:455-461. -/
def startSequenceOrSet (sequence : Bool) (c : Ctx) : Out :=
  startConstructed (if sequence then 0x30 else 0x31) c

/-- `DERStartExplicit`, RiotDerEnc.c:463-476. -/
def startExplicit (num : UInt8) (c : Ctx) : Out := startConstructed (0xa0 + num) c

/-- `DERStartEnvelopingOctetString`, RiotDerEnc.c:494-507. -/
def startEnvelopingOctetString (c : Ctx) : Out := startConstructed 0x04 c

/-- `DERStartEnvelopingBitString`, RiotDerEnc.c:509-527. -/
def startEnvelopingBitString (c : Ctx) : Out := startConstructed 0x03 c >>= put [0]

/-- Insert the length of the collection starting at `s`, RiotDerEnc.c:538-550. -/
def insertLen (s : Nat) (c : Ctx) : Out :=
  let n := c.pos - s
  match encInt n with
  | some l =>
    if s + l.length + n ≤ c.buf.length then
      .ok { c with
        buf := writeAt (writeAt c.buf (s + l.length) (window c.buf s n)) s l
        pos := c.pos + l.length }
    else .oob
  | none => .ok { c with buf := writeAt c.buf (s - 1) (window c.buf s n), pos := c.pos - 1 }

/-- `DERPopNesting`, RiotDerEnc.c:529-556. -/
def popNesting (c : Ctx) : Out := do
  let c ← chk c
  match c.stack with
  | [] => .err .der
  | s :: rest => insertLen s { c with stack := rest }

/-- `DERTbsToCert`, RiotDerEnc.c:558-586. -/
def tbsToCert (c : Ctx) : Out := do
  let c ← asrt c.stack.isEmpty c
  let c ← chk c
  .ok ⟨writeAt (writeAt c.buf 1 (c.buf.take c.pos)) 0 [0x30], c.pos + 1, [1]⟩

/-- `DERAddNull`, RiotDerEnc.c:657-668. -/
def addNull (c : Ctx) : Out := do
  let c ← chk c
  put [0x05, 0x00] c

/-- `DERAddDER`, RiotDerEnc.c:676-687; also `DERAddPublicKey`, 670-674. -/
def addDER (b : Bytes) (c : Ctx) : Out := do
  let c ← chk2 c b.length
  put b c

end Verif.RiotDer
