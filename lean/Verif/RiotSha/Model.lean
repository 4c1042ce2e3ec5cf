import Verif.RiotSha.Spec
/-!
Model of `core/riot/reference/RiotSha256.c` on a little-endian host.

Byte buffers are lists; words are loaded and stored with the least significant byte first, as a
little-endian host does. Simplifications: pointers are never null and the magic number is right
(the assertions of lines 356-357 and 404 hold); the loads at line 289 are not checked for alignment.
-/
namespace Verif.RiotSha
open Spec (Words)

/-- Load of word `i` of a buffer on a little-endian host. -/
def load32 (b : Bytes) (i : Nat) : UInt32 := UInt32.ofNat (leNat (window b (4 * i) 4))

/-- Bytes of a stored word on a little-endian host. -/
def store32 (w : UInt32) : Bytes := toLE 4 w.toNat

/-- `REVERSE32`, RiotSha256.c:118-122. -/
def reverse32 (w : UInt32) : UInt32 :=
  let tmp := (w >>> 16) ||| (w <<< 16)
  ((tmp &&& 0xff00ff00) >>> 8) ||| ((tmp &&& 0x00ff00ff) <<< 8)

/-- `REVERSE64`, RiotSha256.c:134-141. -/
def reverse64 (w : UInt64) : UInt64 :=
  let tmp := (w >>> 32) ||| (w <<< 32)
  let tmp := ((tmp &&& 0xff00ff00ff00ff00) >>> 8) ||| ((tmp &&& 0x00ff00ff00ff00ff) <<< 8)
  ((tmp &&& 0xffff0000ffff0000) >>> 16) ||| ((tmp &&& 0x0000ffff0000ffff) <<< 16)

/-- `R`, RiotSha256.c:194. -/
def R (b x : UInt32) : UInt32 := x >>> b
/-- `S32`, RiotSha256.c:196. -/
def S32 (b x : UInt32) : UInt32 := (x >>> b) ||| (x <<< (32 - b))
/-- `Ch`, RiotSha256.c:199. -/
def Ch (x y z : UInt32) : UInt32 := (x &&& y) ^^^ (~~~x &&& z)
/-- `Maj`, RiotSha256.c:200. -/
def Maj (x y z : UInt32) : UInt32 := (x &&& y) ^^^ (x &&& z) ^^^ (y &&& z)
/-- `Sigma0_256`, RiotSha256.c:203. -/
def Sigma0 (x : UInt32) : UInt32 := S32 2 x ^^^ S32 13 x ^^^ S32 22 x
/-- `Sigma1_256`, RiotSha256.c:204. -/
def Sigma1 (x : UInt32) : UInt32 := S32 6 x ^^^ S32 11 x ^^^ S32 25 x
/-- `sigma0_256`, RiotSha256.c:205. -/
def sigma0 (x : UInt32) : UInt32 := S32 7 x ^^^ S32 18 x ^^^ R 3 x
/-- `sigma1_256`, RiotSha256.c:206. -/
def sigma1 (x : UInt32) : UInt32 := S32 17 x ^^^ S32 19 x ^^^ R 10 x

/-- `K256`, RiotSha256.c:217-234. -/
def K256 : List UInt32 := [
  0x428a2f98, 0x71374491, 0xb5c0fbcf, 0xe9b5dba5,
  0x3956c25b, 0x59f111f1, 0x923f82a4, 0xab1c5ed5,
  0xd807aa98, 0x12835b01, 0x243185be, 0x550c7dc3,
  0x72be5d74, 0x80deb1fe, 0x9bdc06a7, 0xc19bf174,
  0xe49b69c1, 0xefbe4786, 0x0fc19dc6, 0x240ca1cc,
  0x2de92c6f, 0x4a7484aa, 0x5cb0a9dc, 0x76f988da,
  0x983e5152, 0xa831c66d, 0xb00327c8, 0xbf597fc7,
  0xc6e00bf3, 0xd5a79147, 0x06ca6351, 0x14292967,
  0x27b70a85, 0x2e1b2138, 0x4d2c6dfc, 0x53380d13,
  0x650a7354, 0x766a0abb, 0x81c2c92e, 0x92722c85,
  0xa2bfe8a1, 0xa81a664b, 0xc24b8b70, 0xc76c51a3,
  0xd192e819, 0xd6990624, 0xf40e3585, 0x106aa070,
  0x19a4c116, 0x1e376c08, 0x2748774c, 0x34b0bcb5,
  0x391c0cb3, 0x4ed8aa4a, 0x5b9cca4f, 0x682e6ff3,
  0x748f82ee, 0x78a5636f, 0x84c87814, 0x8cc70208,
  0x90befffa, 0xa4506ceb, 0xbef9a3f7, 0xc67178f2]

/-- `sha256_initial_hash_value`, RiotSha256.c:237-246. -/
def initialHash : Words :=
  ⟨0x6a09e667, 0xbb67ae85, 0x3c6ef372, 0xa54ff53a, 0x510e527f, 0x9b05688c, 0x1f83d9ab, 0x5be0cd19⟩

/-- `RIOT_SHA256_CONTEXT`, RiotSha256.h:66-71, without the magic number. -/
structure Ctx where
  /-- `state[8]`. -/
  state : Words
  /-- `bitcount`, a `uint64_t`. -/
  bitcount : Nat
  /-- `buffer[64]`. -/
  buffer : Bytes
deriving DecidableEq

/-- `RIOT_SHA256_Init`, RiotSha256.c:256-265. -/
def init : Ctx := ⟨initialHash, 0, List.replicate 64 0⟩

/-- One turn of either loop of `SHA256_Transform` on the registers, RiotSha256.c:291-304 and
317-327. -/
def turn (r : Words) (k w : UInt32) : Words :=
  let T1 := r.h + Sigma1 r.e + Ch r.e r.f r.g + k + w
  let T2 := Sigma0 r.a + Maj r.a r.b r.c
  { h := r.g, g := r.f, f := r.e, e := r.d + T1, d := r.c, c := r.b, b := r.a, a := T1 + T2 }

/-- The first loop, RiotSha256.c:285-307: `data` gives the words to read, which may be those of the
buffer `W256` written at the same time. -/
def loop1 (data : List UInt32 → Nat → UInt32) (s : Words × List UInt32) (j : Nat) :
    Words × List UInt32 :=
  let w := reverse32 (data s.2 j)
  (turn s.1 (K256.getD j 0) w, s.2.set j w)

/-- The second loop, RiotSha256.c:309-330. -/
def loop2 (s : Words × List UInt32) (j : Nat) : Words × List UInt32 :=
  let s0 := sigma0 (s.2.getD ((j + 1) &&& 0x0f) 0)
  let s1 := sigma1 (s.2.getD ((j + 14) &&& 0x0f) 0)
  let w := s.2.getD (j &&& 0x0f) 0 + (s1 + s.2.getD ((j + 9) &&& 0x0f) 0 + s0)
  (turn s.1 (K256.getD j 0) w, s.2.set (j &&& 0x0f) w)

/-- The loops of `SHA256_Transform`, RiotSha256.c:273-330. `src = none` is the call with the
buffer of the context as data (370, 426, 443), `some d` the call with the caller's bytes (384). The
buffer is used as the words `W256`. -/
def work (c : Ctx) (src : Option Bytes) : Words × List UInt32 :=
  let data : List UInt32 → Nat → UInt32 := match src with
    | none => fun W j => W.getD j 0
    | some d => fun _ j => load32 d j
  (List.range' 16 48).foldl loop2
    ((List.range 16).foldl (loop1 data) (c.state, (List.range 16).map (load32 c.buffer)))

/-- The new intermediate hash value, RiotSha256.c:333-340. -/
def addState (h r : Words) : Words :=
  ⟨h.a + r.a, h.b + r.b, h.c + r.c, h.d + r.d, h.e + r.e, h.f + r.f, h.g + r.g, h.h + r.h⟩

/-- `SHA256_Transform`, RiotSha256.c:267-344. The buffer holds the words `W256` afterwards. -/
def transform (c : Ctx) (src : Option Bytes) : Ctx :=
  { state := addState c.state (work c src).1
    bitcount := c.bitcount
    buffer := (work c src).2.flatMap store32 }

/-- `bitcount += n << 3`, RiotSha256.c:367, 375, 385, 392. -/
def addBits (c : Ctx) (n : Nat) : Ctx := { c with bitcount := (c.bitcount + n * 8) % 2 ^ 64 }

/-- The loop over complete blocks and the rest, RiotSha256.c:382-393. The first argument bounds
the number of turns; `update` passes the number of bytes. -/
def blocks : Nat → Ctx → Bytes → Ctx
  | 0, c, _ => c
  | n + 1, c, data =>
    if data.length ≥ 64 then blocks n (addBits (transform c (some (data.take 64))) 64) (data.drop 64)
    else if data.length > 0 then addBits { c with buffer := writeAt c.buffer 0 data } data.length
    else c

/-- `RIOT_SHA256_Update`, RiotSha256.c:346-396. -/
def update (c : Ctx) (data : Bytes) : Ctx :=
  if data.length = 0 then c
  else
    let used := (c.bitcount >>> 3) % 64
    if used > 0 then
      let free := 64 - used
      if data.length ≥ free then
        let c := addBits { c with buffer := writeAt c.buffer used (data.take free) } free
        blocks (data.length + 1) (transform c none) (data.drop free)
      else addBits { c with buffer := writeAt c.buffer used data } data.length
    else blocks (data.length + 1) c data

/-- `memset (&buffer[pos], 0, len)`. -/
def zero (b : Bytes) (pos len : Nat) : Bytes := writeAt b pos (List.replicate len 0)

/-- The padding of `RIOT_SHA256_Final`, RiotSha256.c:413-438. -/
def finalPad (c : Ctx) (used : Nat) : Ctx :=
  if used > 0 then
    let b := writeAt c.buffer used [0x80]
    let used := used + 1
    if used ≤ 56 then { c with buffer := zero b used (56 - used) }
    else
      let b := if used < 64 then zero b used (64 - used) else b
      let c := transform { c with buffer := b } none
      { c with buffer := zero c.buffer 0 56 }
  else { c with buffer := writeAt (zero c.buffer 0 56) 0 [0x80] }

/-- `RIOT_SHA256_Final`, RiotSha256.c:398-463, with a digest buffer. The context is cleared
(461), so only the digest is returned. -/
def final (c : Ctx) : Bytes :=
  let used := (c.bitcount >>> 3) % 64
  let bits := reverse64 (UInt64.ofNat c.bitcount)
  let c := finalPad c used
  let c := transform { c with buffer := writeAt c.buffer 56 (toLE 8 bits.toNat) } none
  let s := c.state
  [s.a, s.b, s.c, s.d, s.e, s.f, s.g, s.h].flatMap fun w => store32 (reverse32 w)

/-- `RIOT_SHA256_Block_ctx` and `RIOT_SHA256_Block`, RiotSha256.c:465-480. -/
def block (buf : Bytes) : Bytes := final (update init buf)

end Verif.RiotSha
