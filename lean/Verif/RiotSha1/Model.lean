import Verif.RiotSha.Model
/-! Model of `core/riot/reference/RiotSha1.c` on a little-endian host (RiotSha1.c:43-45). Pointers are not NULL.

The lengths are `unsigned int`, taken as 32 bits. `none` is undefined behaviour: an access outside of a buffer. -/
namespace Verif.RiotSha1
open RiotSha (load32 store32)

/-- The working variables `a` to `e` and `state[5]`. -/
structure Regs where
  a : UInt32
  b : UInt32
  c : UInt32
  d : UInt32
  e : UInt32
deriving DecidableEq

/-- `rol`, RiotSha1.c:38. -/
def rol (x bits : UInt32) : UInt32 := (x <<< bits) ||| (x >>> (32 - bits))

/-- The value of `blk0(i)`, RiotSha1.c:48-49, for the old content of `block->l[i]`. -/
def swap (x : UInt32) : UInt32 := (rol x 24 &&& 0xFF00FF00) ||| (rol x 8 &&& 0x00FF00FF)

/-- The value of `blk(i)`, RiotSha1.c:54-55. -/
def blk (l : List UInt32) (i : Nat) : UInt32 :=
  rol (l.getD ((i + 13) &&& 15) 0 ^^^ l.getD ((i + 8) &&& 15) 0 ^^^ l.getD ((i + 2) &&& 15) 0 ^^^ l.getD (i &&& 15) 0) 1

/-- The function of the macros `R0` to `R4`, RiotSha1.c:58-62, for the `i`-th operation of lines 83-102: `R0` and
`R1` up to 19, `R2` up to 39, `R3` up to 59, then `R4`. -/
def fn (i : Nat) (w x y : UInt32) : UInt32 :=
  if i < 20 then (w &&& (x ^^^ y)) ^^^ y
  else if i < 40 then w ^^^ x ^^^ y
  else if i < 60 then ((w ||| x) &&& y) ||| (w &&& x)
  else w ^^^ x ^^^ y

/-- The constant of the macros, RiotSha1.c:58-62, by the number of the operation. -/
def const (i : Nat) : UInt32 :=
  if i < 20 then 0x5A827999 else if i < 40 then 0x6ED9EBA1 else if i < 60 then 0x8F1BBCDC else 0xCA62C1D6

/-- The `i`-th of the 80 unrolled operations, RiotSha1.c:83-102, with the word `u`. The roles of the variables repeat every five
operations: `(a, b, c, d, e)`, `(e, a, b, c, d)`, `(d, e, a, b, c)`, `(c, d, e, a, b)`, `(b, c, d, e, a)`. -/
def op (i : Nat) (u : UInt32) (r : Regs) : Regs :=
  match i % 5 with
  | 0 => { r with e := r.e + (fn i r.b r.c r.d + u + const i + rol r.a 5), b := rol r.b 30 }
  | 1 => { r with d := r.d + (fn i r.a r.b r.c + u + const i + rol r.e 5), a := rol r.a 30 }
  | 2 => { r with c := r.c + (fn i r.e r.a r.b + u + const i + rol r.d 5), e := rol r.e 30 }
  | 3 => { r with b := r.b + (fn i r.d r.e r.a + u + const i + rol r.c 5), d := rol r.d 30 }
  | _ => { r with a := r.a + (fn i r.c r.d r.e + u + const i + rol r.b 5), c := rol r.c 30 }

/-- The `i`-th operation with the block: `blk0` for the first 16, then `blk`; both store the word in the block. -/
def turn (s : Regs × List UInt32) (i : Nat) : Regs × List UInt32 :=
  if i < 16 then
    let u := swap (s.2.getD i 0)
    (op i u s.1, s.2.set i u)
  else
    let u := blk s.2 i
    (op i u s.1, s.2.set (i &&& 15) u)

/-- The working variables and the block after all operations. -/
def work (state : Regs) (buffer : Bytes) : Regs × List UInt32 :=
  (List.range 80).foldl turn (state, (List.range 16).map (load32 buffer))

/-- RiotSha1.c:104-108. -/
def addState (h r : Regs) : Regs := ⟨h.a + r.a, h.b + r.b, h.c + r.c, h.d + r.d, h.e + r.e⟩

/-- `RIOT_SHA1_CONTEXT`, RiotSha1.h: `state`, `count[0]`, `count[1]` and `buffer[64]`. -/
structure Ctx where
  state : Regs
  count0 : Nat
  count1 : Nat
  buffer : Bytes
deriving DecidableEq

/-- `SHA1_Transform (context->state, context->buffer)`, RiotSha1.c:70-111: the block is changed in place. -/
def transform (c : Ctx) : Ctx :=
  { c with state := addState c.state (work c.state c.buffer).1, buffer := (work c.state c.buffer).2.flatMap store32 }

/-- `RIOT_SHA1_Init`, RiotSha1.c:115-124. The buffer is not initialised. -/
def init (buffer : Bytes) : Ctx := ⟨⟨0x67452301, 0xEFCDAB89, 0x98BADCFE, 0x10325476, 0xC3D2E1F0⟩, 0, 0, buffer⟩

/-- The bit count, RiotSha1.c:132-135. -/
def addCount (c : Ctx) (len : Nat) : Ctx :=
  let l := len * 8 % 2 ^ 32
  let c0 := (c.count0 + l) % 2 ^ 32
  let c1 := if c0 < l then (c.count1 + 1) % 2 ^ 32 else c.count1
  { c with count0 := c0, count1 := (c1 + len / 2 ^ 29) % 2 ^ 32 }

/-- The loop over complete blocks and the rest, RiotSha1.c:143-146 and 153, from index `i`. When `i + 63` wraps around, the loop is
entered again and reads behind the data. `fuel` bounds the number of turns. -/
def blocks (data : Bytes) : (fuel : Nat) → Nat → Ctx → Option Ctx
  | 0, _, c => some c
  | fuel + 1, i, c =>
    if i + 63 ≥ 2 ^ 32 then none
    else if i + 63 < data.length then blocks data fuel (i + 64) (transform { c with buffer := writeAt c.buffer 0 (window data i 64) })
    else some { c with buffer := writeAt c.buffer 0 (data.drop i) }

/-- `RIOT_SHA1_Update`, RiotSha1.c:127-154. When `j + len` wraps around, `len` bytes are copied to the buffer (line 153). -/
def update (c : Ctx) (data : Bytes) : Option Ctx :=
  let j := (c.count0 >>> 3) &&& 63
  let c := addCount c data.length
  if j + data.length ≥ 2 ^ 32 then none
  else if j + data.length > 63 then
    let i := 64 - j
    blocks data (data.length + 1) i (transform { c with buffer := writeAt c.buffer j (data.take i) })
  else some { c with buffer := writeAt c.buffer j data }

/-- The loop in RiotSha1.c:167-169; `fuel` bounds the number of turns. -/
def padLoop : (fuel : Nat) → Ctx → Option Ctx
  | 0, c => some c
  | fuel + 1, c => if c.count0 &&& 504 ≠ 448 then (update c [0]).bind (padLoop fuel) else some c

/-- `finalcount`, RiotSha1.c:162-165: byte `i` of `count[1]`, `count[0]`, most significant first. -/
def finalCount (c : Ctx) : Bytes :=
  (List.range 8).map fun i =>
    UInt8.ofNat (((if i ≥ 4 then c.count0 else c.count1) >>> ((3 - (i &&& 3)) * 8)) &&& 255)

/-- Word `k` of the state. -/
def Regs.get (r : Regs) : Nat → UInt32
  | 0 => r.a
  | 1 => r.b
  | 2 => r.c
  | 3 => r.d
  | _ => r.e

/-- `RIOT_SHA1_Final`, RiotSha1.c:157-181: the digest and the cleared context. -/
def final (c : Ctx) : Option (Bytes × Ctx) := do
  let count := finalCount c
  let c ← update c [0x80]
  let c ← padLoop 64 c
  let c ← update c count
  return ((List.range 20).map fun i =>
      UInt8.ofNat (((c.state.get (i >>> 2)).toNat >>> ((3 - (i &&& 3)) * 8)) &&& 255),
    ⟨⟨0, 0, 0, 0, 0⟩, 0, 0, List.replicate 64 0⟩)

/-- A sequence of `RIOT_SHA1_Update`. -/
def updates : Ctx → List Bytes → Option Ctx
  | c, [] => some c
  | c, d :: ds => (update c d).bind fun c => updates c ds

/-- `RIOT_SHA1_Block`, RiotSha1.c:183-190: the size is cut to an `unsigned int`. `junk` is the uninitialised buffer. -/
def block (junk m : Bytes) : Option Bytes := do
  let c ← update (init junk) (m.take (m.length % 2 ^ 32))
  let r ← final c
  return r.1

end Verif.RiotSha1
