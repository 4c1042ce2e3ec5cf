import Verif.RiotSha.Spec
/-! SHA-1 as defined in FIPS 180-4, independent of any code. Words of a block (`word`), padding (`pad`), `ch` and `maj` are the same
as for SHA-256 and are taken from `Verif.RiotSha.Spec`. -/
namespace Verif.RiotSha1.Spec
open RiotSha.Spec (word pad ch maj root)

/-- Five words: the hash value or the working variables. -/
structure Words where
  a : UInt32
  b : UInt32
  c : UInt32
  d : UInt32
  e : UInt32
deriving DecidableEq, Inhabited

/-- FIPS 180-4, 5.3.1. -/
def H0 : Words := ⟨0x67452301, 0xefcdab89, 0x98badcfe, 0x10325476, 0xc3d2e1f0⟩

/-- 3.2: rotation to the left. -/
def rotl (n x : UInt32) : UInt32 := (x <<< n) ||| (x >>> (32 - n))

/-- 4.1.1. -/
def f (t : Nat) (x y z : UInt32) : UInt32 :=
  if t < 20 then ch x y z else if t < 40 then x ^^^ y ^^^ z else if t < 60 then maj x y z else x ^^^ y ^^^ z

/-- 4.2.1: `2^30` times the square roots of 2, 3, 5 and 10. -/
def K (t : Nat) : UInt32 :=
  UInt32.ofNat (root 2 ((if t < 20 then 2 else if t < 40 then 3 else if t < 60 then 5 else 10) * 2 ^ 60))

/-- 6.1.2 step 1: `W_0 … W_15` are the words of the block; `W_t` follows from four earlier ones. -/
def schedule (blk : Bytes) : List UInt32 :=
  (List.range 64).foldl
    (fun W _ =>
      let t := W.length
      W ++ [rotl 1 (W.getD (t - 3) 0 ^^^ W.getD (t - 8) 0 ^^^ W.getD (t - 14) 0 ^^^ W.getD (t - 16) 0)])
    ((List.range 16).map (word blk))

/-- 6.1.2 step 3. -/
def step (r : Words) (t : Nat) (w : UInt32) : Words :=
  ⟨rotl 5 r.a + f t r.b r.c r.d + r.e + K t + w, r.a, rotl 30 r.b, r.c, r.d⟩

/-- 6.1.2 for one block. -/
def compress (h : Words) (blk : Bytes) : Words :=
  let W := schedule blk
  let r := (List.range 80).foldl (fun r t => step r t (W.getD t 0)) h
  ⟨h.a + r.a, h.b + r.b, h.c + r.c, h.d + r.d, h.e + r.e⟩

/-- All blocks of a message of a multiple of 64 bytes, from the hash value `h`. -/
def hashBlocks (h : Words) (m : Bytes) : Words :=
  (List.range (m.length / 64)).foldl (fun h i => compress h (window m (64 * i) 64)) h

/-- The digest of a message shorter than `2^64` bits. -/
def sha1 (m : Bytes) : Bytes :=
  let h := hashBlocks H0 (pad m)
  [h.a, h.b, h.c, h.d, h.e].flatMap fun w => toBE 4 w.toNat

example : [K 0, K 20, K 40, K 60] = [0x5a827999, 0x6ed9eba1, 0x8f1bbcdc, 0xca62c1d6] := by decide +kernel

/-- The example of FIPS 180: `"abc"`. -/
example : sha1 [0x61, 0x62, 0x63] = [
    0xa9, 0x99, 0x3e, 0x36, 0x47, 0x06, 0x81, 0x6a, 0xba, 0x3e, 0x25, 0x71, 0x78, 0x50, 0xc2, 0x6c, 0x9c, 0xd0, 0xd8, 0x9d] := by
  decide +kernel

end Verif.RiotSha1.Spec
