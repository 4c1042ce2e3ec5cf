import Verif.Common.Bytes
/-!
SHA-256 as defined in FIPS 180-4, independent of any code: constants from the roots of the first
primes (4.2.2, 5.3.3), functions (4.1.2), padding (5.1.1), message schedule and rounds (6.2.2).
-/
namespace Verif.RiotSha.Spec

/-- The first 64 prime numbers (the 64th is 311). -/
def primes : List Nat :=
  (List.range 312).filter fun n => decide (2 ≤ n) && (List.range n).all fun d => decide (d < 2) || n % d != 0

/-- The integer `k`-th root of `n < 2^(36k)`, bit by bit. -/
def root (k n : Nat) : Nat :=
  (List.range 36).reverse.foldl (fun x b => if (x + 2 ^ b) ^ k ≤ n then x + 2 ^ b else x) 0

/-- FIPS 180-4, 4.2.2: the first 32 bits of the fractional parts of the cube roots of the primes. -/
def K : List UInt32 := primes.map fun p => UInt32.ofNat (root 3 (p * 2 ^ 96))

/-- Eight words: the hash value or the working variables. -/
structure Words where
  a : UInt32
  b : UInt32
  c : UInt32
  d : UInt32
  e : UInt32
  f : UInt32
  g : UInt32
  h : UInt32
deriving DecidableEq, Inhabited

/-- FIPS 180-4, 5.3.3: the first 32 bits of the fractional parts of the square roots of the first
eight primes. -/
def H0 : Words :=
  let r (i : Nat) := UInt32.ofNat (root 2 (primes.getD i 0 * 2 ^ 64))
  ⟨r 0, r 1, r 2, r 3, r 4, r 5, r 6, r 7⟩

def rotr (n x : UInt32) : UInt32 := (x >>> n) ||| (x <<< (32 - n))
def ch (x y z : UInt32) : UInt32 := (x &&& y) ^^^ (~~~x &&& z)
def maj (x y z : UInt32) : UInt32 := (x &&& y) ^^^ (x &&& z) ^^^ (y &&& z)
def bigSigma0 (x : UInt32) : UInt32 := rotr 2 x ^^^ rotr 13 x ^^^ rotr 22 x
def bigSigma1 (x : UInt32) : UInt32 := rotr 6 x ^^^ rotr 11 x ^^^ rotr 25 x
def sigma0 (x : UInt32) : UInt32 := rotr 7 x ^^^ rotr 18 x ^^^ (x >>> 3)
def sigma1 (x : UInt32) : UInt32 := rotr 17 x ^^^ rotr 19 x ^^^ (x >>> 10)

/-- Word `i` of a block, most significant byte first. -/
def word (blk : Bytes) (i : Nat) : UInt32 := UInt32.ofNat (beNat (window blk (4 * i) 4))

/-- 6.2.2 step 1: `W_0 … W_15` are the words of the block; `W_t` follows from four earlier ones. -/
def schedule (blk : Bytes) : List UInt32 :=
  (List.range 48).foldl
    (fun W _ =>
      let t := W.length
      W ++ [sigma1 (W.getD (t - 2) 0) + W.getD (t - 7) 0 + sigma0 (W.getD (t - 15) 0)
        + W.getD (t - 16) 0])
    ((List.range 16).map (word blk))

/-- 6.2.2 step 3. -/
def step (r : Words) (k w : UInt32) : Words :=
  let t1 := r.h + bigSigma1 r.e + ch r.e r.f r.g + k + w
  let t2 := bigSigma0 r.a + maj r.a r.b r.c
  ⟨t1 + t2, r.a, r.b, r.c, r.d + t1, r.e, r.f, r.g⟩

/-- 6.2.2 for one block. -/
def compress (h : Words) (blk : Bytes) : Words :=
  let W := schedule blk
  let r := (List.range 64).foldl (fun r t => step r (K.getD t 0) (W.getD t 0)) h
  ⟨h.a + r.a, h.b + r.b, h.c + r.c, h.d + r.d, h.e + r.e, h.f + r.f, h.g + r.g, h.h + r.h⟩

/-- All blocks of a message of a multiple of 64 bytes, from the hash value `h`. -/
def hashBlocks (h : Words) (m : Bytes) : Words :=
  (List.range (m.length / 64)).foldl (fun h i => compress h (window m (64 * i) 64)) h

/-- 5.1.1: a one bit, the least number of zero bits, and the length in bits as 64 bit number. -/
def pad (m : Bytes) : Bytes :=
  m ++ [0x80] ++ List.replicate ((64 - (m.length + 9) % 64) % 64) 0 ++ toBE 8 (8 * m.length)

/-- The digest of a message shorter than `2^64` bits. -/
def sha256 (m : Bytes) : Bytes :=
  let h := hashBlocks H0 (pad m)
  [h.a, h.b, h.c, h.d, h.e, h.f, h.g, h.h].flatMap fun w => toBE 4 w.toNat

/-- `root` is the root, for the numbers used. -/
example : ∀ p ∈ primes, root 3 (p * 2 ^ 96) ^ 3 ≤ p * 2 ^ 96 ∧ p * 2 ^ 96 < (root 3 (p * 2 ^ 96) + 1) ^ 3 := by
  decide +kernel
example : primes.length = 64 ∧ primes.getLast? = some 311 := by decide +kernel

/-- The example of FIPS 180: `"abc"`. -/
example : sha256 [0x61, 0x62, 0x63] = [
    0xba, 0x78, 0x16, 0xbf, 0x8f, 0x01, 0xcf, 0xea, 0x41, 0x41, 0x40, 0xde, 0x5d, 0xae, 0x22, 0x23,
    0xb0, 0x03, 0x61, 0xa3, 0x96, 0x17, 0x7a, 0x9c, 0xb4, 0x10, 0xff, 0x61, 0xf2, 0x00, 0x15, 0xad] := by
  decide +kernel

end Verif.RiotSha.Spec
