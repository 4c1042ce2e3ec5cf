import Verif.Common.Bytes
/-!
AES-128 of FIPS 197, and the counter mode of SP 800-38A with a counter of 32 bits, independent of the code.
-/
namespace Verif.RiotAes.Spec
open Verif

/-! ### Arithmetic in GF(2^8), FIPS 197 section 4 -/

/-- Multiplication by x modulo x^8 + x^4 + x^3 + x + 1. -/
def xtime (a : UInt8) : UInt8 := if a ≥ 0x80 then (a <<< 1) ^^^ 0x1b else a <<< 1

/-- Product, by the bits of the second factor. -/
def mulBits (a b : UInt8) : Nat → UInt8
  | 0 => 0
  | n + 1 => (if b &&& 1 = 1 then a else 0) ^^^ mulBits (xtime a) (b >>> 1) n

def mul (a b : UInt8) : UInt8 := mulBits a b 8

/-- Inverse, and 0 for 0: the 254th power. -/
def inv (a : UInt8) : UInt8 :=
  let a2 := mul a a
  let a4 := mul a2 a2
  let a8 := mul a4 a4
  let a16 := mul a8 a8
  let a32 := mul a16 a16
  let a64 := mul a32 a32
  let a128 := mul a64 a64
  mul (mul (mul a2 a4) (mul a8 a16)) (mul (mul a32 a64) a128)

def rotl8 (a : UInt8) (n : UInt8) : UInt8 := (a <<< n) ||| (a >>> (8 - n))

/-- S-box: the inverse and an affine map, FIPS 197 section 5.1.1. -/
def sbox (a : UInt8) : UInt8 :=
  let b := inv a
  b ^^^ rotl8 b 1 ^^^ rotl8 b 2 ^^^ rotl8 b 3 ^^^ rotl8 b 4 ^^^ 0x63

/-! ### The cipher, FIPS 197 section 5 -/

/-- Four rows and four columns of bytes; `s r c`. -/
abbrev State := Fin 4 → Fin 4 → UInt8

def subBytes (s : State) : State := fun r c => sbox (s r c)

def shiftRows (s : State) : State := fun r c => s r (c + r)

def mixColumns (s : State) : State := fun r c => mul 2 (s r c) ^^^ mul 3 (s (r + 1) c) ^^^ s (r + 2) c ^^^ s (r + 3) c

/-- A word of the key schedule. -/
abbrev Word := Fin 4 → UInt8

def addRoundKey (w : Nat → Word) (round : Nat) (s : State) : State := fun r c => s r c ^^^ w (4 * round + c.val) r

def rcon : Nat → UInt8
  | 0 => 1
  | i + 1 => xtime (rcon i)

/-- Four words of the schedule from the four before, FIPS 197 section 5.2. -/
def expandStep (rc : UInt8) (p : Fin 4 → Word) : Fin 4 → Word :=
  let t : Word := fun r => sbox (p 3 (r + 1)) ^^^ if r = 0 then rc else 0
  let w0 : Word := fun r => p 0 r ^^^ t r
  let w1 : Word := fun r => p 1 r ^^^ w0 r
  let w2 : Word := fun r => p 2 r ^^^ w1 r
  let w3 : Word := fun r => p 3 r ^^^ w2 r
  fun c => match c with | 0 => w0 | 1 => w1 | 2 => w2 | 3 => w3

def roundKey (key : Bytes) : Nat → Fin 4 → Word
  | 0 => fun c r => key.getD (4 * c.val + r.val) 0
  | i + 1 => expandStep (rcon i) (roundKey key i)

/-- Word `i` of the key schedule. -/
def word (key : Bytes) (i : Nat) : Word := roundKey key (i / 4) ⟨i % 4, Nat.mod_lt _ (by decide)⟩

/-- `n` of the rounds with MixColumns, from round `i` on. -/
def rounds (w : Nat → Word) : Nat → Nat → State → State
  | 0, _, s => s
  | n + 1, i, s => rounds w n (i + 1) (addRoundKey w i (mixColumns (shiftRows (subBytes s))))

/-- AES-128 of a state. -/
def cipher (w : Nat → Word) (s : State) : State :=
  addRoundKey w 10 (shiftRows (subBytes (rounds w 9 1 (addRoundKey w 0 s))))

def toState (b : Bytes) : State := fun r c => b.getD (4 * c.val + r.val) 0

def fromState (s : State) : Bytes := (List.range 16).map fun i => s ⟨i % 4, Nat.mod_lt _ (by decide)⟩ ⟨i / 4 % 4, Nat.mod_lt _ (by decide)⟩

/-- AES-128 of a block. -/
def aes (key block : Bytes) : Bytes := fromState (cipher (word key) (toState block))

/-- Each block of 16 bytes by itself. -/
def ecb (key data : Bytes) : Bytes := (List.range (data.length / 16)).flatMap fun i => aes key (window data (16 * i) 16)

/-! ### Counter mode -/

/-- The `i`th counter block: the last four bytes are a big-endian counter. -/
def counterBlock (iv : Bytes) (i : Nat) : Bytes := iv.take 12 ++ toBE 4 ((beNat (iv.drop 12) + i) % 2 ^ 32)

/-- `n` blocks of the key stream. -/
def keyStream (key iv : Bytes) (n : Nat) : Bytes := (List.range n).flatMap fun i => aes key (counterBlock iv i)

def xor (a b : Bytes) : Bytes := List.zipWith (· ^^^ ·) a b

/-- Encryption and decryption. -/
def ctr (key iv data : Bytes) : Bytes := xor data (keyStream key iv ((data.length + 15) / 16))

end Verif.RiotAes.Spec
