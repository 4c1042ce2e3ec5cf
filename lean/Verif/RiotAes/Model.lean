import Verif.RiotAes.Tables
import Verif.Common.Bytes
/-!
Model of `core/riot/reference/RiotAes128.c` (key schedule, counter mode and ECB) and of `RiotCrypt_SymEncryptDecrypt`, for a little-endian CPU. Words are `uint32_t`.
-/
namespace Verif.RiotAes
open Verif

/-- The macros `ROTL8`, `ROTL16`, `ROTL24`, RiotAes128.c:30-32. -/
def rotl (x n : UInt32) : UInt32 := (x <<< n) ||| (x >>> (32 - n))

/-- The macros `ROW_n`, RiotAes128.c:38-41: `(uint8_t) (x >> 8n)`. -/
def row (x : UInt32) (n : Nat) : UInt8 := (x >>> UInt32.ofNat (8 * n)).toUInt8

def ftable (a : UInt8) : UInt32 := ftableTable.getD a.toNat 0

def sbox (a : UInt8) : UInt8 := sboxTable.getD a.toNat 0

/-- Four words: a state, or a round key. -/
structure Quad where
  x0 : UInt32
  x1 : UInt32
  x2 : UInt32
  x3 : UInt32
deriving DecidableEq, Repr

/-- `round_column`, RiotAes128.c:43-47. -/
def roundColumn (x0 x1 x2 x3 : UInt32) : UInt32 :=
  ftable (row x0 0) ^^^ rotl (ftable (row x1 1)) 8 ^^^ rotl (ftable (row x2 2)) 16 ^^^ rotl (ftable (row x3 3)) 24

/-- `round`, RiotAes128.c:52-56, with its four words of the key. -/
def round (x k : Quad) : Quad :=
  ⟨roundColumn x.x0 x.x1 x.x2 x.x3 ^^^ k.x0, roundColumn x.x1 x.x2 x.x3 x.x0 ^^^ k.x1, roundColumn x.x2 x.x3 x.x0 x.x1 ^^^ k.x2, roundColumn x.x3 x.x0 x.x1 x.x2 ^^^ k.x3⟩

/-- `lastround_column`, RiotAes128.c:58-62. -/
def lastColumn (x0 x1 x2 x3 : UInt32) : UInt32 :=
  (sbox (row x0 0)).toUInt32 ^^^ ((sbox (row x1 1)).toUInt32 <<< 8) ^^^ ((sbox (row x2 2)).toUInt32 <<< 16) ^^^ ((sbox (row x3 3)).toUInt32 <<< 24)

/-- `lastround`, RiotAes128.c:67-71. -/
def lastRound (x k : Quad) : Quad :=
  ⟨lastColumn x.x0 x.x1 x.x2 x.x3 ^^^ k.x0, lastColumn x.x1 x.x2 x.x3 x.x0 ^^^ k.x1, lastColumn x.x2 x.x3 x.x0 x.x1 ^^^ k.x2, lastColumn x.x3 x.x0 x.x1 x.x2 ^^^ k.x3⟩

/-- A word from four bytes, as in `Pack32`, RiotAes128.c:73-84. -/
def pack (b : Bytes) (i : Nat) : UInt32 :=
  (b.getD i 0).toUInt32 ||| ((b.getD (i + 1) 0).toUInt32 <<< 8) ||| ((b.getD (i + 2) 0).toUInt32 <<< 16) ||| ((b.getD (i + 3) 0).toUInt32 <<< 24)

/-- `Pack32`, RiotAes128.c:73-84. -/
def pack32 (b : Bytes) : Quad := ⟨pack b 0, pack b 4, pack b 8, pack b 12⟩

def unpack (x : UInt32) : Bytes := [row x 0, row x 1, row x 2, row x 3]

/-- `Unpack32`, RiotAes128.c:86-100. -/
def unpack32 (q : Quad) : Bytes := unpack q.x0 ++ unpack q.x1 ++ unpack q.x2 ++ unpack q.x3

/-- `SubBytes`, RiotAes128.c:102-108. -/
def subBytes (a : UInt32) : UInt32 :=
  (sbox (row a 0)).toUInt32 ||| ((sbox (row a 1)).toUInt32 <<< 8) ||| ((sbox (row a 2)).toUInt32 <<< 16) ||| ((sbox (row a 3)).toUInt32 <<< 24)

def Quad.xor (a b : Quad) : Quad := ⟨a.x0 ^^^ b.x0, a.x1 ^^^ b.x1, a.x2 ^^^ b.x2, a.x3 ^^^ b.x3⟩

/-- The loop of `EncryptRounds`, RiotAes128.c:126-129, with the turns left and the index of the next round key; `none`: outside of the schedule. -/
def encryptLoop (key : List Quad) : Nat → Nat → Quad → Option Quad
  | 0, _, x => some x
  | n + 1, k, x => do
    let k1 ← key[k]?
    let k2 ← key[k + 1]?
    encryptLoop key n (k + 2) (round (round x k1) k2)

/-- `EncryptRounds`, RiotAes128.c:112-138. -/
def encryptRounds (key : List Quad) (x : Quad) : Option Quad := do
  let k0 ← key[0]?
  let x ← encryptLoop key 4 1 (x.xor k0)
  let k9 ← key[9]?
  let k10 ← key[10]?
  some (lastRound (round x k9) k10)

/-- The loop of `RIOT_AES128_Enable`, RiotAes128.c:146-151: the words it appends to the schedule, by fours. -/
def enableLoop : Nat → Nat → Quad → List Quad
  | 0, _, _ => []
  | n + 1, i, f =>
    let x0 := f.x0 ^^^ subBytes (rotl f.x3 24) ^^^ rconstTable.getD i 0
    let x1 := f.x1 ^^^ x0
    let x2 := f.x2 ^^^ x1
    let q : Quad := ⟨x0, x1, x2, f.x3 ^^^ x2⟩
    q :: enableLoop n (i + 1) q

/-- `RIOT_AES128_Enable`, RiotAes128.c:140-152: the schedule of 48 words. -/
def enable (key : Bytes) : List Quad := pack32 key :: enableLoop 11 0 (pack32 key)

/-- The big-endian increment, RiotAes128.c:192-198, of the last word of the counter. -/
def increment (x : UInt32) : UInt32 :=
  let b3 := row x 3 + 1
  let b2 := if b3 = 0 then row x 2 + 1 else row x 2
  let b1 := if b3 = 0 ∧ b2 = 0 then row x 1 + 1 else row x 1
  let b0 := if b3 = 0 ∧ b2 = 0 ∧ b1 = 0 then row x 0 + 1 else row x 0
  pack [b0, b1, b2, b3] 0

/-- `RIOT_AES_CTR_128`, RiotAes128.c:160-205, with the input that is left: the output and the counter. Input and output do not overlap or are the same. -/
def ctrLoop (key : List Quad) (data : Bytes) (counter : Quad) : Option (Bytes × Quad) :=
  if data.length = 0 then some ([], counter)
  else
    match encryptRounds key counter with
    | none => none
    | some t =>
      let n := min data.length 16
      match ctrLoop key (data.drop n) { counter with x3 := increment counter.x3 } with
      | none => none
      | some (out, c) => some (List.zipWith (· ^^^ ·) ((unpack32 t).take n) (data.take n) ++ out, c)
termination_by data.length
decreasing_by simp only [List.length_drop]; omega

def ctr128 (key : List Quad) (data ctr : Bytes) : Option (Bytes × Bytes) := (ctrLoop key data (pack32 ctr)).map fun r => (r.1, unpack32 r.2)

/-- `RIOT_AES_ECB_128_ENCRYPT`, RiotAes128.c:236-251; `none` also if the assertion fails. -/
def ecb (key : List Quad) (data : Bytes) : Option Bytes :=
  if data.length = 0 then some []
  else if data.length < 16 then none
  else do
    let t ← encryptRounds key (pack32 (data.take 16))
    let r ← ecb key (data.drop 16)
    some (unpack32 t ++ r)
termination_by data.length
decreasing_by simp only [List.length_drop]; omega

/-- `RiotCrypt_SymEncryptDecrypt`, RiotCrypt.c:339-359: `.error ()` for `RIOT_INVALID_PARAMETER`, otherwise the bytes written to the output and the key with its IV afterwards. The size is
converted to 32 bits. -/
def symCrypt (outSize : Nat) (data key : Bytes) : Except Unit (Option (Bytes × Bytes)) :=
  if outSize < data.length then .error ()
  else .ok ((ctr128 (enable (key.take 16)) (data.take (data.length % 2 ^ 32)) (key.drop 16)).map fun r => (r.1, key.take 16 ++ r.2))

end Verif.RiotAes
