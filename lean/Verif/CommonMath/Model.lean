import Verif.Common.Bytes
/-! Model of `core/common/common_math.c`. -/
namespace Verif.CommonMath

/-- Return codes of `common_math.c` (`common_math.h`), `0` is `ok`. -/
inductive Status | ok | invalidArgument | outOfRange | boundaryReached
deriving DecidableEq, Repr

/-- `common_math_swap_bytes_uint16`, common_math.c:18-21. -/
def swap16 (d : UInt16) : UInt16 := ((d >>> 8) &&& (0xff : UInt16)) ||| ((d &&& (0xff : UInt16)) <<< (8 : UInt16))

/-- `common_math_swap_bytes_uint32`, common_math.c:30-34. -/
def swap32 (d : UInt32) : UInt32 :=
  (swap16 ((d >>> 16) &&& (0xffff : UInt32)).toUInt16).toUInt32 |||
    ((swap16 (d &&& (0xffff : UInt32)).toUInt16).toUInt32 <<< 16)

/-- `common_math_swap_bytes_uint64`, common_math.c:43-47. -/
def swap64 (d : UInt64) : UInt64 :=
  (swap32 ((d >>> 32) &&& (0xffffffff : UInt64)).toUInt32).toUInt64 |||
    ((swap32 (d &&& (0xffffffff : UInt64)).toUInt32).toUInt64 <<< 32)

/-- The loop of `common_math_count_set_bits`, common_math.c:58-75. `fuel` bounds the loop, which ends
when `byte` was shifted to zero: 8 iterations suffice for a byte. -/
def countLoop : (fuel : Nat) → (byte : UInt8) → (stop : Int) → (numBits : Nat) → Nat
  | 0, _, _, n => n
  | fuel + 1, byte, stop, n =>
    if byte ≠ 0 ∧ stop ≠ 0 then
      let n' := if byte &&& 1 ≠ 0 then n + 1 else n
      let stop' := if byte &&& 1 ≠ 0 then stop else if stop < 0 then 1 else stop
      countLoop fuel (byte >>> 1) (stop' - 1) n'
    else n

/-- `common_math_count_set_bits`, common_math.c:58-75. -/
def countSetBits (byte : UInt8) (stop : Int) : Nat := countLoop 9 byte stop 0

/-- `common_math_get_num_bits_set`, common_math.c:84-87. -/
def numBitsSet (byte : UInt8) : Nat := countSetBits byte 8

/-- `common_math_get_num_bits_set_before_index`, common_math.c:99-102. -/
def numBitsSetBeforeIndex (byte : UInt8) (index : UInt8) : Nat := countSetBits byte index.toNat

/-- `common_math_get_num_bits_set_in_array`, common_math.c:113-127 (non-NULL). -/
def numBitsSetInArray (bytes : Bytes) : Nat :=
  bytes.foldl (fun bits b => bits + countSetBits b 8) 0

/-- `common_math_get_num_contiguous_bits_set`, common_math.c:137-140. -/
def numContiguous (byte : UInt8) : Nat := countSetBits byte (-1)

/-- The loop at common_math.c:161-164. -/
def contiguousLoop : Bytes → (bits total : Nat) → Nat
  | [], _, total => total
  | b :: bs, bits, total =>
    if bits = 8 then
      contiguousLoop bs (countSetBits b (-1)) (total + countSetBits b (-1))
    else total

/-- `common_math_get_num_contiguous_bits_set_in_array`, common_math.c:151-167 (non-NULL). -/
def numContiguousInArray (bytes : Bytes) : Nat := contiguousLoop bytes 8 0

/-- The loop at common_math.c:188-190: returns the array and the index where it stopped. -/
def incLoop : (bytes : Bytes) → (index : Nat) → Bytes × Nat
  | bytes, 0 => (bytes, 0)
  | bytes, i + 1 =>
    if bytes.getD (i + 1) 0 = 0xff then incLoop (bytes.set (i + 1) 0) i else (bytes, i + 1)

/-- `common_math_increment_byte_array`, common_math.c:179-207. -/
def increment (bytes : Bytes) (allowRollover : Bool) : Status × Bytes :=
  if bytes.length = 0 then (.invalidArgument, bytes)
  else
    let (b, index) := incLoop bytes (bytes.length - 1)
    if index = 0 ∧ b.getD 0 0 = 0xff then
      if allowRollover then (.ok, b.set 0 0)
      else (.boundaryReached, List.replicate bytes.length 0xff)
    else (.ok, b.set index (b.getD index 0 + 1))

/-- The loop at common_math.c:227-229. -/
def decLoop : (bytes : Bytes) → (index : Nat) → Bytes × Nat
  | bytes, 0 => (bytes, 0)
  | bytes, i + 1 =>
    if bytes.getD (i + 1) 0 = 0 then decLoop (bytes.set (i + 1) 0xff) i else (bytes, i + 1)

/-- `common_math_decrement_byte_array`, common_math.c:218-246. -/
def decrement (bytes : Bytes) (allowRollover : Bool) : Status × Bytes :=
  if bytes.length = 0 then (.invalidArgument, bytes)
  else
    let (b, index) := decLoop bytes (bytes.length - 1)
    if index = 0 ∧ b.getD 0 0 = 0 then
      if allowRollover then (.ok, b.set 0 0xff)
      else (.boundaryReached, List.replicate bytes.length 0)
    else (.ok, b.set index (b.getD index 0 - 1))

/-- `common_math_is_array_zero`, common_math.c:336-350. -/
def isArrayZero (bytes : Bytes) : Bool :=
  if bytes.length = 0 then false
  else bytes.foldl (fun z b => z && (b == 0)) true

/-- The comparison loop at common_math.c:317-322. `(result & ~mask) | (diff & mask)` with a mask that
is all ones exactly if `result == 0` is the conditional below. -/
def compareLoop : Bytes → Bytes → (result : Int) → Int
  | a :: as, b :: bs, result =>
    compareLoop as bs (if result = 0 then (a.toNat : Int) - b.toNat else result)
  | _, _, result => result

/-- `common_math_compare_array`, common_math.c:261-325. NULL and empty arrays are the empty list. -/
def compareArray (bytes1 bytes2 : Bytes) : Int :=
  if bytes1 = [] ∧ bytes2 = [] then 0
  else if bytes1 = [] then -1
  else if bytes2 = [] then 1
  else if bytes1.length > bytes2.length then
    let diff := bytes1.length - bytes2.length
    if isArrayZero (bytes1.take diff) then compareLoop (bytes1.drop diff) bytes2 0 else 1
  else if bytes1.length < bytes2.length then
    let diff := bytes2.length - bytes1.length
    if isArrayZero (bytes2.take diff) then compareLoop bytes1 (bytes2.drop diff) 0 else -1
  else compareLoop bytes1 bytes2 0

/-- `common_math_is_bit_set_in_array`, common_math.c:390-402, with
`common_math_get_bit_mask_in_array`, common_math.c:363-378. `none` is `OUT_OF_RANGE`. -/
def isBitSet (bytes : Bytes) (bit : Nat) : Option Bool :=
  if bit / 8 ≥ bytes.length then none
  else some (bytes.getD (bit / 8) 0 &&& UInt8.ofNat (1 <<< (bit % 8)) != 0)

/-- `common_math_set_bit_in_array`, common_math.c:414-428. -/
def setBit (bytes : Bytes) (bit : Nat) : Status × Bytes :=
  if bit / 8 ≥ bytes.length then (.outOfRange, bytes)
  else (.ok, bytes.set (bit / 8) (bytes.getD (bit / 8) 0 ||| UInt8.ofNat (1 <<< (bit % 8))))

/-- `common_math_clear_bit_in_array`, common_math.c:440-454. -/
def clearBit (bytes : Bytes) (bit : Nat) : Status × Bytes :=
  if bit / 8 ≥ bytes.length then (.outOfRange, bytes)
  else (.ok, bytes.set (bit / 8) (bytes.getD (bit / 8) 0 &&& ~~~ (UInt8.ofNat (1 <<< (bit % 8)))))

/-- `common_math_set_next_bit_in_array`, common_math.c:465-477. -/
def setNextBit (bytes : Bytes) : Status × Bytes := setBit bytes (numContiguousInArray bytes)

/-- The loop of `common_math_set_contiguous_bits_to_count`, common_math.c:499-506; `fuel` bounds the
number of bits that can still be set. -/
def toCountLoop : (fuel : Nat) → (bytes : Bytes) → (even : Nat) → Status × Bytes
  | 0, bytes, _ => (.ok, bytes)
  | fuel + 1, bytes, even =>
    if numContiguousInArray bytes % 2 = even then
      match setBit bytes (numContiguousInArray bytes) with
      | (.outOfRange, b) => (.outOfRange, b)
      | (_, b) => toCountLoop fuel b even
    else (.ok, bytes)

/-- `common_math_set_next_bit_in_array_even_count`, common_math.c:489-523. The loop runs at most once
per bit of the array, plus the failing iteration. -/
def setNextBitEvenCount (bytes : Bytes) : Status × Bytes := toCountLoop (8 * bytes.length + 1) bytes 1

/-- `common_math_set_next_bit_in_array_odd_count`, common_math.c:534-537. -/
def setNextBitOddCount (bytes : Bytes) : Status × Bytes := toCountLoop (8 * bytes.length + 1) bytes 0

/-- `(lo << (8 - s)) | (hi >> s)` as C computes it: operands promoted to `int`, result truncated to a
byte (common_math.c:573). -/
def shrByte (s : Nat) (prev cur : UInt8) : UInt8 :=
  UInt8.ofNat ((prev.toNat <<< (8 - s)) ||| (cur.toNat >>> s))

/-- The loop at common_math.c:572-574, `i` counting down to `stop` (exclusive). -/
def shrLoop (s stop : Nat) : (i : Nat) → Bytes → Bytes
  | 0, l => l
  | i + 1, l =>
    if i + 1 > stop then shrLoop s stop i (l.set (i + 1) (shrByte s (l.getD i 0) (l.getD (i + 1) 0)))
    else l

/-- `common_math_right_shift_array`, common_math.c:547-578. -/
def rightShift (bytes : Bytes) (shiftBits : Nat) : Bytes :=
  if bytes.length = 0 ∨ shiftBits = 0 then bytes
  else
    let shiftBytes := shiftBits / 8
    let s := shiftBits % 8
    if shiftBytes ≥ bytes.length then List.replicate bytes.length 0
    else
      let moved := List.replicate shiftBytes 0 ++ bytes.take (bytes.length - shiftBytes)
      let l := shrLoop s shiftBytes (bytes.length - 1) moved
      l.set shiftBytes (UInt8.ofNat ((l.getD shiftBytes 0).toNat >>> s))

/-- `(cur << s) | (next >> (8 - s))` truncated to a byte (common_math.c:615). -/
def shlByte (s : Nat) (cur next : UInt8) : UInt8 :=
  UInt8.ofNat ((cur.toNat <<< s) ||| (next.toNat >>> (8 - s)))

/-- The loop at common_math.c:614-616 from index `i`, `n` iterations left. -/
def shlLoop (s : Nat) : (n : Nat) → (i : Nat) → Bytes → Bytes
  | 0, _, l => l
  | n + 1, i, l => shlLoop s n (i + 1) (l.set i (shlByte s (l.getD i 0) (l.getD (i + 1) 0)))

/-- `common_math_left_shift_array`, common_math.c:588-620. -/
def leftShift (bytes : Bytes) (shiftBits : Nat) : Bytes :=
  if bytes.length = 0 ∨ shiftBits = 0 then bytes
  else
    let shiftBytes := shiftBits / 8
    let s := shiftBits % 8
    if shiftBytes ≥ bytes.length then List.replicate bytes.length 0
    else
      let length := bytes.length - shiftBytes
      let moved := bytes.drop shiftBytes ++ List.replicate shiftBytes 0
      let l := shlLoop s (length - 1) 0 moved
      l.set (length - 1) (UInt8.ofNat ((l.getD (length - 1) 0).toNat <<< s))

/-- `common_math_saturating_increment_u8`, common_math.c:629-632. -/
def satInc8 (v : UInt8) : UInt8 := if v = 0xff then 0xff else v + 1
/-- `common_math_saturating_increment_u16`, common_math.c:641-644. -/
def satInc16 (v : UInt16) : UInt16 := if v = 0xffff then 0xffff else v + 1
/-- `common_math_saturating_increment_u32`, common_math.c:653-656. -/
def satInc32 (v : UInt32) : UInt32 := if v = 0xffffffff then 0xffffffff else v + 1

end Verif.CommonMath
