import Verif.Mmio.Spec
import Verif.Common.Res
/-!
Model of `core/mmio/mmio_register_block.c` and the block copies of `core/mmio/mmio_util.c`.

The implementation of the interface (`read32`, `write32`, `get_physical_address`) is a device of the platform: registers at aligned offsets below
the size of the block, which may fail. Null arguments are not modelled.
-/
namespace Verif.Mmio
open Verif

/-- Errors, mmio_register_block.h:220-242. -/
inductive Err
  | bitOutOfRange
  | bitMaskOutOfRange
  | device
deriving DecidableEq, Repr

/-- A block of registers: physical address, number of bytes, contents by offset. -/
structure Dev where
  base : Nat
  size : Nat
  regs : Nat → BitVec 32

/-- Which accesses of the device fail. -/
structure Fault where
  read : Bool := false
  write : Bool := false
  addr : Bool := false

/-- `read32` of the device. -/
def read32 (f : Fault) (d : Dev) (off : Nat) : Res Err (BitVec 32) :=
  if off % 4 = 0 ∧ off < d.size ∧ f.read = false then .ok (d.regs off) else .err .device

/-- `write32` of the device. -/
def write32 (f : Fault) (d : Dev) (off : Nat) (v : BitVec 32) : Res Err Dev :=
  if off % 4 = 0 ∧ off < d.size ∧ f.write = false then .ok { d with regs := fun o => if o = off then v else d.regs o } else .err .device

/-- The checks of a field, mmio_register_block.c:119-125 and 166-172; both are `uint8_t`. -/
def checkField (pos n : Nat) : Res Err Unit :=
  if pos > 31 then .err .bitOutOfRange
  else if n > 32 ∨ pos + n > 32 then .err .bitMaskOutOfRange
  else .ok ()

/-- `0xffffffff >> (32 - bit_count)`; a shift by 32 is undefined (`oob`). -/
def lowMask (n : Nat) : Res Err (BitVec 32) := if 32 - n ≥ 32 then .oob else .ok (0xffffffff#32 >>> (32 - n))

/-- `mmio_register_block_read_bits`, mmio_register_block.c:108-136. -/
def readBits (f : Fault) (d : Dev) (off pos n : Nat) : Res Err (BitVec 32) :=
  Res.bind (checkField pos n) fun _ =>
  Res.bind (read32 f d off) fun r =>
  Res.bind (lowMask n) fun mask => .ok (r >>> pos &&& mask)

/-- The value that `mmio_register_block_write_bits` writes, mmio_register_block.c:179-180. -/
def merge (r : BitVec 32) (pos n : Nat) (v : BitVec 32) : Res Err (BitVec 32) :=
  Res.bind (lowMask n) fun m =>
    let mask := m <<< pos
    .ok (r &&& ~~~mask ||| (v <<< pos &&& mask))

/-- `mmio_register_block_write_bits`, mmio_register_block.c:155-183. -/
def writeBits (f : Fault) (d : Dev) (off pos n : Nat) (v : BitVec 32) : Res Err Dev :=
  Res.bind (checkField pos n) fun _ =>
  Res.bind (read32 f d off) fun r =>
  Res.bind (merge r pos n v) fun x => write32 f d off x

/-- `mmio_register_block_read_bit`, mmio_register_block.c:19-35. -/
def readBit (f : Fault) (d : Dev) (off pos : Nat) : Res Err Bool :=
  Res.bind (readBits f d off pos 1) fun x => .ok (x != 0#32)

/-- `mmio_register_block_write_bit`, mmio_register_block.c:50-55. -/
def writeBit (f : Fault) (d : Dev) (off pos : Nat) (v : Bool) : Res Err Dev := writeBits f d off pos 1 (if v then 1#32 else 0#32)

/-- `mmio_register_block_set_bit`, mmio_register_block.c:68-72. -/
def setBit (f : Fault) (d : Dev) (off pos : Nat) : Res Err Dev := writeBits f d off pos 1 1#32

/-- `mmio_register_block_clear_bit`, mmio_register_block.c:86-90. -/
def clearBit (f : Fault) (d : Dev) (off pos : Nat) : Res Err Dev := writeBits f d off pos 1 0#32

/-- A request; the new block and the result. -/
def step (f : Fault) (d : Dev) : Spec.Op → Res Err (Nat × Dev)
  | .readBits off pos n => Res.bind (readBits f d off pos n) fun x => .ok (x.toNat, d)
  | .writeBits off pos n v => Res.bind (writeBits f d off pos n (BitVec.ofNat 32 v)) fun d => .ok (0, d)
  | .readBit off pos => Res.bind (readBit f d off pos) fun x => .ok (if x then 1 else 0, d)
  | .writeBit off pos v => Res.bind (writeBit f d off pos v) fun d => .ok (0, d)
  | .setBit off pos => Res.bind (setBit f d off pos) fun d => .ok (0, d)
  | .clearBit off pos => Res.bind (clearBit f d off pos) fun d => .ok (0, d)

/-- A sequence of requests; those with an error change nothing. -/
def run (d : Dev) : List (Fault × Spec.Op) → List (Res Err Nat) × Dev
  | [] => ([], d)
  | (f, o) :: os =>
    match step f d o with
    | .ok (r, d') => (.ok r :: (run d' os).1, (run d' os).2)
    | .err e => (.err e :: (run d os).1, (run d os).2)
    | .oob => (.oob :: (run d os).1, (run d os).2)

/-- The offset of `mmio_register_block_*_by_addr`, mmio_register_block.c:298-304 and 334-340: the difference in 64 bits, passed as a
`uintptr_t` of `w` bits. -/
def addrOffset (w : Nat) (d : Dev) (addr : Nat) : Nat := ((addr + 2 ^ 64 - d.base) % 2 ^ 64) % 2 ^ w

/-- `mmio_register_block_read_bits_by_addr`, mmio_register_block.c:288-305. -/
def readBitsByAddr (w : Nat) (f : Fault) (d : Dev) (addr pos n : Nat) : Res Err (BitVec 32) :=
  if f.addr then .err .device else readBits f d (addrOffset w d addr) pos n

/-- `mmio_register_block_write_bits_by_addr`, mmio_register_block.c:324-341. -/
def writeBitsByAddr (w : Nat) (f : Fault) (d : Dev) (addr pos n : Nat) (v : BitVec 32) : Res Err Dev :=
  if f.addr then .err .device else writeBits f d (addrOffset w d addr) pos n v

/-- `mmio_register_block_read_bit_by_addr`, mmio_register_block.c:197-215. -/
def readBitByAddr (w : Nat) (f : Fault) (d : Dev) (addr pos : Nat) : Res Err Bool :=
  Res.bind (readBitsByAddr w f d addr pos 1) fun x => .ok (x != 0#32)

/-- `mmio_register_block_write_bit_by_addr` and the variants to set and to clear, mmio_register_block.c:230-270. -/
def writeBitByAddr (w : Nat) (f : Fault) (d : Dev) (addr pos : Nat) (v : Bool) : Res Err Dev :=
  writeBitsByAddr w f d addr pos 1 (if v then 1#32 else 0#32)

/-- The loop of `mmio_register_block_read32`, mmio_util.c:40-48; the registers are at offsets `4 * i`. -/
def blockRead (regs : Nat → BitVec 32) : Nat → Nat → List (BitVec 32)
  | _, 0 => []
  | src, n + 1 => regs src :: blockRead regs (src + 4) n

/-- The loop of `mmio_register_block_write32`, mmio_util.c:58-66. -/
def blockWrite (regs : Nat → BitVec 32) : Nat → List (BitVec 32) → Nat → BitVec 32
  | _, [] => regs
  | dst, v :: vs => blockWrite (fun o => if o = dst then v else regs o) (dst + 4) vs

end Verif.Mmio
