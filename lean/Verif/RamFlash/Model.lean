import Verif.RamFlash.Spec
/-!
Model of `core/flash/flash_virtual_ram.c`. The buffer given to `flash_virtual_ram_init` is a list of as many bytes as
`size` says. The lock is not modelled: every function holds it while it uses the buffer. NULL arguments are not modelled.
-/
namespace Verif.RamFlash
open Verif

/-- Outcome: a value, or an access outside the buffer. -/
inductive Out (α : Type) where
  | ok (a : α)
  | oob
deriving DecidableEq, Repr

/-- Return codes: `FLASH_INVALID_ARGUMENT`, `FLASH_ADDRESS_OUT_OF_RANGE`, and any other. -/
inductive Ret where
  | invalidArgument
  | outOfRange
  | value (v : Int)
deriving DecidableEq, Repr

/-- Conversion of a `size_t` to the `int` that is returned: two's complement, 32 bits. -/
def toInt (n : Nat) : Int := if n % 2 ^ 32 < 2 ^ 31 then (n % 2 ^ 32 : Nat) else (n % 2 ^ 32 : Nat) - 2 ^ 32

/-- `VIRTUAL_FLASH_BLOCK_SIZE`, flash_virtual_ram.h:18. -/
def blockSize : Nat := 256

/-- `flash_virtual_ram_init_state`, flash_virtual_ram.c:164-174, and the end of `flash_virtual_ram_init`, lines 127-152:
the mutex is assumed to be created. -/
def init (size : Nat) : Ret := if size = 0 then .invalidArgument else .value 0

/-- `flash_virtual_ram_get_device_size`, flash_virtual_ram.c:9-20: a `size_t` assigned to a `uint32_t`. -/
def deviceSize (buf : Bytes) : Nat := buf.length % 2 ^ 32

/-- `memcpy` out of the buffer. -/
def copyOut (buf : Bytes) (a n : Nat) : Out Bytes := if a + n ≤ buf.length then .ok ((buf.drop a).take n) else .oob

/-- `memcpy` or `memset` into the buffer. -/
def copyIn (buf : Bytes) (a : Nat) (d : Bytes) : Out Bytes :=
  if a + d.length ≤ buf.length then .ok (buf.take a ++ d ++ buf.drop (a + d.length)) else .oob

/-- `flash_virtual_ram_read`, flash_virtual_ram.c:22-42. -/
def read (buf : Bytes) (a n : Nat) : Out (Ret × Bytes) :=
  if a ≥ buf.length ∨ n > buf.length - a then .ok (.outOfRange, [])
  else match copyOut buf a n with
    | .ok d => .ok (.value 0, d)
    | .oob => .oob

/-- `flash_virtual_ram_write`, flash_virtual_ram.c:55-75. -/
def write (buf : Bytes) (a : Nat) (d : Bytes) : Out (Ret × Bytes) :=
  if a ≥ buf.length ∨ d.length > buf.length - a then .ok (.outOfRange, buf)
  else match copyIn buf a d with
    | .ok b => .ok (.value (toInt d.length), b)
    | .oob => .oob

/-- `FLASH_REGION_BASE`, flash.h:12-13: the address with the bits below the block size cleared, 32 bits. -/
def regionBase (a : Nat) : Nat := a &&& (2 ^ 32 - 1 - (blockSize - 1))

/-- `flash_virtual_ram_block_erase`, flash_virtual_ram.c:77-98. -/
def blockErase (buf : Bytes) (a : Nat) : Out (Ret × Bytes) :=
  if a ≥ buf.length then .ok (.outOfRange, buf)
  else match copyIn buf (regionBase a) (List.replicate blockSize 0xff) with
    | .ok b => .ok (.value 0, b)
    | .oob => .oob

/-- `flash_virtual_ram_chip_erase`, flash_virtual_ram.c:100-115. -/
def chipErase (buf : Bytes) : Out (Ret × Bytes) :=
  match copyIn buf 0 (List.replicate buf.length 0xff) with
  | .ok b => .ok (.value 0, b)
  | .oob => .oob

/-- What a caller sees of a return code and the data. -/
def answerOf (r : Ret) (a : Spec.Answer) : Spec.Answer :=
  match r with
  | .value _ => a
  | _ => .outOfRange

/-- One call of the flash interface, assigned in flash_virtual_ram.c:136-145 (sector and block erase are the same function):
the buffer afterwards and what the caller is told. -/
def step (buf : Bytes) : Spec.Op → Out (Bytes × Spec.Answer)
  | .read a n => match read buf a n with
    | .ok (r, d) => .ok (buf, answerOf r (.data d))
    | .oob => .oob
  | .write a d => match write buf a d with
    | .ok (.value v, b) => .ok (b, .wrote v)
    | .ok (_, b) => .ok (b, .outOfRange)
    | .oob => .oob
  | .erase a => match blockErase buf a with
    | .ok (r, b) => .ok (b, answerOf r .done)
    | .oob => .oob
  | .eraseAll => match chipErase buf with
    | .ok (r, b) => .ok (b, answerOf r .done)
    | .oob => .oob

/-- A history of calls. -/
def run : Bytes → List Spec.Op → Out (Bytes × List Spec.Answer)
  | buf, [] => .ok (buf, [])
  | buf, o :: os => match step buf o with
    | .oob => .oob
    | .ok (b, a) => match run b os with
      | .oob => .oob
      | .ok (b', as) => .ok (b', a :: as)

end Verif.RamFlash
