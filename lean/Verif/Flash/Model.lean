import Verif.Common.Bytes
/-! Model of `core/flash/flash_util.c` and `core/flash/flash_updater.c` over an abstract NOR flash driver (`core/flash/flash.h`).

Every driver call can fail, and a failed write or erase may leave anything in the bytes it was to change. A write may also stop
early and report the shorter length; what is in the rest of the range is then unknown (see `SpiFlash.write_exact`). Block, sector and page sizes are not zero; `FLASH_REGION_OFFSET (x, size)` and `FLASH_REGION_BASE`
(flash_util.h, `x & (size - 1)`) are written with `%`, which is the same for the powers of two that real devices report. -/
namespace Verif.Flash

/-- Contents of the flash device, by address. -/
abbrev Mem := Nat → UInt8

/-- The behaviour of one driver call. -/
inductive Outcome
  | ok
  | short (k : Nat) (junk : Mem)  -- a write programs (at most) `k` bytes and reports it, the rest holds `junk`; other calls are not affected
  | err (junk : Mem)    -- an error is reported; the bytes that were to be changed hold `junk`

/-- A flash device. `out n` is the behaviour of the `n`-th call. -/
structure Dev where
  block : Nat
  sector : Nat
  page : Nat
  out : Nat → Outcome

/-- Contents of the flash and the number of driver calls so far. -/
structure FS where
  mem : Mem
  calls : Nat

/-- The `n` bytes at address `a`. -/
def bytesAt (m : Mem) (a n : Nat) : Bytes := (List.range n).map (fun i => m (a + i))

/-- Programming NOR flash: each byte is the and of the old and the new value. -/
def program (m : Mem) (a : Nat) (d : Bytes) : Mem := fun i =>
  if a ≤ i ∧ i < a + d.length then m i &&& d.getD (i - a) 0xff else m i

/-- `[a, a + n)` replaced by the content of `j`. -/
def overlay (m : Mem) (a n : Nat) (j : Mem) : Mem := fun i => if a ≤ i ∧ i < a + n then j i else m i

/-- `flash.read`, flash.h:  `none` is an error. -/
def read (dv : Dev) (s : FS) (a n : Nat) : Option Bytes × FS :=
  match dv.out s.calls with
  | .err _ => (none, { s with calls := s.calls + 1 })
  | _ => (some (bytesAt s.mem a n), { s with calls := s.calls + 1 })

/-- `flash.write`, flash.h: the number of bytes written or `none` for an error. -/
def write (dv : Dev) (s : FS) (a : Nat) (d : Bytes) : Option Nat × FS :=
  match dv.out s.calls with
  | .err j => (none, ⟨overlay s.mem a d.length j, s.calls + 1⟩)
  | .short k j => (some (min k d.length), ⟨overlay (program s.mem a (d.take k)) (a + k) (d.length - k) j, s.calls + 1⟩)
  | .ok => (some d.length, ⟨program s.mem a d, s.calls + 1⟩)

/-- `flash.sector_erase` or `flash.block_erase`, flash.h: erases the sector or block of size `size` that contains the address. -/
def erase (dv : Dev) (size : Nat) (s : FS) (a : Nat) : Bool × FS :=
  match dv.out s.calls with
  | .err j => (false, ⟨overlay s.mem (a - a % size) size j, s.calls + 1⟩)
  | _ => (true, ⟨overlay s.mem (a - a % size) size (fun _ => 0xff), s.calls + 1⟩)

/-- `uint32_t` arithmetic on addresses. -/
def u32 (n : Nat) : Nat := n % 2 ^ 32

inductive Status
  | ok | flash | mismatch | notBlank | unexpectedValue | incomplete | sameBlock | overlap | pageSize
  | tooLarge | outOfSpace
deriving DecidableEq, Repr

/-- The loop of `flash_erase_region_ext`, flash_util.c:553-558. -/
def eraseLoop (dv : Dev) (size : Nat) (s : FS) (a len : Nat) : Status × FS :=
  if hl : len = 0 ∨ size = 0 then (.ok, s)
  else
    match erase dv size s a with
    | (false, s) => (.flash, s)
    | (true, s) =>
      let erased := size - a % size
      have : len - (if len > erased then erased else len) < len := by
        have := Nat.mod_lt a (show 0 < size by omega)
        split <;> omega
      eraseLoop dv size s (u32 (a + erased)) (len - (if len > erased then erased else len))
termination_by len

/-- `flash_erase_region_ext`, flash_util.c:540-561, for `flash_erase_region` (`size` is the block size) and
`flash_sector_erase_region` (the sector size). `sizeCall`: `get_block_size` is also a driver call. -/
def eraseRegion (dv : Dev) (size : Nat) (s : FS) (a len : Nat) : Status × FS :=
  match dv.out s.calls with
  | .err _ => (.flash, { s with calls := s.calls + 1 })
  | _ => eraseLoop dv size { s with calls := s.calls + 1 } a len

/-- The size of the next piece: `(length > max) ? max : length`. -/
def chunk (len max : Nat) : Nat := if len > max then max else len

theorem chunk_eq (len max : Nat) : chunk len max = min len max := by unfold chunk; split <;> omega

/-- `FLASH_VERIFICATION_BLOCK`, flash_util.h:19. -/
def verifyBlock : Nat := 256

/-- `flash_check_region_for_data`, flash_util.c:621-652. `exp i` is the expected byte at offset `i`: `data[i]`, or always `*data` for
`const_byte`. -/
def checkLoop (dv : Dev) (s : FS) (a : Nat) (exp : Nat → UInt8) (len : Nat) : Status × FS :=
  if hl : len = 0 then (.ok, s)
  else
    let n := chunk len verifyBlock
    match read dv s a n with
    | (none, s) => (.flash, s)
    | (some d, s) =>
      if d = (List.range n).map exp then
        have : len - n < len := by simp only [n, chunk_eq, verifyBlock]; omega
        checkLoop dv s (u32 (a + n)) (fun i => exp (n + i)) (len - n)
      else (.mismatch, s)
termination_by len

/-- `flash_blank_check`, flash_util.c:663-669. -/
def blankCheck (dv : Dev) (s : FS) (a len : Nat) : Status × FS :=
  match checkLoop dv s a (fun _ => 0xff) len with
  | (.mismatch, s) => (.notBlank, s)
  | r => r

/-- `flash_value_check`, flash_util.c:681-686. -/
def valueCheck (dv : Dev) (s : FS) (a len : Nat) (v : UInt8) : Status × FS :=
  match checkLoop dv s a (fun _ => v) len with
  | (.mismatch, s) => (.unexpectedValue, s)
  | r => r

/-- `flash_erase_region_and_verify_ext`, flash_util.c:702-713. -/
def eraseVerify (dv : Dev) (size : Nat) (s : FS) (a len : Nat) : Status × FS :=
  match eraseRegion dv size s a len with
  | (.ok, s) => blankCheck dv s a len
  | r => r

/-- The erase function passed around by flash_util.c: `NULL`, `flash_erase_region` or `flash_sector_erase_region`. -/
inductive EraseFn | none | block | sector
deriving DecidableEq, Repr

/-- The size of what is erased; 1 if nothing is. -/
def EraseFn.size (dv : Dev) : EraseFn → Nat
  | .none => 1
  | .block => dv.block
  | .sector => dv.sector

/-- The write and the check of its result, flash_util.c:779-787. -/
def writeAll (dv : Dev) (s : FS) (a : Nat) (d : Bytes) : Status × FS :=
  match write dv s a d with
  | (Option.none, s) => (.flash, s)
  | (some n, s) => (if n ≠ d.length then .incomplete else .ok, s)

/-- `flash_program_data_ext`, flash_util.c:763-790. -/
def programData (dv : Dev) (er : EraseFn) (s : FS) (a : Nat) (d : Bytes) : Status × FS :=
  if er = .none then writeAll dv s a d
  else
    match eraseRegion dv (er.size dv) s a d.length with
    | (.ok, s) => writeAll dv s a d
    | r => r

/-- `flash_verify_data`, flash_util.c:836-844. -/
def verifyData (dv : Dev) (s : FS) (a : Nat) (d : Bytes) : Status × FS := checkLoop dv s a (fun i => d.getD i 0) d.length

/-- `flash_program_and_verify_ext`, flash_util.c:859-870. With `.none` it is `flash_write_and_verify` (927-931). -/
def programVerify (dv : Dev) (er : EraseFn) (s : FS) (a : Nat) (d : Bytes) : Status × FS :=
  match programData dv er s a d with
  | (.ok, s) => verifyData dv s a d
  | r => r

/-- `flash_check_copy_region`, flash_util.c:943-972. `erase_mask & x` is the start of the block of `x`. -/
def checkCopyRegion (dest src len block : Nat) : Status :=
  if src - src % block = dest - dest % block then .sameBlock
  else if src > dest then
    let e := u32 (dest + len + (2 ^ 32 - 1))
    if e ≥ src then .overlap
    else if e - e % block = src - src % block then .sameBlock
    else .ok
  else
    let e := u32 (src + len + (2 ^ 32 - 1))
    if e ≥ dest then .overlap
    else if e - e % block = dest - dest % block then .sameBlock
    else .ok

/-- Where the source of a copy is: the same device, or another one with content `m` (not changed by the copy). -/
inductive Source | same | other (m : Mem)

/-- The content of the source device. -/
def Source.mem (s : FS) : Source → Mem
  | .same => s.mem
  | .other m => m

/-- `src_flash->read`. Calls of both devices are numbered together. -/
def readSource (dv : Dev) (src : Source) (s : FS) (a n : Nat) : Option Bytes × FS :=
  match dv.out s.calls with
  | .err _ => (Option.none, { s with calls := s.calls + 1 })
  | _ => (some (bytesAt (src.mem s) a n), { s with calls := s.calls + 1 })

/-- `flash_check_region_for_data` if verification is requested, flash_util.c:1013-1019. -/
def verifyIf (dv : Dev) (verify : Bool) (s : FS) (a : Nat) (d : Bytes) : Status × FS :=
  if verify then verifyData dv s a d else (.ok, s)

/-- The loop of `flash_copy_data_to_blank_region`, flash_util.c:1004-1031. -/
def copyLoop (dv : Dev) (src : Source) (verify : Bool) (s : FS) (da sa len off : Nat) : Status × FS :=
  if hl : len = 0 ∨ dv.page ≤ off then (.ok, s)
  else
    let n := chunk len (dv.page - off)
    match readSource dv src s sa n with
    | (Option.none, s) => (.flash, s)
    | (some d, s) =>
      match writeAll dv s da d with
      | (.ok, s) =>
        match verifyIf dv verify s da d with
        | (.ok, s) =>
          have : len - n < len := by simp only [n, chunk_eq]; omega
          copyLoop dv src verify s (u32 (da + n)) (u32 (sa + n)) (len - n) 0
        | r => r
      | r => r
termination_by len

/-- `FLASH_MAX_COPY_BLOCK`, flash_util.h:24. -/
def maxCopyBlock : Nat := 512

/-- flash_util.c:1089-1094. -/
def eraseFor (dv : Dev) (er : EraseFn) (s : FS) (a len : Nat) : Status × FS :=
  if er = .none then (.ok, s) else eraseVerify dv (er.size dv) s a len

/-- flash_util.c:1096-1106. `get_page_size` is a driver call. -/
def copyPages (dv : Dev) (src : Source) (verify : Bool) (s : FS) (da sa len : Nat) : Status × FS :=
  match dv.out s.calls with
  | .err _ => (.flash, { s with calls := s.calls + 1 })
  | _ =>
    if dv.page > maxCopyBlock then (.pageSize, { s with calls := s.calls + 1 })
    else copyLoop dv src verify { s with calls := s.calls + 1 } da sa len (da % dv.page)

/-- The block size used for the overlap check: `flash_copy_data_region` (1128-1138) passes `get_block_size` also for a copy to blank
flash, `flash_sector_copy_data_region` (1156-1165) passes `get_sector_size`. -/
def EraseFn.checkSize (dv : Dev) : EraseFn → Nat
  | .sector => dv.sector
  | _ => dv.block

/-- The check at flash_util.c:1075-1087. -/
def checkSame (dv : Dev) (er : EraseFn) (src : Source) (s : FS) (da sa len : Nat) : Status × FS :=
  match src with
  | .other _ => (.ok, s)
  | .same =>
    match dv.out s.calls with
    | .err _ => (.flash, { s with calls := s.calls + 1 })
    | _ => (checkCopyRegion da sa len (er.checkSize dv), { s with calls := s.calls + 1 })

/-- `flash_copy_data_region_ext`, flash_util.c:1059-1107, behind `flash_copy`, `flash_sector_copy`, `flash_copy_and_verify`,
`flash_copy_to_blank`, `flash_copy_ext` and their variants. -/
def copyRegion (dv : Dev) (er : EraseFn) (src : Source) (verify : Bool) (s : FS) (da sa len : Nat) : Status × FS :=
  if len = 0 then (.ok, s)
  else
    match checkSame dv er src s da sa len with
    | (.ok, s) =>
      match eraseFor dv er s da len with
      | (.ok, s) => copyPages dv src verify s da sa len
      | r => r
    | r => r

/-- `flash_verify_copy_ext`, flash_util.c:1363-1388. The second device is the one of the state. -/
def verifyCopy (dv : Dev) (src : Source) (s : FS) (a1 a2 len : Nat) : Status × FS :=
  if hl : len = 0 then (.ok, s)
  else
    let n := chunk len verifyBlock
    match readSource dv src s a1 n with
    | (Option.none, s) => (.flash, s)
    | (some d, s) =>
      match verifyData dv s a2 d with
      | (.ok, s) =>
        have : len - n < len := by simp only [n, chunk_eq, verifyBlock]; omega
        verifyCopy dv src s (u32 (a1 + n)) (u32 (a2 + n)) (len - n)
      | r => r
termination_by len

/-- The inner loop of `flash_hash_update_noncontiguous_contents_at_offset`, flash_util.c:505-521 (`(remaining < block) ? remaining : block` is the same `chunk`). `acc` is what the hash engine has
been given so far; `fail n` whether the hash update made after `n` driver calls fails. -/
def hashLoop (dv : Dev) (fail : Nat → Bool) (s : FS) (acc : Bytes) (a len : Nat) : Status × Bytes × FS :=
  if hl : len = 0 then (.ok, acc, s)
  else
    let n := chunk len verifyBlock
    match read dv s a n with
    | (Option.none, s) => (.flash, acc, s)
    | (some d, s) =>
      if fail s.calls then (.flash, acc, s)
      else
        have : len - n < len := by simp only [n, chunk_eq, verifyBlock]; omega
        hashLoop dv fail s (acc ++ d) (u32 (a + n)) (len - n)
termination_by len

/-- `flash_hash_update_noncontiguous_contents_at_offset`, flash_util.c:487-525, from the first region on; each region is a start
address and a length. -/
def hashRegions (dv : Dev) (fail : Nat → Bool) (off : Nat) : FS → Bytes → List (Nat × Nat) → Status × Bytes × FS
  | s, acc, [] => (.ok, acc, s)
  | s, acc, (a, len) :: rs =>
    match hashLoop dv fail s acc (u32 (a + off)) len with
    | (.ok, acc, s) => hashRegions dv fail off s acc rs
    | r => r

/-! ### `flash_updater.c` -/

/-- `struct flash_updater`. `update_size` is read as an `int` (`flash_updater_get_remaining_bytes`), so it is an integer here. -/
structure Updater where
  base : Nat
  maxSize : Nat
  eraseSize : Nat
  updateSize : Int := 0
  writeOffset : Nat := 0
deriving DecidableEq, Repr

/-- `flash_updater_apply_update_offset`, flash_updater.c:95-101. `w` is the width of `size_t`. -/
def applyOffset (w : Nat) (u : Updater) (off : Nat) : Updater :=
  { u with base := u32 (u.base + off), maxSize := (u.maxSize + (2 ^ w - off)) % 2 ^ w }

/-- `flash_updater_check_update_size`, flash_updater.c:111-124. -/
def checkUpdateSize (u : Updater) (total : Nat) : Status := if total > u.maxSize then .tooLarge else .ok

/-- The erase in `flash_updater_prepare_update_flash`, flash_updater.c:144-149. -/
def updaterErase (dv : Dev) (u : Updater) (s : FS) (len : Nat) : Status × FS :=
  if len ≠ 0 then eraseVerify dv u.eraseSize s u.base len else (.ok, s)

/-- `flash_updater_prepare_update_flash`, flash_updater.c:135-155. -/
def prepare (dv : Dev) (u : Updater) (s : FS) (len eraseLen : Nat) : Status × Updater × FS :=
  if len > u.maxSize then (.tooLarge, u, s)
  else
    match updaterErase dv u s eraseLen with
    | (.ok, s) => (.ok, { u with updateSize := len, writeOffset := 0 }, s)
    | (st, s) => (st, u, s)

/-- `flash_updater_write_update_data`, flash_updater.c:207-230. The sum in the bound check is a `size_t`. -/
def writeUpdate (w : Nat) (dv : Dev) (u : Updater) (s : FS) (d : Bytes) : Status × Updater × FS :=
  if (u.writeOffset + d.length) % 2 ^ w > u.maxSize then (.outOfSpace, u, s)
  else
    match write dv s (u32 (u.base + u.writeOffset)) d with
    | (Option.none, s) => (.flash, u, s)
    | (some n, s) =>
      (if n = d.length then .ok else .incomplete,
        { u with updateSize := u.updateSize - n, writeOffset := (u.writeOffset + n) % 2 ^ w }, s)

end Verif.Flash
