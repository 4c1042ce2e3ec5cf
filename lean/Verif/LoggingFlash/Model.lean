import Verif.Common.Bytes
/-! Model of the log kept in flash (core/logging/logging_flash.c).

The log area is a block of 16 sectors of 4096 bytes; addresses are relative to its beginning, which
is aligned (361-363) and not at the very end of the address space.  Programming flash clears bits.
Locks are not modelled: each operation runs with the lock held from start to end. -/
namespace Verif.LoggingFlash

/-- `sizeof (struct logging_entry_header)` (logging.h:34-38, packed). -/
def hdrLen : Nat := 7
/-- `FLASH_SECTOR_SIZE`, also the size of the entry buffer (logging_flash.h:29). -/
def secLen : Nat := 4096
/-- `LOGGING_FLASH_SECTORS` (logging_flash.h:21). -/
def sectors : Nat := 16

/-- Errors: from the flash, incomplete flush, bad entry length. -/
inductive Err
  | flash | incomplete | badLength
deriving DecidableEq, Repr

/-- `struct logging_flash_state` (logging_flash.h:27-37) and the flash.  `buf` is the part of the
entry buffer before `next_write`.  `write_remain` does not become negative, because it is compared
before it is decreased. -/
structure St where
  flash : Nat → Bytes
  buf : Bytes := []
  remain : Nat := secLen
  terminated : Bool := false
  nextId : Nat := 0
  used : Nat → Nat := fun _ => 0
  addr : Nat := 0
  start : Nat := 0

/-- Behaviour of the flash in an operation: whether an erase works (if not, it has no effect), the
result of a write (`none` is an error), and the number of bytes that were programmed, which can be
more than the result says. -/
structure Io where
  erase : Bool := true
  write : Option Nat
  programmed : Nat

/-- Program bytes at an offset of a sector. -/
def program (sec : Bytes) (off : Nat) (data : Bytes) : Bytes :=
  sec.take off ++ (List.zipWith (· &&& ·) ((sec.drop off).take data.length) data) ++ sec.drop (off + data.length)

/-- Change one element of a function. -/
def set (f : Nat → α) (i : Nat) (v : α) : Nat → α := fun j => if j = i then v else f j

/-- Erased sector. -/
def blank : Bytes := List.replicate secLen 0xFF

/-- Next address after a complete write (logging_flash.c:69-78). -/
def nextAddr (a remain : Nat) (terminated : Bool) : Nat :=
  let a := if a % secLen ≠ 0 ∧ (remain < hdrLen ∨ terminated) then a / secLen * secLen + secLen else a
  if a ≥ sectors * secLen then 0 else a

/-- Erase of the sector at its start (35-50): result and state. -/
def prepare (s : St) (io : Io) : Bool × St :=
  let c := s.addr / secLen
  if s.addr % secLen = 0 then
    if io.erase then
      let used := set s.used c 0
      (true, { s with
        flash := set s.flash c blank
        used
        start := if s.start = c ∧ used ((s.start + 1) % sectors) ≠ 0 then (s.start + 1) % sectors else s.start })
    else (false, s)
  else (true, s)

/-- `logging_flash_save_buffer` (24-98). -/
def save (s : St) (io : Io) : Except Err Unit × St :=
  if s.buf = [] then (.ok (), s)
  else
    let c := s.addr / secLen
    match prepare s io with
    | (false, s) => (.error .flash, s)
    | (true, s) =>
      let s := { s with flash := set s.flash c (program (s.flash c) (s.addr % secLen) (s.buf.take io.programmed)) }
      match io.write with
      | none => (.error .flash, s)
      | some n =>
        if n = s.buf.length then
          let a := nextAddr (s.addr + n) s.remain s.terminated
          (.ok (), { s with
            addr := a
            used := set s.used c (s.used c + n - if s.terminated then hdrLen else 0)
            buf := []
            remain := secLen - a % secLen
            terminated := false })
        else
          (.error .incomplete, { s with
            addr := s.addr + n
            used := set s.used c (s.used c + n)
            buf := s.buf.drop n })

/-- `logging_flash_write_header` (107-119, logging.h:34-38). -/
def header (length id : Nat) : Bytes := [0xCB] ++ toLE 2 (length + hdrLen) ++ toLE 4 id

/-- Mark the end of a sector (140-144): the length of this header has its highest bit set. -/
def terminate (s : St) : St :=
  if !s.terminated ∧ s.remain ≥ hdrLen then
    { s with buf := s.buf ++ header 0x8000 0, remain := s.remain - hdrLen, terminated := true }
  else s

/-- Add an entry to the buffer (154-157). -/
def append (s : St) (entry : Bytes) : St :=
  { s with
    buf := s.buf ++ header entry.length s.nextId ++ entry
    remain := s.remain - hdrLen - entry.length
    nextId := (s.nextId + 1) % 2 ^ 32 }

/-- `logging_flash_create_entry` (121-162). -/
def create (s : St) (entry : Bytes) (io : Io) : Except Err Unit × St :=
  if entry.length = 0 ∨ entry.length + hdrLen > secLen then (.error .badLength, s)
  else if s.terminated ∨ s.remain < hdrLen + entry.length then
    match save (terminate s) io with
    | (.error e, s) => (.error e, s)
    | (.ok (), s) => (.ok (), append s entry)
  else (.ok (), append s entry)

/-- `logging_flash_flush` (164-178). -/
def flush (s : St) (io : Io) : Except Err Unit × St := save s io

/-- `logging_flash_clear` (180-208). -/
def clear (s : St) (io : Io) : Except Err Unit × St :=
  if io.erase then
    (.ok (), { s with flash := fun _ => blank, used := fun _ => 0, start := 0, addr := 0, buf := [], remain := secLen, terminated := false })
  else (.error .flash, s)

/-- `logging_flash_get_size` (210-234), as an integer. -/
def getSize (s : St) : Int :=
  ((List.range sectors).map s.used).sum + s.buf.length - if s.terminated then (hdrLen : Int) else 0

/-- Sectors in the order in which they are read, until one is empty (253-257, 278-279). -/
def readSectors (s : St) : Nat → Nat → List Nat
  | 0, _ => []
  | n + 1, i => if s.used i = 0 then [] else i :: readSectors s n ((i + 1) % sectors)

/-- Copy from one source (258-276, 287-291): what is taken of it, and the offset and length that
remain. -/
def copy (src : Bytes) (offset length : Nat) : Bytes × Nat × Nat :=
  let o := min offset src.length
  let n := min length (src.length - o)
  ((src.drop o).take n, offset - o, length - n)

/-- Copy from several sources. -/
def copyAll : List Bytes → Nat → Nat → Bytes
  | [], _, _ => []
  | src :: l, offset, length => (copy src offset length).1 ++ copyAll l (copy src offset length).2.1 (copy src offset length).2.2

/-- `logging_flash_read_contents` (236-296), without read errors.  `none` is a read beyond the entry
buffer: the length of the terminator is subtracted from a `size_t` (283-286). -/
def readContents (s : St) (offset length : Nat) : Option Bytes :=
  if s.terminated ∧ s.buf.length < hdrLen then none
  else some (copyAll ((readSectors s sectors s.start).map (fun i => (s.flash i).take (s.used i)) ++
    [s.buf.take (s.buf.length - if s.terminated then hdrLen else 0)]) offset length)

/-! ### Initialization -/

/-- Variables of the scan (349-354) and what it fills in. -/
structure Scan where
  addr : Nat := 0
  found : Nat := 0
  id : Nat := 0
  prev : Nat := 0
  start : Nat := 0
  used : Nat → Nat := fun _ => 0

/-- `LOGGING_IS_ENTRY_START` and a format other than 0xA (382-383). -/
def isEntry (magic : UInt8) : Bool := magic.toNat / 16 == 0xC && magic.toNat % 16 != 0xA

/-- Skip the rest of the sector (400-402, 415-417, 422-424). -/
def Scan.skip (v : Scan) : Scan := if v.found = 0 then { v with addr := v.addr / secLen * secLen + secLen } else v

/-- No entry at this place (384-407). -/
def Scan.noEntry (v : Scan) (rest : Bytes) : Scan :=
  if v.found = 0 then
    if v.addr % secLen = 0 then { v with found := 1 }
    else if rest.all (· == 0xFF) then { v with found := 1 } else v.skip
  else v

/-- An entry (428-443). -/
def Scan.entry (v : Scan) (sec length id : Nat) : Scan :=
  let v := if v.found < 2 then
      let e := (id + 1) % 2 ^ 32
      if v.prev > e then { v with id := v.prev, start := sec, found := 2 }
      else if v.found = 0 then { v with id := e, addr := v.addr + length, prev := e }
      else { v with id := e }
    else v
  { v with used := set v.used sec (v.used sec + length) }

/-- Length field and identifier of a header. -/
def lengthField (h : Bytes) : Nat := leNat ((h.drop 1).take 2)
def idField (h : Bytes) : Nat := leNat ((h.drop 3).take 4)

/-- Entries of a sector (378-445); `rest` is the sector from `pos` on. -/
def scanEntries (sec : Nat) (rest : Bytes) (v : Scan) : Scan :=
  if h : rest.length < hdrLen then v
  else
    if !isEntry (rest.getD 0 0) then v.noEntry rest
    else
      let length := lengthField rest % 2 ^ 15
      if hl : length > rest.length ∨ length < hdrLen then v.skip
      else if lengthField rest / 2 ^ 15 = 1 then v.skip
      else scanEntries sec (rest.drop length) (v.entry sec length (idField rest))
termination_by rest.length
decreasing_by simp [hdrLen] at *; omega

/-- One sector, with the correction at its end (447-450). -/
def scanSector (v : Scan) (sec : Nat) (data : Bytes) : Scan :=
  let v := scanEntries sec data v
  if secLen - v.addr % secLen < hdrLen then { v with addr := v.addr / secLen * secLen + secLen } else v

/-- All sectors (370-451). -/
def scanAll (flash : Nat → Bytes) : Scan := (List.range sectors).foldl (fun v i => scanSector v i (flash i)) {}

/-- `logging_flash_init_state` (346-469), without read errors. -/
def init (flash : Nat → Bytes) : St :=
  let v := scanAll flash
  let a := if v.addr ≥ sectors * secLen then 0 else v.addr
  { flash, addr := a, nextId := v.id, remain := secLen - a % secLen, used := v.used, start := v.start }

end Verif.LoggingFlash
