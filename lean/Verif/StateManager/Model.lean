import Verif.Common.Bytes
/-!
Model of core/state_manager/state_manager.c: 16 bits of non-volatile settings kept as a log of
8-byte entries in two flash sectors.

The flash device is NOR flash: programming can only clear bits (`program` ands the data into the
memory) and erasing a sector sets every bit. A call reports the flash operations it performed as a
list, so that a power loss can be placed between or inside any of them (`CrashMem`).
-/
namespace Verif.StateManager

/-- Contents of the flash device, by address. -/
abbrev Mem := Nat → UInt8

/-- state_manager.h:83-85: where the state is stored. `sector` is the size reported by the flash
driver. Simplification: addresses are natural numbers; `Cfg.WF` (Spec) asks that the two sectors
fit in the 32-bit address space. -/
structure Cfg where
  base : Nat
  sector : Nat

/-- state_manager.h:26-33: `struct state_manager_state`, without the two mutexes. -/
structure State where
  storeAddr : Nat
  nv : BitVec 16
  lastNv : BitVec 16
  vol : BitVec 8
  deriving Repr, DecidableEq

/-- A flash operation that changes the memory. -/
inductive FlashOp where
  | write (addr : Nat) (data : Bytes)
  | erase (addr : Nat) (len : Nat)
  deriving Repr, DecidableEq

/-- Programming NOR flash: each byte is the and of the old and the new value. -/
def program (m : Mem) (addr : Nat) (data : Bytes) : Mem := fun i =>
  if addr ≤ i ∧ i < addr + data.length then m i &&& data.getD (i - addr) 0xff else m i

/-- Erasing `[addr, addr+len)`. -/
def eraseMem (m : Mem) (addr len : Nat) : Mem := fun i =>
  if addr ≤ i ∧ i < addr + len then 0xff else m i

/-- The effect of a completed flash operation. -/
def FlashOp.apply : FlashOp → Mem → Mem
  | .write a d, m => program m a d
  | .erase a n, m => eraseMem m a n

/-- The effect of a list of completed flash operations. -/
def applyOps (ops : List FlashOp) (m : Mem) : Mem := ops.foldl (fun m o => o.apply m) m

inductive Status where
  | ok
  | notBlank
  | notAligned
  | flashError
  deriving Repr, DecidableEq

/-- state_manager.c:22 `MULTI_BYTE_STATE`. -/
def MULTI : BitVec 16 := 0x80
/-- state_manager.c:23 `SINGLE_BYTE_STATE`. -/
def SINGLE : BitVec 16 := 0x40
/-- state_manager.c:30 `SECTOR_2_BLANK`. -/
def SECTOR_2_BLANK : BitVec 8 := 0x80
/-- state_manager.c:35 `SECTOR_1_BLANK`. -/
def SECTOR_1_BLANK : BitVec 8 := 0x40

/-- A `uint16_t` in memory of a little-endian CPU, as `flash->read` fills it in. -/
def rdWord (m : Mem) (a : Nat) : BitVec 16 := (m (a + 1)).toBitVec ++ (m a).toBitVec

/-- `uint16_t stored[4]`. -/
structure Entry where
  w0 : BitVec 16
  w1 : BitVec 16
  w2 : BitVec 16
  w3 : BitVec 16
  deriving Repr, DecidableEq

/-- The four words read from an address (state_manager.c:187, 283, 289, 434). -/
def rdEntry (m : Mem) (a : Nat) : Entry :=
  ⟨rdWord m a, rdWord m (a + 2), rdWord m (a + 4), rdWord m (a + 6)⟩

/-- Bytes of a `uint16_t` as `flash->write` sees them on a little-endian CPU. -/
def wordBytes (w : BitVec 16) : Bytes := [⟨w.extractLsb' 0 8⟩, ⟨w.extractLsb' 8 8⟩]

/-- The bytes of an entry. -/
def Entry.bytes (e : Entry) : Bytes :=
  wordBytes e.w0 ++ wordBytes e.w1 ++ wordBytes e.w2 ++ wordBytes e.w3

/-- Result of `state_manager_read_state_bits`: the return value and the two out flags. `refresh` is
whether this call sets `*refresh` (it never clears it). -/
structure Vote where
  nv : BitVec 16
  error : Bool
  refresh : Bool
  deriving Repr, DecidableEq

/-- state_manager.c:103-130: the body of the loop over the 16 bits. -/
def voteStep (e : Entry) (v : Vote) (i : Nat) : Vote :=
  let bit0 := e.w0 &&& (1#16 <<< i)
  let bit1 := e.w1 &&& (1#16 <<< i)
  let bit2 := e.w2 &&& (1#16 <<< i)
  if bit0 = bit1 ∧ bit0 = bit2 then
    { v with nv := v.nv ||| bit0 }
  else
    if i ≠ 6 ∧ i ≠ 7 then
      if bit0 = bit1 ∨ bit0 = bit2 then
        { v with nv := v.nv ||| bit0, error := true }
      else
        { v with nv := v.nv ||| bit1, error := true }
    else if i = 6 then
      { v with error := true, refresh := true }
    else
      { v with error := true }

/-- state_manager.c:132-139: data in the last word of an entry that reads as blank. -/
def fixBlank (e : Entry) (v : Vote) : Vote :=
  if v.nv = 0xffff ∧ e.w3 ≠ 0xffff then { v with nv := v.nv &&& ~~~SINGLE, refresh := true } else v

/-- state_manager.c:141-145: both format bits clear. -/
def fixFormat (v : Vote) : Vote :=
  if v.nv &&& (SINGLE ||| MULTI) = 0 then { v with nv := v.nv ||| MULTI } else v

/-- state_manager.c:91-148 `state_manager_read_state_bits`. -/
def readStateBits (e : Entry) : Vote :=
  fixFormat (fixBlank e ((List.range 16).foldl (voteStep e) ⟨0, false, false⟩))

/-- The loop condition at state_manager.c:195: the entry just read is a multi-byte entry. -/
def isEntry (nv : BitVec 16) : Bool := nv ≠ 0xffff && (nv &&& SINGLE) = 0

/-- What the search for the newest entry leaves behind: the offset at which it stopped, the state
and error flag of the entry before, the refresh flag, and the value and error flag read last. -/
structure Scan where
  offset : Nat
  nv : BitVec 16
  bitError : Bool
  refresh : Bool
  lastNv : BitVec 16
  lastError : Bool
  deriving Repr, DecidableEq

/-- state_manager.c:181-196: the inner loop of `state_manager_init_multi_byte_state`. `offset` is
the value after the increment in line 184. `fuel` bounds the number of rounds; the caller passes
more than the number of entries, and `scan_run` (Lemmas) shows it does not run out. Simplification:
a failing flash read is modelled in `initState` (all reads succeed or initialization fails). -/
def scan (c : Cfg) (m : Mem) : Nat → Nat → BitVec 16 → Bool → Bool → Scan
  | 0, offset, nv, error, refresh => ⟨offset, nv, error, refresh, nv, error⟩
  | fuel + 1, offset, nv, error, refresh =>
    if offset < c.sector * 2 then
      let v := readStateBits (rdEntry m (c.base + offset))
      if isEntry v.nv then
        scan c m fuel (offset + 8) v.nv v.error (refresh || v.refresh)
      else
        ⟨offset, nv, error, refresh || v.refresh, v.nv, v.error⟩
    else
      ⟨offset, nv, error, refresh, nv, error⟩

/-- state_manager.c:163-200 `state_manager_init_multi_byte_state`: if the first entry of the first
sector is not an entry, the search starts over at the second sector. -/
def initMulti (c : Cfg) (m : Mem) : Scan :=
  let s := scan c m (c.sector * 2) 0 0xffff false false
  if s.offset = 0 then
    scan c m (c.sector * 2) c.sector s.lastNv s.lastError s.refresh
  else s

/-- state_manager.c:63-73: the inner loop of `state_manager_init_single_byte_state`, `offset` after
the increment in line 65. Returns the final offset, the state, and the last byte read. -/
def scanSingle (c : Cfg) (m : Mem) : Nat → Nat → UInt8 → Nat × UInt8 × UInt8
  | 0, offset, b => (offset, b, b)
  | fuel + 1, offset, b =>
    if offset < c.sector * 2 then
      let b' := m (c.base + offset)
      if b' ≠ 0xff then scanSingle c m fuel (offset + 1) b' else (offset, b, b')
    else (offset, b, b)

/-- state_manager.c:49-79 `state_manager_init_single_byte_state` (the old storage format): final
offset and the state. -/
def initSingle (c : Cfg) (m : Mem) : Nat × BitVec 16 :=
  let s := scanSingle c m (c.sector * 2 + 1) 0 0xff
  let s := if s.1 = 0 then scanSingle c m (c.sector * 2 + 1) c.sector s.2.2 else s
  (s.1, (0xff#8 ++ s.2.1.toBitVec) ||| MULTI)

/-- state_manager.c:208-217 `state_manager_set_next_sector_write_offset`. -/
def setNextSector (c : Cfg) (s : State) : State :=
  if s.storeAddr < c.base + c.sector then
    { s with storeAddr := c.base + c.sector - 8 }
  else
    { s with storeAddr := c.base + c.sector * 2 - 8 }

/-- How the flash driver behaves during one call: whether each operation reports success. A failed
operation leaves the memory unchanged. -/
structure Env where
  sizeOk : Bool
  readOk : Bool
  writeOk : Bool
  eraseOk : Bool

/-- A driver that does not fail. -/
def Env.good : Env := ⟨true, true, true, true⟩

/-- Result of a call: status, state and the flash operations performed, in order. -/
structure Out where
  status : Status
  state : State
  ops : List FlashOp

/-- state_manager.c:321-336: where the next entry goes, and whether it has to be rewritten. -/
def initFinish (c : Cfg) (offset : Nat) (nv : BitVec 16) (vol : BitVec 8)
    (needsUpdate bitError : Bool) : State :=
  let s : State := ⟨c.base + offset - 8, nv, nv, vol⟩
  if needsUpdate || bitError then
    let s := { s with lastNv := 0xffff }
    if needsUpdate then
      let s := if offset % 8 ≠ 0 then { s with storeAddr := s.storeAddr + (8 - offset % 8) } else s
      setNextSector c s
    else s
  else s

/-- state_manager.c:256-351 `state_manager_init_state`. `FLASH_REGION_BASE` is modelled with `%`
(the sector size is a power of two). -/
def initState (c : Cfg) (m : Mem) (e : Env) : Out :=
  let s0 : State := ⟨0, 0, 0, 0⟩
  if !e.sizeOk then ⟨.flashError, s0, []⟩
  else if c.base % c.sector ≠ 0 then ⟨.notAligned, s0, []⟩
  else if !e.readOk then ⟨.flashError, s0, []⟩
  else
    let state1 := (readStateBits (rdEntry m c.base)).nv
    let state2 := (readStateBits (rdEntry m (c.base + c.sector))).nv
    if state1 ≠ 0xffff ∨ state2 ≠ 0xffff then
      if state1 &&& SINGLE = 0 ∨ state2 &&& SINGLE = 0 then
        let r := initMulti c m
        ⟨.ok, initFinish c r.offset r.nv 0 r.refresh r.bitError, []⟩
      else
        let r := initSingle c m
        ⟨.ok, initFinish c r.1 r.2 0 true false, []⟩
    else if e.eraseOk then
      ⟨.ok, initFinish c (c.sector * 2) 0xffff SECTOR_1_BLANK false false,
        [.erase c.base c.sector]⟩
    else ⟨.flashError, s0, []⟩

/-- state_manager.c:427-428: the value that is stored. -/
def storeValue (s : State) : BitVec 16 := (s.nv &&& ~~~SINGLE) ||| MULTI

/-- state_manager.c:431-448: if nothing changed, check what is on flash. -/
def verifyStored (c : Cfg) (m : Mem) (e : Env) (s : State) : Status × State :=
  if storeValue s = s.lastNv then
    if e.readOk then
      let v := readStateBits (rdEntry m s.storeAddr)
      if v.nv ≠ storeValue s ∨ v.error then
        let s := { s with lastNv := 0xffff }
        if v.refresh then (.ok, setNextSector c s) else (.ok, s)
      else (.ok, s)
    else (.flashError, s)
  else (.ok, s)

/-- state_manager.c:452-455: the address of the entry after the current one. -/
def nextAddr (c : Cfg) (s : State) : Nat :=
  if s.storeAddr + 8 = c.base + c.sector * 2 then c.base else s.storeAddr + 8

/-- state_manager.c:467-482: is the place for the entry (or the other sector, for the last entry of
a sector) known to be blank? -/
def blankCheck (c : Cfg) (s : State) : Bool :=
  let next := nextAddr c s
  if next = c.base ∧ s.vol &&& SECTOR_1_BLANK = 0 then false
  else if next = c.base + c.sector ∧ s.vol &&& SECTOR_2_BLANK = 0 then false
  else if next = c.base + c.sector * 2 - 8 ∧ s.vol &&& SECTOR_1_BLANK = 0 then false
  else if next = c.base + c.sector - 8 ∧ s.vol &&& SECTOR_2_BLANK = 0 then false
  else true

/-- state_manager.c:507-542: erase the sector that is not in use. A failing erase is only logged. -/
def eraseUnused (c : Cfg) (e : Env) (s : State) : State × List FlashOp :=
  if s.storeAddr < c.base + c.sector then
    let s := { s with vol := s.vol &&& ~~~SECTOR_1_BLANK }
    if s.vol &&& SECTOR_2_BLANK = 0 then
      if e.eraseOk then
        ({ s with vol := s.vol ||| SECTOR_2_BLANK }, [.erase (c.base + c.sector) c.sector])
      else (s, [])
    else (s, [])
  else
    let s := { s with vol := s.vol &&& ~~~SECTOR_2_BLANK }
    if s.vol &&& SECTOR_1_BLANK = 0 then
      if e.eraseOk then
        ({ s with vol := s.vol ||| SECTOR_1_BLANK }, [.erase c.base c.sector])
      else (s, [])
    else (s, [])

/-- state_manager.c:457-460: the entry for a value. -/
def entryOf (v : BitVec 16) : Entry := ⟨v, v, v, 0⟩

/-- state_manager.c:403-547 `state_manager_store_non_volatile_state`. Simplification: a write is
either complete or reports an error (the "incomplete write" of lines 497-501 is described there as
not possible). The whole call runs under `store_lock`, so it is one step of the model. -/
def store (c : Cfg) (m : Mem) (e : Env) (s : State) : Out :=
  if !e.sizeOk then ⟨.flashError, s, []⟩
  else
    let v := storeValue s
    let (st, s) := verifyStored c m e s
    if v ≠ s.lastNv then
      if blankCheck c s then
        if e.writeOk then
          let next := nextAddr c s
          let r := eraseUnused c e { s with lastNv := v, storeAddr := next }
          ⟨.ok, r.1, .write next (entryOf v).bytes :: r.2⟩
        else ⟨.flashError, s, []⟩
      else
        let r := eraseUnused c e s
        ⟨.notBlank, r.1, r.2⟩
    else
      let r := eraseUnused c e s
      ⟨st, r.1, r.2⟩

end Verif.StateManager
