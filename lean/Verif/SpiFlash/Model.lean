import Verif.Flash.Model
/-! Model of `core/flash/spi_flash.c`: reading, programming and erasing a SPI NOR flash device, and its address modes.

The driver sends transactions to a device (`flash->spi->xfer`). The device is modelled as in the data sheets of the supported devices: it ignores
commands while it is busy, programs within one page of 256 bytes (the address wraps around at the end of the page) and only after a write enable, and takes
addresses of 3 or 4 bytes depending on its mode or on the command. If it gets the wrong number of address bytes, anything may happen. The functions lock a mutex,
so one call is not interrupted by another. Not modelled: NULL arguments, the SFDP tables (`discover` takes what they say), vendor registers for quad
mode, block protection and drive strength. -/
namespace Verif.SpiFlash
open Verif.Flash (Mem bytesAt)

/-- The device: its contents and size, whether it uses addresses of 4 bytes for commands that exist for both lengths, the write enable latch, how many more times
its status register reports a write in progress, and the address mode after a reset (`none`: a reset does not change it). -/
structure Chip where
  mem : Mem
  size : Nat
  mode4 : Bool
  wel : Bool
  busy : Nat
  onReset : Option Bool

/-- A command of the driver: whether the opcode is the one for addresses of 4 bytes (for example FLASH_CMD_4BYTE_PP instead of FLASH_CMD_PP), and whether the flags
that are kept with it have FLASH_FLAG_4BYTE_ADDRESS. -/
structure Cmd where
  op4 : Bool
  flag4 : Bool
deriving DecidableEq, Repr

/-- `struct spi_flash_state`, spi_flash.h: `device_size`, the commands, `addr_mode`, the capabilities for address modes, whether the device is
switched by other instructions only (SPI_FLASH_SFDP_4BYTE_MODE_INSTRUCTION_SET), `reset_3byte`, and whether a reset command is known. -/
structure Drv where
  size : Nat
  rd : Cmd
  wr : Cmd
  sector : Cmd
  block : Cmd
  addr4 : Bool
  cap3 : Bool
  cap4 : Bool
  instr : Bool
  reset3 : Bool
  hasReset : Bool
deriving DecidableEq, Repr

/-- What happens to a transaction: it works, it fails and the device did not get it, or it fails although the device got it. -/
inductive Res | ok | lost | partly
deriving DecidableEq, Repr

/-- The environment: the result of the `n`-th transaction, what a failed program or erase leaves, and how often the device reports that it is busy after the `n`-th
transaction. `w` is the size of `size_t` in bits. -/
structure Env where
  out : Nat → Res
  junk : Nat → Mem
  busy : Nat → Nat
  w : Nat

/-- Device, driver, number of transactions, and whether the device got a command that it does not expect: while it is busy, without write enable, or with
the wrong number of address bytes. -/
structure St where
  dev : Chip
  drv : Drv
  n : Nat
  bad : Bool

/-- Error codes. -/
inductive Err | xfer | address | range | busy | mode | noReset | incompatible
deriving DecidableEq, Repr

/-- A function of the driver. -/
abbrev M (α : Type) := St → Except Err α × St

instance : Monad M where
  pure a := fun s => (.ok a, s)
  bind m f := fun s =>
    match m s with
    | (.ok a, s) => f a s
    | (.error e, s) => (.error e, s)

/-- Return an error. -/
def fail (e : Err) : M α := fun s => (.error e, s)

/-- The state. -/
def state : M St := fun s => (.ok s, s)

/-- A transaction: `bad` tells whether the device does not expect it, `f` is its effect, `g` the effect if it fails after it has reached the device. -/
def xfer (env : Env) (bad : Chip → Bool) (f g : Nat → Chip → Chip) : M Unit := fun s =>
  match env.out s.n with
  | .ok => (.ok (), { s with dev := f s.n s.dev, n := s.n + 1, bad := s.bad || bad s.dev })
  | .lost => (.error .xfer, { s with n := s.n + 1 })
  | .partly => (.error .xfer, { s with dev := g s.n s.dev, n := s.n + 1, bad := s.bad || bad s.dev })

/-- Reading the status: `spi_flash_is_wip_set`, spi_flash.c:927-952. -/
def isBusy (env : Env) : M Bool := do
  let s ← state
  xfer env (fun _ => false) (fun _ c => { c with busy := c.busy - 1 }) (fun _ c => { c with busy := c.busy - 1 })
  pure (s.dev.busy != 0)

/-- A check that nothing is in progress, for example spi_flash.c:2350-2354. -/
def checkIdle (env : Env) : M Unit := do
  if ← isBusy env then fail .busy else pure ()

/-- The loop of `spi_flash_wait_for_write_completion`, spi_flash.c:978-999, without a timeout (-1); `k` bounds the number of times. -/
def waitLoop (env : Env) : Nat → M Unit
  | 0 => fail .busy
  | k + 1 => do
    if ← isBusy env then waitLoop env k else pure ()

/-- `spi_flash_wait_for_write_completion`, spi_flash.c:964-1002, without a timeout. The device reports that it is busy `busy` times at most. -/
def waitDone (env : Env) : M Unit := do
  let s ← state
  waitLoop env (s.dev.busy + 1)

/-- A command without address; a busy device ignores it. -/
def simple (env : Env) (f : Chip → Chip) : M Unit :=
  xfer env (fun c => c.busy != 0) (fun _ c => if c.busy ≠ 0 then c else f c) (fun _ c => if c.busy ≠ 0 then c else f c)

/-- `spi_flash_write_enable`, spi_flash.c:903-906. -/
def writeEnable (env : Env) : M Unit := simple env fun c => { c with wel := true }

/-- Number of address bytes: 4 if the flag is in the flags of the command or in `addr_mode`, for example spi_flash.c:2358. -/
def Drv.sends4 (d : Drv) (c : Cmd) : Bool := c.flag4 || d.addr4

/-- The device expects 4 address bytes for a command. -/
def Chip.expects4 (v : Chip) (c : Cmd) : Bool := c.op4 || v.mode4

/-- The address as it is sent. -/
def sent (four : Bool) (a : Nat) : Nat := if four then a % 2 ^ 32 else a % 2 ^ 24

/-- FLASH_PAGE_SIZE, FLASH_SECTOR_SIZE, FLASH_BLOCK_SIZE, flash_common.h:114-127. -/
def pageSize : Nat := 256
def sectorSize : Nat := 4096
def blockSize : Nat := 65536

/-- The index of the data byte that a page program at `a` puts to address `i`: the address wraps around within the page. -/
def pageIndex (a i : Nat) : Nat := (i % pageSize + pageSize - a % pageSize) % pageSize

/-- A page program of `len` bytes at `a` changes address `i`. -/
def inPage (a len i : Nat) : Prop := i / pageSize = a / pageSize ∧ pageIndex a i < len

instance (a len i : Nat) : Decidable (inPage a len i) := inferInstanceAs (Decidable (_ ∧ _))

/-- Page program. Data that is longer than a page is not modelled: only the first 256 bytes count. -/
def pageProgram (m : Mem) (a : Nat) (d : Bytes) : Mem := fun i => if inPage a d.length i then m i &&& d.getD (pageIndex a i) 0xff else m i

/-- The program transaction, spi_flash.c:2469-2472. A busy device or one without write enable ignores it; with the wrong number of address bytes everything may
change. -/
def sendProgram (env : Env) (a : Nat) (data : Bytes) : M Unit := do
  let s ← state
  let four := s.drv.sends4 s.drv.wr
  let eff (junk : Bool) (n : Nat) (c : Chip) : Chip :=
    if four ≠ c.expects4 s.drv.wr then { c with mem := env.junk n, busy := env.busy n, wel := false }
    else if c.busy ≠ 0 ∨ c.wel = false then c
    else { c with mem := if junk then fun i => if inPage (sent four a) data.length i then env.junk n i else c.mem i else pageProgram c.mem (sent four a) data,
                  busy := env.busy n, wel := false }
  xfer env (fun c => four != c.expects4 s.drv.wr || c.busy != 0 || !c.wel) (eff false) (eff true)

/-- The erase transaction, spi_flash.c:2547-2549, for a region of `size` bytes. -/
def sendErase (env : Env) (cmd : Cmd) (size a : Nat) : M Unit := do
  let s ← state
  let four := s.drv.sends4 cmd
  let eff (junk : Bool) (n : Nat) (c : Chip) : Chip :=
    if four ≠ c.expects4 cmd then { c with mem := env.junk n, busy := env.busy n, wel := false }
    else if c.busy ≠ 0 ∨ c.wel = false then c
    else { c with mem := fun i => if i / size = sent four a / size then (if junk then env.junk n i else 0xff) else c.mem i,
                  busy := env.busy n, wel := false }
  xfer env (fun c => four != c.expects4 cmd || c.busy != 0 || !c.wel) (eff false) (eff true)

/-- The read transaction, spi_flash.c:2356-2359. The device continues at address 0 after its last byte. What is read if the device does not expect the
command is unknown. -/
def sendRead (env : Env) (a len : Nat) : M Bytes := do
  let s ← state
  let four := s.drv.sends4 s.drv.rd
  let bad (c : Chip) : Bool := four != c.expects4 s.drv.rd || c.busy != 0
  xfer env bad (fun _ c => c) (fun _ c => c)
  pure (if bad s.dev then bytesAt (env.junk s.n) 0 len else (List.range len).map fun i => s.dev.mem ((sent four a + i) % s.dev.size))

/-- `SPI_FLASH_BOUNDS_CHECK`, spi_flash.c:58-67: the sum has the size of `size_t`. -/
def boundsCheck (env : Env) (size a len : Nat) : M Unit :=
  if a ≥ size then fail .address
  else if (a + len) % 2 ^ env.w > size then fail .range
  else pure ()

/-- `spi_flash_read`, spi_flash.c:2337-2365. -/
def read (env : Env) (a len : Nat) : M Bytes := do
  let s ← state
  boundsCheck env s.drv.size a len
  checkIdle env
  sendRead env a len

/-- FLASH_PAGE_BASE, flash_common.h:116. -/
def pageBase (a : Nat) : Nat := a - a % pageSize

/-- One pass of the loop of `spi_flash_write`, spi_flash.c:2464-2474. -/
def writePage (env : Env) (a : Nat) (data : Bytes) : M Unit := do
  writeEnable env
  sendProgram env a data
  waitDone env

/-- The length of the next transaction, spi_flash.c:2454-2462. `end` has 32 bits. -/
def writeLen (page next a remaining : Nat) : Nat :=
  if page ≠ pageBase ((a + remaining) % 2 ^ 32) then (next + 2 ^ 32 - a) % 2 ^ 32 else remaining

/-- The loop of `spi_flash_write`, spi_flash.c:2453-2483, with at most `k` passes. The result is how much is left, and the last status. -/
def writeLoop (env : Env) : Nat → Nat → Nat → Nat → Bytes → M (Nat × Option Err)
  | 0, _, _, _, data => pure (data.length, none)
  | k + 1, page, next, a, data =>
    if data = [] then pure (0, none)
    else fun s =>
      let len := writeLen page next a data.length
      match writePage env a (data.take len) s with
      | (.error e, t) => (.ok (data.length, some e), t)
      | (.ok _, t) => writeLoop env k next ((next + pageSize) % 2 ^ 32) next (data.drop len) t

/-- `spi_flash_write`, spi_flash.c:2430-2500. The result is the number of bytes, or the error if there are none. -/
def write (env : Env) (a : Nat) (data : Bytes) : M Nat := do
  let s ← state
  boundsCheck env s.drv.size a data.length
  checkIdle env
  let (left, st) ← writeLoop env data.length (pageBase a) ((pageBase a + pageSize) % 2 ^ 32) a data
  let done := data.length - left
  match st with
  | some e => if done = 0 then fail e else pure done
  | none => pure done

/-- `spi_flash_erase_region`, spi_flash.c:2524-2560. -/
def eraseRegion (env : Env) (cmd : Cmd) (size a : Nat) : M Unit := do
  let s ← state
  if a ≥ s.drv.size then fail .address
  else do
    checkIdle env
    writeEnable env
    sendErase env cmd size a
    waitDone env

/-- `spi_flash_sector_erase`, spi_flash.c:2591-2599. -/
def sectorErase (env : Env) (a : Nat) : M Unit := do
  let s ← state
  eraseRegion env s.drv.sector sectorSize (a - a % sectorSize)

/-- `spi_flash_block_erase`, spi_flash.c:2639-2647. -/
def blockErase (env : Env) (a : Nat) : M Unit := do
  let s ← state
  eraseRegion env s.drv.block blockSize (a - a % blockSize)

/-- `spi_flash_chip_erase`, spi_flash.c:2656-2688. -/
def chipErase (env : Env) : M Unit := do
  checkIdle env
  writeEnable env
  let eff (junk : Bool) (n : Nat) (c : Chip) : Chip :=
    if c.busy ≠ 0 ∨ c.wel = false then c else { c with mem := if junk then env.junk n else fun _ => 0xff, busy := env.busy n, wel := false }
  xfer env (fun c => c.busy != 0 || !c.wel) (eff false) (eff true)
  waitDone env

/-! ### Address modes -/

/-- `spi_flash_supports_address_mode`, spi_flash.c:1853-1872; `some true`: the mode can be set, `some false`: it is the only one, `none`: not supported. -/
def Drv.supports (d : Drv) (four : Bool) : Option Bool :=
  if d.instr then (if four then none else some false)
  else if d.cap3 ∧ ¬ d.cap4 then (if four then none else some false)
  else if d.cap4 ∧ ¬ d.cap3 then (if four then some false else none)
  else some true

/-- `spi_flash_enable_4byte_address_mode`, spi_flash.c:1882-1924. The write enable that some devices need is left out. There is no check
that the device is idle. -/
def enable4 (env : Env) (four : Bool) : M Unit := do
  let s ← state
  match s.drv.supports four with
  | none => fail .mode
  | some false => pure ()
  | some true => do
    simple env fun c => { c with mode4 := four }
    fun s => (.ok (), { s with drv := { s.drv with addr4 := four } })

/-- `spi_flash_detect_4byte_address_mode`, spi_flash.c:1954-2014. -/
def detect (env : Env) : M Unit := do
  let s ← state
  if s.drv.cap3 && s.drv.cap4 && !s.drv.instr then do
    xfer env (fun _ => false) (fun _ c => c) (fun _ c => c)
    fun s => (.ok (), { s with drv := { s.drv with addr4 := s.dev.mode4 } })
  else pure ()

/-- `spi_flash_force_4byte_address_mode`, spi_flash.c:2031-2060. -/
def force4 (four : Bool) : M Unit := do
  let s ← state
  match s.drv.supports four with
  | none => fail .mode
  | some false => pure ()
  | some true => fun s => (.ok (), { s with drv := { s.drv with addr4 := four } })

/-- `spi_flash_is_4byte_address_mode_on_reset`, spi_flash.c:1775-1843; the vendor's register tells what the device does. A device of an unknown
vendor is taken for one that uses 3 bytes (spi_flash.c:1454). -/
def resetMode (env : Env) : M Bool := do
  let s ← state
  if s.drv.cap3 ∧ ¬ s.drv.cap4 then pure false
  else if s.drv.cap4 ∧ ¬ s.drv.cap3 then pure true
  else if s.drv.instr then pure false
  else do
    xfer env (fun _ => false) (fun _ c => c) (fun _ c => c)
    pure (s.dev.onReset.getD false)

/-- The address mode after a reset, spi_flash.c:1450-1468. -/
def resetTarget (env : Env) (d : Drv) : M Bool := if d.reset3 then resetMode env else pure d.addr4

/-- `spi_flash_reset_device`, spi_flash.c:1437-1490, with `spi_flash_execute_reset_device` (1411-1428) as one transaction. -/
def reset (env : Env) : M Unit := do
  let s ← state
  if s.drv.hasReset then do
    let m ← resetTarget env s.drv
    checkIdle env
    simple env fun c => { c with mode4 := c.onReset.getD c.mode4, wel := false }
    fun s => (.ok (), { s with drv := { s.drv with addr4 := m } })
  else fail .noReset

/-- The driver after `spi_flash_init_state`, spi_flash.c:750-794: both address modes are assumed, with commands for addresses in the mode of the device. -/
def Drv.init : Drv := ⟨0, ⟨false, false⟩, ⟨false, false⟩, ⟨false, false⟩, ⟨false, false⟩, false, true, true, false, true, true⟩

/-- What the SFDP tables of a device say: `spi_flash_sfdp.c`. `fixed4`, `only3`: SPI_FLASH_SFDP_4BYTE_MODE_FIXED and _UNSUPPORTED; `cmds4`: there are commands
for addresses of 4 bytes. -/
structure Sfdp where
  cap3 : Bool
  cap4 : Bool
  fixed4 : Bool
  only3 : Bool
  instr : Bool
  cmds4 : Bool
  exits4 : Bool
  size : Nat
  multi : Bool
  hasReset : Bool

/-- `spi_flash_set_write_erase_commands`, spi_flash.c:100-113. -/
def Drv.setWriteErase (d : Drv) : Drv :=
  if d.cap3 && d.cap4 then { d with wr := ⟨true, true⟩, sector := ⟨true, true⟩, block := ⟨true, true⟩ } else d

/-- `spi_flash_set_device_commands`, spi_flash.c:122-166. `multi`: the device and the SPI master support reading with two or four lines, so that the read command
comes from the SFDP tables. -/
def Drv.setCommands (d : Drv) (multi : Bool) : Drv :=
  let d := if multi then { d with rd := ⟨d.cap3 && d.cap4, d.cap3 && d.cap4⟩ }
    else if d.cap3 && d.cap4 then { d with rd := ⟨true, true⟩ } else d
  d.setWriteErase

/-- `spi_flash_discover_device_properties`, spi_flash.c:1097-1191, after the check that the SPI master has the same address modes. -/
def discover (t : Sfdp) : M Unit := fun s =>
  let cap3 := t.cap3 && !t.fixed4
  let cap4 := t.cap4 && !t.only3
  let d := { s.drv with cap3 := cap3, cap4 := cap4, instr := t.instr, reset3 := false }
  if cap3 && cap4 then
    if t.cmds4 then (.ok (), { s with drv := { { d with reset3 := t.exits4 }.setCommands t.multi with size := t.size, hasReset := t.hasReset } })
    else (.error .incompatible, { s with drv := d })
  else
    let d := if cap4 then { d with addr4 := true } else d
    (.ok (), { s with drv := { d.setCommands t.multi with size := t.size, hasReset := t.hasReset } })

/-- `spi_flash_set_device_size`, spi_flash.c:1210-1233. -/
def setSize (bytes : Nat) : M Unit := fun s =>
  if bytes > 0x1000000 then (.ok (), { s with drv := { s.drv with size := bytes, cap3 := true, cap4 := true }.setCommands false })
  else (.ok (), { s with drv := { s.drv with size := bytes, cap3 := true, cap4 := false } })

/-- What `spi_flash_save_device_info` (spi_flash.c:844-877) saves, as far as it is modelled. -/
structure Info where
  size : Nat
  rd : Cmd
  cap3 : Bool
  cap4 : Bool
  instr : Bool
  reset3 : Bool
  hasReset : Bool

/-- `spi_flash_save_device_info`, spi_flash.c:844-877. -/
def Drv.save (d : Drv) : Info := ⟨d.size, d.rd, d.cap3, d.cap4, d.instr, d.reset3, d.hasReset⟩

/-- `spi_flash_restore_device`, spi_flash.c:386-411, with `spi_flash_finish_device_restore` (350-373). -/
def restore (i : Info) : Drv :=
  Drv.setWriteErase { Drv.init with size := i.size, rd := i.rd, cap3 := i.cap3, cap4 := i.cap4, instr := i.instr, reset3 := i.reset3, hasReset := i.hasReset }

end Verif.SpiFlash
