import Verif.Common.Bytes
/-! Configuring the SPI filter for the flash devices, and giving the flash devices to the root of trust or to the host: `host_flash_manager.c`:404-761 and
`host_flash_initialization.c`:161-195, with the functions of `spi_flash.c` that are used. -/
namespace Verif.HostFlash.Filter

/-- How a device switches between addresses of 3 and 4 bytes, spi_flash_sfdp.h (`enum spi_flash_sfdp_4byte_addressing`), as far as it is distinguished: by other
instructions, by a command, by a command after a write enable. -/
inductive Switch | instructions | command | commandWithEnable
deriving DecidableEq, Repr

/-- A flash device: its identification and size, whether it supports addresses of 3 and of 4 bytes, how it is switched, the mode that the driver has
noted (`state->addr_mode`) and that the device is in, and the mode it has after a reset (`none`: cannot be determined). Then: a write is in progress,
blocks are protected, quad mode is on, and whether the driver was initialized for the device. -/
structure Chip where
  vendor : Nat
  device : Nat
  size : Nat
  cap3 : Bool
  cap4 : Bool
  switch : Switch
  noted4 : Bool
  is4 : Bool
  reset4 : Option Bool
  busy : Bool
  locked : Bool
  quad : Bool
  known : Bool
deriving DecidableEq, Repr

/-- `spi_flash_is_address_mode_fixed`, spi_flash.c:1732-1744. -/
def Chip.fixed (c : Chip) : Bool := c.switch == .instructions || !(c.cap3 && c.cap4)

/-- Result of `spi_flash_supports_address_mode`. -/
inductive Support | yes | unsupported | fixed
deriving DecidableEq, Repr

/-- `spi_flash_supports_address_mode`, spi_flash.c:1853-1872. -/
def Chip.supports (c : Chip) (four : Bool) : Support :=
  if c.switch = .instructions then (if four then .unsupported else .fixed)
  else if c.cap3 ∧ ¬ c.cap4 then (if four then .unsupported else .fixed)
  else if c.cap4 ∧ ¬ c.cap3 then (if four then .fixed else .unsupported)
  else .yes

/-- `spi_flash_address_mode_requires_write_enable`, spi_flash.c:1754-1765; `none` is SPI_FLASH_ADDR_MODE_FIXED. -/
def Chip.needsEnable (c : Chip) : Option Bool := if c.fixed then none else some (c.switch == .commandWithEnable)

/-- The address mode of the device after a reset, `spi_flash_is_4byte_address_mode_on_reset` (spi_flash.c:1775-1843). -/
def Chip.onReset (c : Chip) : Option Bool :=
  if c.cap3 ∧ ¬ c.cap4 then some false
  else if c.cap4 ∧ ¬ c.cap3 then some true
  else if c.switch = .instructions then some false
  else c.reset4

/-- What the SPI filter was told: manufacturer and device, size, address mode, whether it is fixed, whether switching it needs a write enable, the mode after a
reset; `on` is whether the filter is enabled. -/
structure Flt where
  mfg : Option (Nat × Nat)
  size : Option Nat
  mode4 : Option Bool
  fixed : Bool
  enable : Option Bool
  reset4 : Option Bool
  on : Bool
deriving DecidableEq, Repr

/-- Result of a driver call: it works, fails, or is not supported (SPI_FILTER_UNSUPPORTED_OPERATION). A failed call has no effect here. -/
inductive Res | ok | failed | unsupported
deriving DecidableEq, Repr

/-- Errors. -/
inductive Err | driver | vendor | device | sizes | addrMode | invalidVendor
deriving DecidableEq, Repr

/-- The devices (`cs1` may be missing), the filter, whether the devices are connected to the host, the number of driver calls so far, and for each command that
was sent to a flash device, whether the host had access then. -/
structure St where
  cs0 : Chip
  cs1 : Option Chip
  flt : Flt
  mux : Bool
  n : Nat
  log : List Bool

/-- A function of the program. -/
abbrev M (α : Type) := St → Except Err α × St

instance : Monad M where
  pure a := fun s => (.ok a, s)
  bind m f := fun s =>
    match m s with
    | (.ok a, s) => f a s
    | (.error e, s) => (.error e, s)

/-- Fail. -/
def fail (e : Err) : M α := fun s => (.error e, s)

/-- A driver call; `r n` is the result of the `n`-th. -/
def call (r : Nat → Res) (f : St → St) : M Unit := fun s =>
  match r s.n with
  | .ok => (.ok (), { f s with n := s.n + 1 })
  | _ => (.error .driver, { s with n := s.n + 1 })

/-- A call for which SPI_FILTER_UNSUPPORTED_OPERATION is tolerated. -/
def callOpt (r : Nat → Res) (f : St → St) : M Unit := fun s =>
  match r s.n with
  | .ok => (.ok (), { f s with n := s.n + 1 })
  | .unsupported => (.ok (), { s with n := s.n + 1 })
  | .failed => (.error .driver, { s with n := s.n + 1 })

/-- A command to a flash device. -/
def cmd (r : Nat → Res) (f : St → St) : M Unit := fun s => call r f { s with log := (s.mux && s.flt.on) :: s.log }

/-- The state. -/
def state : M St := fun s => (.ok s, s)

/-- Set the filter. -/
def St.setFlt (s : St) (f : Flt → Flt) : St := { s with flt := f s.flt }

/-- `spi_flash_enable_4byte_address_mode` for the second device, spi_flash.c:1882-1924; the write enable and the command are one step. -/
def enable4 (r : Nat → Res) (c : Chip) (four : Bool) : M Unit :=
  match c.supports four with
  | .unsupported => fail .addrMode
  | .fixed => pure ()
  | .yes => cmd r fun s => { s with cs1 := some { c with noted4 := four, is4 := four } }

/-- `host_flash_manager_flash_address_mode`, host_flash_manager.c:404-428. -/
def addressMode (r : Nat → Res) : M Bool := do
  let s ← state
  match s.cs1 with
  | none => pure s.cs0.noted4
  | some c =>
    if s.cs0.noted4 ≠ c.noted4 then do
      enable4 r c s.cs0.noted4
      pure s.cs0.noted4
    else pure s.cs0.noted4

/-- Properties of the address modes: write enable needed, fixed, mode, mode after a reset. -/
structure Addr where
  enable : Bool
  fixed : Bool
  mode4 : Bool
  reset4 : Bool
deriving DecidableEq, Repr

/-- The first check of `host_flash_manager_detect_flash_address_mode_properties`, host_flash_manager.c:450-456. -/
def sameEnable (s : St) : Bool :=
  match s.cs1 with
  | none => true
  | some c => s.cs0.needsEnable = c.needsEnable

/-- host_flash_manager.c:472-488. -/
def resetMode (r : Nat → Res) : M Bool := do
  cmd r id
  let s ← state
  match s.cs0.onReset with
  | none => fail .driver
  | some b =>
    match s.cs1 with
    | none => pure b
    | some c => do
      cmd r id
      match c.onReset with
      | none => fail .driver
      | some b' => if b ≠ b' then fail .addrMode else pure b

/-- `host_flash_manager_detect_flash_address_mode_properties`, host_flash_manager.c:442-491. -/
def addressProperties (r : Nat → Res) : M Addr := do
  let s ← state
  if sameEnable s then do
    let mode ← addressMode r
    let reset ← resetMode r
    pure ⟨s.cs0.needsEnable.getD false, s.cs0.needsEnable.isNone, mode, reset⟩
  else fail .addrMode

/-- host_flash_manager.c:523-535: identification of the second device. -/
def sameDevice (r : Nat → Res) : M Unit := do
  let s ← state
  match s.cs1 with
  | none => pure ()
  | some c => do
    cmd r id
    if s.cs0.vendor ≠ c.vendor then fail .vendor
    else if s.cs0.device ≠ c.device then fail .device
    else pure ()

/-- host_flash_manager.c:543-549. -/
def sameSize : M Unit := do
  let s ← state
  match s.cs1 with
  | none => pure ()
  | some c => if s.cs0.size ≠ c.size then fail .sizes else pure ()

/-- `host_flash_manager_config_spi_filter_flash_type`, host_flash_manager.c:504-584. -/
def configType (r : Nat → Res) : M Unit := do
  cmd r id
  sameDevice r
  call r fun s => s.setFlt fun f => { f with mfg := some (s.cs0.vendor, s.cs0.device) }
  sameSize
  callOpt r fun s => s.setFlt fun f => { f with size := some s.cs0.size }
  let a ← addressProperties r
  call r fun s => s.setFlt fun f => { f with mode4 := some a.mode4, fixed := a.fixed }
  callOpt r fun s => s.setFlt fun f => { f with enable := some a.enable }
  callOpt r fun s => s.setFlt fun f => { f with reset4 := some a.reset4 }

/-! ### Access -/

/-- One of the devices. -/
inductive Which | zero | one
deriving DecidableEq, Repr

/-- The device, if it is there. -/
def St.chip (s : St) : Which → Option Chip
  | .zero => some s.cs0
  | .one => s.cs1

/-- Change the device. -/
def St.upd (s : St) (w : Which) (f : Chip → Chip) : St :=
  match w with
  | .zero => { s with cs0 := f s.cs0 }
  | .one => { s with cs1 := s.cs1.map f }

/-- A device that the driver has to ask for its address mode, spi_flash.c:1967-1975. -/
def Chip.asks (c : Chip) : Bool := !c.fixed

/-- `host_flash_manager_configure_flash_for_rot_access`, host_flash_manager.c:593-633. Commands of a function of `spi_flash.c` are one step. -/
def configureChip (r : Nat → Res) (w : Which) : M Unit := do
  cmd r id
  let s ← state
  match s.chip w with
  | none => pure ()
  | some c =>
    if c.vendor = 0xff ∨ c.vendor = 0 then fail .invalidVendor
    else do
      cmd r fun s => s.upd w fun c => { c with busy := false }
      cmd r fun s => s.upd w fun c => { c with locked := false }
      (if c.quad then pure () else cmd r fun s => s.upd w fun c => { c with quad := true })
      if c.asks then cmd r fun s => s.upd w fun c => { c with noted4 := c.is4 } else pure ()

/-- `host_flash_initialization_initialize_flash`, host_flash_initialization.c:161-195, for one of the devices. `spi_flash_initialize_device_state` sets the
mode that the driver notes of a device with a fixed mode. -/
def initChip (r : Nat → Res) (w : Which) : M Unit := do
  let s ← state
  match s.chip w with
  | none => pure ()
  | some c =>
    if c.known then pure ()
    else cmd r fun s => s.upd w fun c => { c with known := true }

/-- `host_flash_manager_set_flash_for_rot_access`, host_flash_manager.c:647-685. `init` is whether there is a `flash_init`. -/
def rotAccess (r : Nat → Res) (init : Bool) : M Unit := do
  call r fun s => s.setFlt fun f => { f with on := false }
  call r fun s => { s with mux := false }
  (if init then do initChip r .zero; initChip r .one else pure ())
  configureChip r .zero
  let s ← state
  match s.cs1 with
  | none => pure ()
  | some _ => configureChip r .one

/-- `host_flash_manager_set_flash_for_host_access`, host_flash_manager.c:695-706. -/
def hostAccess (r : Nat → Res) : M Unit := do
  call r fun s => { s with mux := true }
  call r fun s => s.setFlt fun f => { f with on := true }

/-- `host_flash_manager_host_has_flash_access`, host_flash_manager.c:716-737. -/
def hasAccess (r : Nat → Res) : M Bool := do
  call r id
  call r id
  let s ← state
  pure (s.mux && s.flt.on)

/-! ### Specification -/

/-- The filter knows what the device is: manufacturer, address mode, and where the filter supports it, size, write enable and the mode after a reset. -/
structure Knows (f : Flt) (c : Chip) : Prop where
  mfg : f.mfg = some (c.vendor, c.device)
  mode : f.mode4 = some c.noted4
  fixed : f.fixed = c.fixed

/-- The optional settings are as before, or as the device is. -/
structure KnowsMore (f0 f : Flt) (c : Chip) : Prop where
  size : f.size = f0.size ∨ f.size = some c.size
  enable : f.enable = f0.enable ∨ f.enable = some (c.switch == .commandWithEnable && !c.fixed)
  reset : f.reset4 = f0.reset4 ∨ f.reset4 = c.onReset

/-- The driver has noted the mode of a device whose mode is fixed. -/
def Chip.Consistent (c : Chip) : Prop := ∀ b, c.supports b = .fixed → c.noted4 = b

/-- The device can be used. -/
structure Chip.Ready (c : Chip) : Prop where
  vendor : c.vendor ≠ 0xff ∧ c.vendor ≠ 0
  idle : c.busy = false
  unlocked : c.locked = false
  quad : c.quad = true
  mode : c.fixed = false → c.noted4 = c.is4

/-- What configuring the filter keeps: the first device, and the second but for its address mode. -/
structure Same (a b : St) : Prop where
  cs0 : b.cs0 = a.cs0
  cs1 : b.cs1 = a.cs1 ∨ ∃ c, a.cs1 = some c ∧ b.cs1 = some { c with noted4 := a.cs0.noted4, is4 := a.cs0.noted4 }

/-- `b` follows `a` without a command while the host had access. -/
def Quiet (a b : St) : Prop := ∃ l, b.log = l ++ a.log ∧ ∀ x ∈ l, x = false

end Verif.HostFlash.Filter
