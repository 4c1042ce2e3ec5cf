import Verif.OcpRecovery.Model
/-! What the recovery interface promises: the memory windows, the hardware actions, the error report and the framing on the bus. -/
namespace Verif.OcpRecovery

/-! ### Histories -/

/-- The calls a transport makes to the handler. -/
inductive Op
  | command (code : UInt8)   -- `ocp_recovery_device_start_new_command`
  | write (d : Bytes)        -- `ocp_recovery_device_write_request`
  | read                     -- `ocp_recovery_device_read_request`
  | badChecksum              -- `ocp_recovery_device_checksum_failure`
  | badLength                -- `ocp_recovery_device_write_overflow`, `ocp_recovery_device_write_incomplete`
deriving DecidableEq, Repr

/-- What a call returns. -/
inductive Out
  | status (s : Status)
  | data (r : Except Nat Bytes)
  | nothing

/-- One call. -/
def step (env : Env) : Op → World → Option (Out × World)
  | .command c, w => some (.status (startCommand c w).1, (startCommand c w).2)
  | .write d, w => (writeRequest env d w).map fun r => (.status r.1, r.2)
  | .read, w => (readRequest env w).map fun r => (.data r.1, r.2)
  | .badChecksum, w => some (.nothing, checksumFailure w)
  | .badLength, w => some (.nothing, lengthFailure w)

/-- A sequence of calls. -/
def run (env : Env) : List Op → World → Option (List Out × World)
  | [], w => some ([], w)
  | o :: os, w =>
    match step env o w with
    | none => none
    | some (r, w) => (run env os w).map fun x => (r :: x.1, x.2)

/-- The command buffer has 255 bytes. -/
def Fits : Op → Prop
  | .write d => d.length ≤ 255
  | _ => True

/-! ### The memory windows -/

/-- The region with this number. -/
def region (env : Env) (i : Nat) : Option Cms := (env.cms.getD [])[i]?

/-- A region the host may write: for a recovery image or of the vendor. -/
def Writable (env : Env) (i : Nat) : Prop := ∃ c, region env i = some c ∧ (c.type = 0 ∨ c.type = 5)

/-- What the integrator promises about the list of regions and the hardware interface. -/
structure Platform (env : Env) (w : World) : Prop where
  /-- Memory regions have a length, and at least as much memory. -/
  buffers : ∀ i c, region env i = some c → c.target = .buffer → c.isFlash = false ∧ 0 < c.length ∧ c.length ≤ (w.mem i).length
  /-- Providers are marked by the length 0. -/
  providers : ∀ i c, region env i = some c → c.target = .provider → c.isFlash = false ∧ c.length = 0
  /-- Flash regions are marked and have a length. -/
  flashes : ∀ i c b, region env i = some c → c.target = .flash b → c.isFlash = true ∧ 0 < c.length
  /-- Lengths are numbers of type `size_t`. -/
  sizes : ∀ i c, region env i = some c → c.length < 2 ^ 32
  /-- A provider does not store more than asked for. -/
  data : ∀ t i o d, env.varData t i o 252 = .ok d → d.length ≤ 252
  /-- The device identifier fits in the command buffer. -/
  ident : ∀ t d, env.deviceId t = .ok d → d.length ≤ 255

/-- If there is a flash region, the first region is one. -/
def FlashFirst (env : Env) : Prop := ∀ i c b, region env i = some c → c.target = .flash b → ∃ c0 b0, region env 0 = some c0 ∧ c0.target = .flash b0

/-- Only the first region may be in flash, and it consists of whole sectors within the address space. -/
structure OneFlash (env : Env) : Prop where
  only : ∀ i c b, region env i = some c → c.target = .flash b → i = 0
  sectors : ∀ c b, region env 0 = some c → c.target = .flash b →
    b % env.flash.sector = 0 ∧ c.length % env.flash.sector = 0 ∧ b + c.length < 2 ^ 32
  size : 0 < env.flash.sector

/-- The address lies in a flash region the host may write. -/
def InFlashWindow (env : Env) (a : Nat) : Prop :=
  ∃ i c b, region env i = some c ∧ c.target = .flash b ∧ (c.type = 0 ∨ c.type = 5) ∧ b ≤ a ∧ a < b + c.length

/-- Writing a stream of bytes to a window of `len` bytes: each byte goes to the position after the last one, and from the end of the
window to its start. The result is the memory, the position after the last byte and whether the start was taken up again. -/
def stream (len : Nat) (m : Bytes) (pos : Nat) (again : Bool) : Bytes → Bytes × Nat × Bool
  | [] => (m, pos, again)
  | b :: d => if pos ≥ len then stream len (m.set 0 b) 1 true d else stream len (m.set pos b) (pos + 1) again d

/-- The next multiple of four. -/
def align4 (n : Nat) : Nat := (n + 3) / 4 * 4

/-- The bytes of a region, wherever it is stored. -/
def content (w : World) (i : Nat) (c : Cms) : Bytes :=
  match c.target with
  | .buffer => (w.mem i).take c.length
  | .flash b => Verif.Flash.bytesAt w.fs.mem b c.length
  | .provider => []

/-- Conditions on a region of whole sectors. -/
structure Whole (s b L : Nat) : Prop where
  pos : 0 < s
  base : b % s = 0
  len : L % s = 0
  top : b + L < 2 ^ 32

/-- No flash operation fails or stops early. -/
def NoFault (env : Env) : Prop := (∀ n, env.flash.out n = .ok) ∧ ∀ n, env.sectorFails n = false

/-- What is needed of a flash region: whole sectors of at least 255 bytes. -/
structure FlashOk (env : Env) (c : Cms) : Prop where
  fault : NoFault env
  whole : ∀ b, c.target = .flash b → Whole env.flash.sector b c.length
  big : 255 ≤ env.flash.sector
  quad : env.flash.sector % 4 = 0

/-- All pieces but the last have a multiple of four bytes. -/
def Quads : List Bytes → Prop
  | [] => True
  | [_] => True
  | d :: ds => d.length % 4 = 0 ∧ Quads ds

/-- Fetching from region `i` gives the bytes `D`. -/
def Source (env : Env) (w : World) (i : Nat) (c : Cms) (D : Bytes) : Prop :=
  match c.target with
  | .buffer => D = (w.mem i).take c.length
  | .flash b => NoFault env ∧ b + c.length < 2 ^ 32 ∧ D = Verif.Flash.bytesAt w.fs.mem b c.length
  | .provider => (∀ t, env.varSize t i = .ok D.length) ∧ (∀ t o, env.varData t i o 252 = .ok ((D.drop o).take 252)) ∧ D ≠ [] ∧ D.length < 2 ^ 32

/-- The zero bytes that fill up to a multiple of four. -/
def padded (d : Bytes) : Bytes := d ++ List.replicate (align4 d.length - d.length) 0

/-- Selecting position `o` of region `i`. -/
def select (i : UInt8) (o : Nat) : List Op := [.command 0x29, .write ([i, 0] ++ toLE 4 o)]

/-- Sending pieces of data to the selected region. -/
def upload (ds : List Bytes) : List Op := ds.flatMap fun d => [.command 0x2b, .write d]

/-- Fetching `n` pieces of data from the selected region. -/
def download : Nat → List Op
  | 0 => []
  | n + 1 => [.command 0x2b, .read] ++ download n

/-- The data in a list of results. -/
def fetched : List Out → Bytes
  | [] => []
  | .data (.ok d) :: os => d ++ fetched os
  | _ :: os => fetched os

/-! ### Hardware actions -/

/-- The action a write of command `active` with data `d` asks for, if the device supports it. -/
def action (env : Env) (active : UInt8) (d : Bytes) : List HwCall :=
  if active = 0x25 then
    match d with
    | [ctrl, forced, intf] =>
      if intf ≠ 0 ∨ (forced = 0x0f ∧ env.hasForced = false) then []
      else if ctrl = 1 ∧ env.hasReset = true then [.resetDevice (forced == 0x0f)]
      else if ctrl = 2 ∧ env.hasMgmt = true then [.resetManagement (forced == 0x0f)]
      else []
    | _ => []
  else if active = 0x26 then
    match d with
    | [cms, image, act] =>
      match region env cms.toNat with
      | some c => if image = 1 ∧ act = 0x0f ∧ c.type = 0 ∧ env.hasActivate = true then [.activate cms.toNat] else []
      | none => []
    | _ => []
  else []

/-- The recovery status (ocp_recovery.h:309-318) after a write of command `active` with data `d`. `answer` is what the hardware says
to an activation: `none` for success, otherwise whether the image was not authentic. -/
def recoveryAfter (env : Env) (active : UInt8) (d : Bytes) (answer : Nat → Option Bool) (old : UInt8) : UInt8 :=
  if active = 0x26 then
    match d with
    | [cms, image, act] =>
      match region env cms.toNat with
      | none => old
      | some c =>
        if image ≠ 1 ∨ env.hasActivate = false then old
        else if c.type ≠ 0 then 0x0f               -- the region is not for recovery images
        else if act ≠ 0x0f then old
        else
          match answer cms.toNat with
          | none => 3                              -- successful
          | some true => 0x0d                      -- not authentic
          | some false => 0x0c                     -- failed
    | _ => old
  else old

/-! ### The error report -/

/-- The kind of error (ocp_recovery.h:197-203) of a write of command `active` with data `d`: 1 for a command that is not supported or
cannot be written, 2 for a parameter that is not supported, 3 for a wrong length. `sel` is the selected region. -/
def writeError (env : Env) (active sel : UInt8) (d : Bytes) : Option UInt8 :=
  if active = 0 then none
  else if active = 0x25 then
    if d.length ≠ 3 then some 3
    else if d.getD 2 0 ≠ 0 ∨ (d.getD 1 0 = 0x0f ∧ env.hasForced = false) ∨ (d.getD 0 0 = 1 ∧ env.hasReset = false) ∨
      (d.getD 0 0 = 2 ∧ env.hasMgmt = false) then some 2
    else none
  else if active = 0x26 then
    if d.length ≠ 3 then some 3
    else if (d.getD 0 0).toNat ≥ env.count ∨ d.getD 1 0 = 2 ∨ (env.hasActivate = false ∧ (d.getD 1 0 = 1 ∨ d.getD 2 0 = 0x0f)) then some 2
    else none
  else if active = 0x29 then
    if d.length ≠ 6 then some 3 else if env.cms = none then some 1 else none
  else if active = 0x2b then
    if env.cms = none then some 1 else if sel.toNat ≥ env.count then some 2 else none
  else some 1

/-- The kind of error of a read of command `active`. -/
def readError (env : Env) (active sel : UInt8) : Option UInt8 :=
  if active = 0 ∨ active ∈ [0x22, 0x23, 0x24, 0x25, 0x26, 0x27] then none
  else if active = 0x29 ∨ active = 0x2a then if env.cms = none then some 1 else none
  else if active = 0x2b then if env.cms = none then some 1 else if sel.toNat ≥ env.count then some 2 else none
  else some 1

/-- The report after a read: it is given and cleared by the status command. -/
def reportAfterRead (env : Env) (active sel p : UInt8) : UInt8 := if active = 0x24 then 0 else (readError env active sel).getD p

/-- The selected region after a write. -/
def selectedAfter (env : Env) (active : UInt8) (d : Bytes) (old : UInt8) : UInt8 :=
  if active = 0x29 ∧ d.length = 6 ∧ env.cms ≠ none then d.getD 0 0 else old

/-- What a command code that does not exist is. -/
def Unknown (c : UInt8) : Prop := c < 0x22 ∨ c > 0x2c

instance (c : UInt8) : Decidable (Unknown c) := inferInstanceAs (Decidable (_ ∨ _))

/-- The active command after each call: a known code is stored and the next request takes it. -/
def activeAfter : UInt8 → Op → UInt8
  | act, .command c => if Unknown c then act else c
  | _, _ => 0

/-- The action a call asks for. -/
def actionOf (env : Env) (act : UInt8) : Op → List HwCall
  | .write d => action env act d
  | _ => []

/-- The actions a history asks for. `act` is the active command at its start. -/
def asked (env : Env) : UInt8 → List Op → List HwCall
  | _, [] => []
  | act, o :: os => actionOf env act o ++ asked env (activeAfter act o) os

/-- The report after a history: the kind of the last error since the last status command. `act` is the active command, `sel` the
selected region and `p` the report at its start. -/
def report (env : Env) : UInt8 → UInt8 → UInt8 → List Op → UInt8
  | _, _, p, [] => p
  | act, sel, p, o :: os =>
    report env (activeAfter act o) (match o with | .write d => selectedAfter env act d sel | _ => sel)
      (match o with
        | .command c => if Unknown c then 1 else p
        | .write d => (writeError env act sel d).getD p
        | .read => reportAfterRead env act sel p
        | .badChecksum => 4
        | .badLength => 3) os

/-- The error codes of the hardware, the flash and the providers are not those the handler itself uses for its report. -/
structure Foreign (env : Env) : Prop where
  hw : ∀ t i c b, env.activate t i = some (c, b) → c ∉ [eUnsupported, eReadOnly, eParam, eCms, eIncomplete, eExtra]
  flash : env.flashErr ∉ [eUnsupported, eReadOnly, eParam, eCms, eIncomplete, eExtra]
  ident : ∀ t e, env.deviceId t = .error e → e ∉ [eUnsupported, eReadOnly, eParam, eCms, eIncomplete, eExtra]
  size : ∀ t i e, env.varSize t i = .error e → e ∉ [eUnsupported, eReadOnly, eParam, eCms, eIncomplete, eExtra]
  data : ∀ t i o e, env.varData t i o 252 = .error e → e ∉ [eUnsupported, eReadOnly, eParam, eCms, eIncomplete, eExtra]

/-! ### The bus -/

/-- The packet error code of SMBus over all bytes of a transaction (C17). -/
def pec (d : Bytes) : UInt8 := Verif.Checksum.update 0 d

/-- What a write transaction does to the device: the address, the command code and the bytes that follow, up to the stop. The first
byte is the number of bytes; a checksum may follow them. -/
def served (env : Env) (addr cmd : UInt8) (d : Bytes) (w : World) : Option World :=
  if cmd < 0x22 ∨ cmd > 0x2c then some (startCommand cmd w).2        -- refused
  else
    let w := { w with ctl := { w.ctl with active := cmd } }
    match d with
    | [] => some w
    | n :: rest =>
      if d.length > 257 ∨ rest.length < n.toNat then some (lengthFailure w)
      else if rest.length > n.toNat ∧ rest.getD n.toNat 0 ≠ pec ([addr <<< 1, cmd, n] ++ rest.take n.toNat) then some (checksumFailure w)
      else (writeRequest env (rest.take n.toNat) w).map (·.2)

/-- Bytes received one after the other. -/
def receiveAll : Bytes → Bus → World → Bus × World
  | [], b, w => (b, w)
  | x :: xs, b, w => receiveAll xs (receive x b w).2.1 (receive x b w).2.2

/-- What happens on the bus. -/
inductive Event
  | start (addr : UInt8)
  | byte (x : UInt8)
  | stop
  | send (addr : UInt8)
deriving DecidableEq, Repr

/-- One event. -/
def busStep (env : Env) : Event → Bus × World → Option (Bus × World)
  | .start a, s => some (start a s.1, s.2)
  | .byte x, s => some (receive x s.1 s.2).2
  | .stop, s => stop env s.1 s.2
  | .send a, s => transmit env a s.1 s.2

/-- A sequence of events. -/
def busRun (env : Env) : List Event → Bus × World → Option (Bus × World)
  | [], s => some s
  | e :: es, s => (busStep env e s).bind (busRun env es)

end Verif.OcpRecovery
