import Verif.Pcisig.Model
/-! The IDE key management responder: `core/pcisig/ide/ide_commands.c` and `cmd_interface_ide_responder.c`. The hardware driver (`struct ide_driver`)
is an interface without an implementation in /repo: it is a parameter. Null arguments are not modelled. -/
namespace Verif.Pcisig.Ide

/-- Results: success, the errors of cmd_interface_ide_responder.h:38-42, or an error of the driver. -/
inductive Status
  | ok
  | badSize
  | unknownCommand
  | outOfSpace
  | securedRequired
  | driver (code : Nat)
  deriving DecidableEq, Repr

/-- Result of `key_prog`: success, the codes of ide_driver.h:139-153 the responder tells apart, or any other. -/
inductive KeyDrv
  | ok
  | invalidArgument
  | invalidStream
  | unsupportedPort
  | other
  deriving DecidableEq, Repr

/-- `struct ide_driver`, ide_driver.h:14-131. Registers are numbers of 32 bits; a block of registers is what the driver writes. Errors leave the
memory alone (simplification: the driver may write before it fails; an error answer does not contain the buffer). -/
structure Env where
  /-- bus, device and function, segment, highest port -/
  info : UInt8 → Except Nat (UInt8 × UInt8 × UInt8 × UInt8)
  cap : UInt8 → Except Nat Nat
  ctrl : UInt8 → Except Nat Nat
  link : UInt8 → Nat → Except Nat Bytes
  sel : UInt8 → Nat → Except Nat Bytes
  keyProg : KeyDrv
  go : Option Nat
  stop : Option Nat

/-- Which key is meant: port, stream, key set, transmit key, sub stream. -/
structure Slot where
  port : UInt8
  stream : UInt8
  keySet : Nat
  tx : Bool
  sub : Nat
  deriving DecidableEq, Repr

/-- Calls of the driver that change something. -/
inductive Call
  | prog (s : Slot) (key iv : Bytes)
  | go (s : Slot)
  | stop (s : Slot)
  deriving DecidableEq, Repr

/-- What a request leaves behind: result, buffer, length of the answer and the calls. -/
structure Res where
  status : Status
  buf : Bytes
  len : Nat
  calls : List Call
  deriving DecidableEq, Repr

/-- Where the next register block goes (`ptr`, relative to the answer) and `available_payload_length`. -/
structure Pos where
  buf : Bytes
  ptr : Nat
  avail : Nat

/-- Loop over the link blocks, ide_commands.c:84-102: `n` blocks from number `i` on. -/
def linkLoop (e : Env) (port : UInt8) : Nat → Nat → Pos → Option (Status × Pos)
  | 0, _, p => some (.ok, p)
  | n + 1, i, p =>
    if p.avail < 8 then some (.outOfSpace, p)
    else match e.link port i with
      | .error c => some (.driver c, p)
      | .ok d => do
        let buf ← put p.buf p.ptr d
        linkLoop e port n (i + 1) ⟨buf, p.ptr + 8, p.avail - 8⟩

/-- Loop over the selective blocks, ide_commands.c:107-133. The block has up to 200 bytes, `addr_assoc_reg_block` is at 20. -/
def selLoop (e : Env) (port : UInt8) : Nat → Nat → Pos → Option (Status × Pos)
  | 0, _, p => some (.ok, p)
  | n + 1, i, p =>
    if p.avail < 200 then some (.outOfSpace, p)
    else match e.sel port i with
      | .error c => some (.driver c, p)
      | .ok d => do
        let buf ← put p.buf p.ptr d
        let reg ← get buf p.ptr 4
        let incr := 20 + (leNat reg &&& 0xf) * 12
        selLoop e port n (i + 1) ⟨buf, p.ptr + incr, p.avail - incr⟩

/-- The link blocks if there are any, ide_commands.c:83-103. -/
def linkBlocks (e : Env) (port : UInt8) (cap : Nat) (p : Pos) : Option (Status × Pos) :=
  if cap &&& 1 = 1 then linkLoop e port (((cap >>> 13) &&& 7) + 1) 0 p else some (.ok, p)

/-- The selective blocks if there are any, ide_commands.c:106-134. -/
def selBlocks (e : Env) (port : UInt8) (cap : Nat) (p : Pos) : Option (Status × Pos) :=
  if (cap >>> 1) &&& 1 = 1 then selLoop e port (((cap >>> 16) &&& 0xff) + 1) 0 p else some (.ok, p)

/-- `ide_km_query`, ide_commands.c:19-142. -/
def query (e : Env) (m : Msg) : Option Res := do
  if m.len ≠ 3 then return ⟨.badSize, m.buf, m.len, []⟩
  let port ← (get m.buf 2 1).map (·.getD 0 0)
  let buf ← put m.buf 0 (List.replicate 15 0)
  let buf ← put buf 0 [0x01]
  let buf ← put buf 2 [port]
  match e.info port with
  | .error c => return ⟨.driver c, buf, m.len, []⟩
  | .ok (bus, df, seg, top) =>
    let buf ← put buf 3 [df, bus, seg, top]
    match e.cap port with
    | .error c => return ⟨.driver c, buf, m.len, []⟩
    | .ok cap =>
      let buf ← put buf 7 (toLE 4 cap)
      match e.ctrl port with
      | .error c => return ⟨.driver c, buf, m.len, []⟩
      | .ok ctrl =>
        let buf ← put buf 11 (toLE 4 ctrl)
        if m.room < 15 then return ⟨.outOfSpace, buf, m.len, []⟩
        let p : Pos := ⟨buf, 15, m.room - 15⟩
        let (st, p) ← linkBlocks e port cap p
        if st ≠ .ok then return ⟨st, p.buf, m.len, []⟩
        let (st, p) ← selBlocks e port cap p
        if st ≠ .ok then return ⟨st, p.buf, m.len, []⟩
        return ⟨.ok, p.buf, p.ptr, []⟩

/-- The fields common to the key requests: stream at 3, sub stream bits at 5, port at 6 (ide_protocol.h:89-123, 172-191). -/
def slotOf (buf : Bytes) : Option Slot := do
  let q ← get buf 3 4
  let bits := (q.getD 2 0).toNat
  return ⟨q.getD 3 0, q.getD 0 0, bits &&& 1, (bits >>> 1) &&& 1 = 1, bits >>> 4⟩

/-- Status in the answer to `KEY_PROG`, ide_commands.c:178-189. -/
def ackStatus : KeyDrv → UInt8
  | .ok => 0
  | .invalidArgument => 3
  | .invalidStream => 3
  | .unsupportedPort => 2
  | .other => 4

/-- End of `ide_km_key_prog`, ide_commands.c:194-205. -/
def progAnswer (buf : Bytes) (status : UInt8) (calls : List Call) : Option Res := do
  let buf ← put buf 0 [0x03]
  let buf ← put buf 4 [status]
  return ⟨.ok, buf, 7, calls⟩

/-- `ide_km_key_prog`, ide_commands.c:152-206. -/
def keyProg (e : Env) (m : Msg) : Option Res := do
  if m.len ≠ 47 then progAnswer m.buf 1 []
  else
    let slot ← slotOf m.buf
    let key ← get m.buf 7 32
    let iv ← get m.buf 39 8
    let buf ← put m.buf 7 (List.replicate 40 0)
    progAnswer buf (ackStatus e.keyProg) [.prog slot key iv]

/-- `ide_km_key_set_go`, ide_commands.c:216-254. -/
def keySetGo (e : Env) (m : Msg) : Option Res := do
  if m.len ≠ 7 then return ⟨.badSize, m.buf, m.len, []⟩
  let slot ← slotOf m.buf
  match e.go with
  | some c => return ⟨.driver c, m.buf, m.len, [.go slot]⟩
  | none =>
    let buf ← put m.buf 0 [0x06]
    return ⟨.ok, buf, 7, [.go slot]⟩

/-- `ide_km_key_set_stop`, ide_commands.c:264-302. -/
def keySetStop (e : Env) (m : Msg) : Option Res := do
  if m.len ≠ 7 then return ⟨.badSize, m.buf, m.len, []⟩
  let slot ← slotOf m.buf
  match e.stop with
  | some c => return ⟨.driver c, m.buf, m.len, [.stop slot]⟩
  | none =>
    let buf ← put m.buf 0 [0x06]
    return ⟨.ok, buf, 7, [.stop slot]⟩

/-- `cmd_interface_ide_responder_process_request`, cmd_interface_ide_responder.c:11-60. `none`: access outside of the buffer. -/
def process (e : Env) (m : Msg) : Option Res := do
  if m.secured = false then return ⟨.securedRequired, m.buf, m.len, []⟩
  if m.len < 1 then return ⟨.badSize, m.buf, m.len, []⟩
  let t ← (get m.buf 0 1).map fun t => (t.getD 0 0).toNat
  if t = 0 then query e m
  else if t = 2 then keyProg e m
  else if t = 4 then keySetGo e m
  else if t = 5 then keySetStop e m
  else return ⟨.unknownCommand, m.buf, m.len, []⟩

end Verif.Pcisig.Ide
