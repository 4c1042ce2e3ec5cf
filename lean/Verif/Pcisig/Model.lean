import Verif.Common.Bytes
/-! The TDISP responder: `core/pcisig/tdisp/tdisp_commands.c`, `cmd_interface_tdisp_responder.c`, `tdisp_tdi_context_manager.c` and
`firmware_update_observer_tdisp.c`. The hardware driver (`struct tdisp_driver`), the store of the interface contexts
(`struct tdisp_tdi_context_manager`) and the random number generator are interfaces without an implementation in /repo: they are parameters. Null
arguments are not modelled. -/
namespace Verif.Pcisig

/-! ### Memory -/

/-- Read `n` bytes at `i`; `none`: outside of the buffer. -/
def get (b : Bytes) (i n : Nat) : Option Bytes := if i + n ≤ b.length then some (window b i n) else none

/-- Write bytes at `i`; `none`: outside of the buffer. -/
def put (b : Bytes) (i : Nat) (d : Bytes) : Option Bytes :=
  if i + d.length ≤ b.length then some (b.take i ++ d ++ b.drop (i + d.length)) else none

/-- A request (`struct cmd_interface_msg`): the buffer from the payload on, the length of the payload, what
`cmd_interface_msg_get_max_response` says (see C53) and whether it came in a secured message. -/
structure Msg where
  buf : Bytes
  len : Nat
  room : Nat
  secured : Bool
  deriving DecidableEq, Repr

/-- What is left in the message: the buffer and the length of the answer (`cmd_interface_msg_set_message_payload_length`). -/
structure Ans where
  buf : Bytes
  len : Nat
  deriving DecidableEq, Repr

/-! ### Contexts of the device interfaces -/

/-- `struct tdisp_tdi_context`, tdisp_tdi_context_manager.h:39-47. -/
structure Ctx where
  mask : Nat
  nonce : Bytes
  lockFlags : Nat
  stream : UInt8
  mmio : Nat
  p2p : Nat
  reserved : List Nat
  deriving DecidableEq, Repr

/-- `tdisp_tdi_context_clear`, tdisp_tdi_context_manager.c:16-25. -/
def Ctx.clear (_ : Ctx) : Ctx := ⟨0, List.replicate 32 0, 0, 0, 0, 0, [0, 0, 0, 0]⟩

/-- `tdisp_tdi_context_set_start_nonce`, tdisp_tdi_context_manager.c:36-48; `none`: refused. -/
def Ctx.setNonce (c : Ctx) (n : Bytes) : Option Ctx :=
  if n.length ≠ 32 then none else some { c with nonce := n, mask := c.mask ||| 0x0001 }

/-- `tdisp_tdi_context_set_lock_flags`, tdisp_tdi_context_manager.c:58-68. The argument has 32 bits, the field 16. -/
def Ctx.setLockFlags (c : Ctx) (v : Nat) : Ctx := { c with lockFlags := v % 65536, mask := c.mask ||| 0x0002 }

/-- `tdisp_tdi_context_set_default_ide_stream`, tdisp_tdi_context_manager.c:78-89. -/
def Ctx.setStream (c : Ctx) (v : UInt8) : Ctx := { c with stream := v, mask := c.mask ||| 0x0004 }

/-- `tdisp_tdi_context_set_mmio_reporting_offset`, tdisp_tdi_context_manager.c:99-110. -/
def Ctx.setMmio (c : Ctx) (v : Nat) : Ctx := { c with mmio := v, mask := c.mask ||| 0x0008 }

/-- `tdisp_tdi_context_set_bind_p2p_address_mask`, tdisp_tdi_context_manager.c:120-131. -/
def Ctx.setP2p (c : Ctx) (v : Nat) : Ctx := { c with p2p := v, mask := c.mask ||| 0x0010 }

/-- `tdisp_tdi_context_set_reserved`, tdisp_tdi_context_manager.c:142-153; `none`: refused. -/
def Ctx.setReserved (c : Ctx) (i v : Nat) : Option Ctx :=
  if i ≥ c.reserved.length then none else some { c with reserved := c.reserved.set i v, mask := c.mask ||| (0x0020 <<< i) }

/-! ### The outside -/

/-- Status of a call to the driver: success, the codes of tdisp_driver.h:132-149 the responder tells apart, or any other. -/
inductive Drv
  | ok
  | invalidArgument
  | invalidInterface
  | invalidState
  | notSecure
  | other
  deriving DecidableEq, Repr

/-- What the outside answers during one request. -/
structure Env where
  /-- `get_function_index` of the driver, from the bus/device/function number. -/
  index : Nat → Option Nat
  /-- `get_tdisp_capabilities`: from the four bytes of the requester to the 28 bytes of the responder. -/
  caps : Bytes → Option Bytes
  /-- `lock_interface_request` with the 20 bytes of parameters. -/
  lock : Nat → Bytes → Drv
  /-- `get_device_interface_report`: function, offset, length, size of the buffer; the bytes put into the buffer and the remaining length. -/
  report : Nat → Nat → Nat → Nat → Drv × Bytes × Nat
  /-- `get_device_interface_state`. -/
  state : Nat → Option UInt8
  /-- `start_interface_request`. -/
  start : Nat → Drv
  /-- `stop_interface_request`. -/
  stop : Nat → Drv
  /-- `generate_random_buffer` for 32 bytes. -/
  rng : Option Bytes
  /-- Whether `get_tdi_context` of the context manager succeeds. -/
  getOk : Nat → Bool
  /-- Whether `set_start_nonce` of the context manager succeeds. -/
  setOk : Nat → Bool
  /-- What the driver does to the contexts (it shares the context manager) while it locks, starts or stops an interface. -/
  touch : (Nat → Ctx) → Nat → Ctx

/-- Calls that change the state of the hardware. -/
inductive Call
  | lock (f : Nat) (params : Bytes)
  | start (f : Nat)
  | stop (f : Nat)
  deriving DecidableEq, Repr

/-- Contexts per function and calls made to the driver. -/
structure St where
  ctx : Nat → Ctx
  calls : List Call

/-! ### Answers -/

/-- First 16 bytes of an answer after the structure was filled with zeros: version 1.0 (0x10), type, function. `struct tdisp_header`,
tdisp_protocol.h:85-90. -/
def header (type : UInt8) (fid : Bytes) : Bytes := [0x10, type, 0, 0] ++ fid ++ List.replicate 8 0

/-- `tdisp_generate_error_response`, tdisp_commands.c:24-37. The field writes are one write here. -/
def failWith (buf fid : Bytes) (code : Nat) (s : St) : Option (Ans × St) := do
  let b ← put buf 0 (header 0x7f fid ++ toLE 4 code ++ toLE 4 0)
  some (⟨b, 24⟩, s)

/-- Function id if the request has not been looked at. -/
def noFid : Bytes := [0, 0, 0, 0]

/-- First checks of all handlers: the length (else INVALID_REQUEST, for function 0) and the version (else VERSION_MISMATCH); e.g.
tdisp_commands.c:66-77. -/
def checked (m : Msg) (size : Nat) (s : St) (k : Bytes → Option (Ans × St)) : Option (Ans × St) :=
  if m.len ≠ size then failWith m.buf noFid 0x01 s
  else do
    let fid ← get m.buf 4 4
    let v ← get m.buf 0 1
    if v ≠ [0x10] then failWith m.buf fid 0x41 s else k fid

/-- Check of the room for the answer (else UNSPECIFIED), e.g. tdisp_commands.c:82-87. -/
def roomy (m : Msg) (n : Nat) (fid : Bytes) (s : St) (k : Option (Ans × St)) : Option (Ans × St) :=
  if m.room < n then failWith m.buf fid 0x05 s else k

/-- Translation of the function (else INVALID_INTERFACE), e.g. tdisp_commands.c:89-93. `bdf` is the lower half of the function id,
tdisp_protocol.h:55-73. -/
def indexed (e : Env) (m : Msg) (fid : Bytes) (s : St) (k : Nat → Option (Ans × St)) : Option (Ans × St) :=
  match e.index (leNat (fid.take 2)) with
  | none => failWith m.buf fid 0x101 s
  | some f => k f

/-! ### Handlers -/

/-- `tdisp_get_version`, tdisp_commands.c:49-113. -/
def getVersion (versions : Bytes) (e : Env) (m : Msg) (s : St) : Option (Ans × St) :=
  checked m 16 s fun fid => roomy m (17 + versions.length) fid s <| indexed e m fid s fun _ => do
    let b ← put m.buf 0 (header 0x01 fid ++ [UInt8.ofNat versions.length] ++ versions)
    some (⟨b, 17 + versions.length⟩, s)

/-- Loop of `tdisp_get_capabilities` over the supported messages, tdisp_commands.c:170-174: the bit field is at byte 4 of the capabilities. -/
def addMessages (caps : Bytes) : List Nat → Option Bytes
  | [] => some caps
  | m :: ms =>
    let bit := if m < 0x80 then 2 ^ 32 + m - 0x80 else m - 0x80
    if 16 ≤ bit / 8 then none
    else do
      let b ← get caps (4 + bit / 8) 1
      let c ← put caps (4 + bit / 8) [b.headD 0 ||| UInt8.ofNat (1 <<< (bit % 8))]
      addMessages c ms

/-- Types of requests that are served, `tdisp_supported_messages`, cmd_interface_tdisp_responder.c:22-30. -/
def supported : List Nat := [0x81, 0x82, 0x83, 0x84, 0x85, 0x86, 0x87]

/-- `tdisp_get_capabilities`, tdisp_commands.c:125-191. The reserved bytes of the header stay those of the request. -/
def getCapabilities (msgs : List Nat) (e : Env) (m : Msg) (s : St) : Option (Ans × St) :=
  checked m 20 s fun fid => roomy m 44 fid s <| do
    let req ← get m.buf 16 4
    match e.caps req with
    | none => failWith m.buf fid 0x05 s
    | some caps =>
      let caps ← addMessages caps msgs
      let b ← put m.buf 0 [0x10, 0x02]
      let b ← put b 4 fid
      let b ← put b 16 caps
      some (⟨b, 44⟩, s)

/-- Bit of the start nonce, tdisp_tdi_context_manager.h:16. -/
def hasNonce (c : Ctx) : Bool := c.mask &&& 0x0001 != 0

/-- `tdisp_lock_interface`, tdisp_commands.c:203-307. The mask of the fetched context is the one of the stored context, whatever fields were asked
for. -/
def lockInterface (e : Env) (m : Msg) (s : St) : Option (Ans × St) :=
  checked m 36 s fun fid => roomy m 48 fid s <| indexed e m fid s fun f =>
    if e.getOk f = false then failWith m.buf fid 0x101 s
    else if hasNonce (s.ctx f) then failWith m.buf fid 0x04 s
    else match e.rng with
      | none => failWith m.buf fid 0x05 s
      | some nonce => do
        let params ← get m.buf 16 20
        let s' : St := ⟨e.touch s.ctx, s.calls ++ [.lock f params]⟩
        match e.lock f params with
        | .ok =>
          if e.setOk f = false then failWith m.buf fid 0x05 s'
          else match (s'.ctx f).setNonce nonce with
            | none => failWith m.buf fid 0x05 s'
            | some c => do
              let b ← put m.buf 0 (header 0x03 fid ++ nonce)
              some (⟨b, 48⟩, ⟨fun g => if g = f then c else s'.ctx g, s'.calls⟩)
        | .notSecure => failWith m.buf fid 0x01 s'
        | _ => failWith m.buf fid 0x05 s'

/-- `tdisp_get_device_interface_report`, tdisp_commands.c:317-407. The driver writes the report into the answer behind the first 20 bytes. -/
def getReport (e : Env) (m : Msg) (s : St) : Option (Ans × St) :=
  checked m 20 s fun fid => roomy m 20 fid s <| indexed e m fid s fun f => do
    let off ← get m.buf 16 2
    let len ← get m.buf 18 2
    let cap := if m.room - 20 > 65535 then 65535 else m.room - 20
    let r := e.report f (leNat off) (leNat len) cap
    let b ← put m.buf 20 r.2.1
    match r.1 with
    | .ok =>
      let b ← put b 0 (header 0x04 fid ++ toLE 2 r.2.1.length ++ toLE 2 r.2.2)
      some (⟨b, 20 + r.2.1.length⟩, s)
    | .invalidArgument => failWith b fid 0x01 s
    | .invalidInterface => failWith b fid 0x101 s
    | .invalidState => failWith b fid 0x04 s
    | _ => failWith b fid 0x05 s

/-- `tdisp_get_device_interface_state`, tdisp_commands.c:417-480. -/
def getState (e : Env) (m : Msg) (s : St) : Option (Ans × St) :=
  checked m 16 s fun fid => roomy m 17 fid s <| indexed e m fid s fun f =>
    match e.state f with
    | none => failWith m.buf fid 0x101 s
    | some st => do
      let b ← put m.buf 0 (header 0x05 fid ++ [st])
      some (⟨b, 17⟩, s)

/-- `tdisp_start_interface`, tdisp_commands.c:491-575. `buffer_compare` is byte equality (C06). Only the message is cleared, not the context. -/
def startInterface (e : Env) (m : Msg) (s : St) : Option (Ans × St) :=
  checked m 48 s fun fid => indexed e m fid s fun f =>
    if e.getOk f = false then failWith m.buf fid 0x05 s
    else if hasNonce (s.ctx f) = false then failWith m.buf fid 0x04 s
    else do
      let n ← get m.buf 16 32
      if n ≠ (s.ctx f).nonce then failWith m.buf fid 0x102 s
      else
        let b ← put m.buf 16 (List.replicate 32 0)
        let s' : St := ⟨e.touch s.ctx, s.calls ++ [.start f]⟩
        match e.start f with
        | .ok =>
          let b ← put b 1 [0x06]
          some (⟨b, 16⟩, s')
        | .invalidState => failWith b fid 0x04 s'
        | _ => failWith b fid 0x05 s'

/-- `tdisp_stop_interface`, tdisp_commands.c:585-637. -/
def stopInterface (e : Env) (m : Msg) (s : St) : Option (Ans × St) :=
  checked m 16 s fun fid => indexed e m fid s fun f =>
    let s' : St := ⟨e.touch s.ctx, s.calls ++ [.stop f]⟩
    match e.stop f with
    | .ok => do
      let b ← put m.buf 1 [0x07]
      some (⟨b, 16⟩, s')
    | _ => failWith m.buf fid 0x05 s'

/-- What `process_request` gives back: an error code and no answer, or an answer. -/
inductive Out
  | securedRequired
  | badSize
  | answer (a : Ans)
  deriving DecidableEq, Repr

/-- Wraps an answer. -/
def answered (x : Option (Ans × St)) : Option (Out × St) := x.map fun r => (.answer r.1, r.2)

/-- `cmd_interface_tdisp_responder_process_request`, cmd_interface_tdisp_responder.c:33-128. -/
def process (versions : Bytes) (e : Env) (m : Msg) (s : St) : Option (Out × St) :=
  if m.secured = false then some (.securedRequired, s)
  else if m.len < 16 then some (.badSize, s)
  else do
    let t ← get m.buf 1 1
    match (t.headD 0).toNat with
    | 0x81 => answered (getVersion versions e m s)
    | 0x82 => answered (getCapabilities supported e m s)
    | 0x83 => answered (lockInterface e m s)
    | 0x84 => answered (getReport e m s)
    | 0x85 => answered (getState e m s)
    | 0x86 => answered (startInterface e m s)
    | 0x87 => answered (stopInterface e m s)
    | _ => answered (failWith m.buf noFid 0x07 s)

/-! ### Firmware updates -/

/-- Loop of `firmware_update_observer_tdisp_on_prepare_update`, firmware_update_observer_tdisp.c:26-51: whether an interface from `f` on forbids
the update. `ctxOk` is the result of `get_tdi_context`. -/
def updateLoop (state : Nat → Option UInt8) (ctxOk : Nat → Bool) (ctx : Nat → Ctx) : Nat → Nat → Bool
  | _, 0 => false
  | f, n + 1 =>
    match state f with
    | none => updateLoop state ctxOk ctx (f + 1) n
    | some st =>
      if st ≠ 2 ∧ st ≠ 1 then updateLoop state ctxOk ctx (f + 1) n
      else if ctxOk f = false then updateLoop state ctxOk ctx (f + 1) n
      else if (ctx f).lockFlags &&& 0x01 ≠ 0 then true
      else updateLoop state ctxOk ctx (f + 1) n

/-- TDISP_DRIVER_UPDATE_NOT_ALLOWED, tdisp_driver.h:147 with status/rot_status.h:21: module 0x85, code 0x0E. -/
def UPDATE_NOT_ALLOWED : Nat := 0x7f00850e

/-- `firmware_update_observer_tdisp_on_prepare_update`, firmware_update_observer_tdisp.c:11-54: the new value of `*update_allowed`. -/
def prepareUpdate (state : Nat → Option UInt8) (ctxOk : Nat → Bool) (ctx : Nat → Ctx) (count allowed : Nat) : Nat :=
  if allowed ≠ 0 then allowed else if updateLoop state ctxOk ctx 0 count then UPDATE_NOT_ALLOWED else allowed

end Verif.Pcisig
