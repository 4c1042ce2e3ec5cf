import Verif.Pcisig.Model
/-! What the TDISP responder promises: the answer to every request, the calls to the hardware and the meaning of the start nonce. -/
namespace Verif.Pcisig

/-! ### Requests -/

/-- Type of a request. -/
def typeOf (q : Bytes) : Nat := (q.getD 1 0).toNat

/-- The function it is about: four bytes. -/
def functionOf (q : Bytes) : Bytes := window q 4 4

/-- Bus, device and function number. -/
def bdfOf (q : Bytes) : Nat := leNat (window q 4 2)

/-- The interface the request is about, as the driver counts them. -/
def target (e : Env) (q : Bytes) : Option Nat := e.index (bdfOf q)

/-- Length of each type of request. -/
def sizeOf : Nat → Nat
  | 0x82 => 20
  | 0x83 => 36
  | 0x84 => 20
  | 0x86 => 48
  | _ => 16

/-- Room the answer to each type needs, if it is longer than the request. -/
def roomFor (versions : Bytes) : Nat → Nat
  | 0x81 => 17 + versions.length
  | 0x82 => 44
  | 0x83 => 48
  | 0x84 => 20
  | 0x85 => 17
  | _ => 0

/-- What an answer says: an error code, or a type with the bytes behind the header. `echo`: the reserved bytes are those of the request. -/
inductive Reply
  | error (code : Nat)
  | ok (type : UInt8) (echo : Bool) (body : Bytes)
  deriving DecidableEq, Repr

/-- Bytes of a reply to request `q`; `fid` is the function named in it. -/
def bytesOf (q fid : Bytes) : Reply → Bytes
  | .error code => [0x10, 0x7f, 0, 0] ++ fid ++ [0, 0, 0, 0, 0, 0, 0, 0] ++ toLE 4 code ++ [0, 0, 0, 0]
  | .ok t false body => [0x10, t, 0, 0] ++ fid ++ [0, 0, 0, 0, 0, 0, 0, 0] ++ body
  | .ok t true body => [0x10, t] ++ window q 2 2 ++ fid ++ window q 8 8 ++ body

/-- The interface is locked: a start nonce is stored. -/
def Locked (ctx : Nat → Ctx) (f : Nat) : Bool := (ctx f).mask.testBit 0

/-- Error for a failed lock. -/
def lockError : Drv → Nat
  | .notSecure => 0x01
  | _ => 0x05

/-- Error for a failed start. -/
def startError : Drv → Nat
  | .invalidState => 0x04
  | _ => 0x05

/-- Error for a failed report. -/
def reportError : Drv → Nat
  | .invalidArgument => 0x01
  | .invalidInterface => 0x101
  | .invalidState => 0x04
  | _ => 0x05

/-- Size of the buffer for a report. -/
def reportRoom (room : Nat) : Nat := min (room - 20) 65535

/-- The driver is asked to lock interface `f`. -/
def asksLock (e : Env) (ctx : Nat → Ctx) (f : Nat) : Bool := e.getOk f && !Locked ctx f && e.rng.isSome

/-- The driver is asked to start interface `f`. -/
def asksStart (e : Env) (ctx : Nat → Ctx) (f : Nat) (q : Bytes) : Bool := e.getOk f && Locked ctx f && decide (window q 16 32 = (ctx f).nonce)

/-- Reply to a well-formed request for interface `f`. -/
def replyFor (versions : Bytes) (e : Env) (ctx : Nat → Ctx) (room : Nat) (q : Bytes) (f : Nat) : Reply :=
  if typeOf q = 0x81 then .ok 0x01 false ([UInt8.ofNat versions.length] ++ versions)
  else if typeOf q = 0x83 then
    if e.getOk f = false then .error 0x101
    else if Locked ctx f then .error 0x04
    else match e.rng with
      | none => .error 0x05
      | some n =>
        if e.lock f (window q 16 20) ≠ .ok then .error (lockError (e.lock f (window q 16 20)))
        else if e.setOk f = false then .error 0x05
        else .ok 0x03 false n
  else if typeOf q = 0x84 then
    let r := e.report f (leNat (window q 16 2)) (leNat (window q 18 2)) (reportRoom room)
    if r.1 ≠ .ok then .error (reportError r.1) else .ok 0x04 false (toLE 2 r.2.1.length ++ toLE 2 r.2.2 ++ r.2.1)
  else if typeOf q = 0x85 then
    match e.state f with
    | none => .error 0x101
    | some st => .ok 0x05 false [st]
  else if typeOf q = 0x86 then
    if e.getOk f = false then .error 0x05
    else if Locked ctx f = false then .error 0x04
    else if window q 16 32 ≠ (ctx f).nonce then .error 0x102
    else if e.start f ≠ .ok then .error (startError (e.start f))
    else .ok 0x06 true []
  else if e.stop f ≠ .ok then .error 0x05
  else .ok 0x07 true []

/-- The requests the responder says it supports: types 0x81 to 0x87 are bits 1 to 7 of the bit field at byte 4. -/
def withMessages (caps : Bytes) : Bytes := caps.set 4 (caps.getD 4 0 ||| 0xfe)

/-- Reply to a request of `q.length` bytes. -/
def replyTo (versions : Bytes) (e : Env) (ctx : Nat → Ctx) (room : Nat) (q : Bytes) : Reply :=
  if typeOf q < 0x81 ∨ 0x87 < typeOf q then .error 0x07
  else if q.length ≠ sizeOf (typeOf q) then .error 0x01
  else if q.getD 0 0 ≠ 0x10 then .error 0x41
  else if room < roomFor versions (typeOf q) then .error 0x05
  else if typeOf q = 0x82 then
    match e.caps (window q 16 4) with
    | none => .error 0x05
    | some caps => .ok 0x02 true (withMessages caps)
  else match target e q with
    | none => .error 0x101
    | some f => replyFor versions e ctx room q f

/-- Function named in the answer: none if the request could not be read. -/
def namedIn (q : Bytes) : Bytes :=
  if typeOf q < 0x81 ∨ 0x87 < typeOf q ∨ q.length ≠ sizeOf (typeOf q) then [0, 0, 0, 0] else functionOf q

/-- Hardware calls a request makes. -/
def callsOf (e : Env) (ctx : Nat → Ctx) (room : Nat) (q : Bytes) : List Call :=
  if q.length ≠ sizeOf (typeOf q) ∨ q.getD 0 0 ≠ 0x10 then []
  else match target e q with
    | none => []
    | some f =>
      if typeOf q = 0x83 ∧ 48 ≤ room ∧ asksLock e ctx f then [.lock f (window q 16 20)]
      else if typeOf q = 0x86 ∧ asksStart e ctx f q then [.start f]
      else if typeOf q = 0x87 then [.stop f]
      else []

/-- What the outside has to keep to. -/
structure Env.WF (e : Env) : Prop where
  caps : ∀ q c, e.caps q = some c → c.length = 28
  report : ∀ f o l cap, (e.report f o l cap).2.1.length ≤ cap
  rng : ∀ n, e.rng = some n → n.length = 32

/-- A message that can be served: at least a header, within its buffer, and room for an error. -/
structure Usable (m : Msg) : Prop where
  h16 : 16 ≤ m.len
  hb : m.len ≤ m.buf.length
  h24 : 24 ≤ m.room
  hr : m.room ≤ m.buf.length

/-- The request of a message. -/
def Msg.q (m : Msg) : Bytes := m.buf.take m.len

/-! ### Histories -/

/-- The driver may clear or change contexts but sets no start nonces. -/
def Env.SetsNoNonce (e : Env) : Prop :=
  ∀ ctx f, Locked (e.touch ctx) f = true → Locked ctx f = true ∧ (e.touch ctx f).nonce = (ctx f).nonce

/-- A served request: what the outside did, the request and the answer. -/
structure Served where
  env : Env
  request : Bytes
  answer : Bytes

/-- The nonce in the last lock answer for interface `f`. -/
def issued (f : Nat) : List Served → Option Bytes
  | [] => none
  | x :: earlier => if typeOf x.answer = 0x03 ∧ target x.env x.request = some f then some (window x.answer 16 32) else issued f earlier

/-- Runs of the responder: a request arrives in a secured message, is processed and answered. Newest first. -/
inductive Run (versions : Bytes) : List Served → St → Prop
  | init (s : St) (h : ∀ f, Locked s.ctx f = false) : Run versions [] s
  | served {tr : List Served} {s s' : St} (e : Env) (m : Msg) (a : Ans) (h : Run versions tr s) (wf : e.WF) (hn : e.SetsNoNonce)
      (u : Usable m) (hp : process versions e m s = some (.answer a, s')) :
      Run versions (⟨e, m.q, a.buf.take a.len⟩ :: tr) s'
  | refused {tr : List Served} {s s' : St} (e : Env) (m : Msg) (o : Out) (h : Run versions tr s) (ho : ∀ a, o ≠ .answer a)
      (hp : process versions e m s = some (o, s')) : Run versions tr s'
  | cleared {tr : List Served} {s : St} (keep : Nat → Bool) (h : Run versions tr s) :
      Run versions tr ⟨fun f => if keep f then s.ctx f else (s.ctx f).clear, s.calls⟩

/-! ### Contexts -/

/-- Changes of a context. -/
inductive Set
  | clear
  | nonce (n : Bytes)
  | lockFlags (v : Nat)
  | stream (v : UInt8)
  | mmio (v : Nat)
  | p2p (v : Nat)
  | reserved (i v : Nat)
  deriving DecidableEq, Repr

/-- One change; refused changes leave the context alone. -/
def Set.run (c : Ctx) : Set → Ctx
  | .clear => c.clear
  | .nonce n => (c.setNonce n).getD c
  | .lockFlags v => c.setLockFlags v
  | .stream v => c.setStream v
  | .mmio v => c.setMmio v
  | .p2p v => c.setP2p v
  | .reserved i v => (c.setReserved i v).getD c

/-- Field (bit of the mask) and value a change stores. -/
def Set.stores : Set → Option (Nat × List Nat)
  | .clear => none
  | .nonce n => if n.length = 32 then some (0, n.map UInt8.toNat) else none
  | .lockFlags v => some (1, [v % 65536])
  | .stream v => some (2, [v.toNat])
  | .mmio v => some (3, [v])
  | .p2p v => some (4, [v])
  | .reserved i v => if i < 4 then some (5 + i, [v]) else none

/-- The last value stored in field `b` since the context was cleared. Newest first. -/
def lastStored (b : Nat) : List Set → Option (List Nat)
  | [] => none
  | .clear :: _ => none
  | x :: earlier => match x.stores with
    | some (b', v) => if b' = b then some v else lastStored b earlier
    | none => lastStored b earlier

/-- Value of field `b` of a context. -/
def Ctx.field (c : Ctx) (b : Nat) : List Nat :=
  if b = 0 then c.nonce.map UInt8.toNat else if b = 1 then [c.lockFlags] else if b = 2 then [c.stream.toNat] else if b = 3 then [c.mmio]
  else if b = 4 then [c.p2p] else [c.reserved.getD (b - 5) 0]

/-! ### Firmware updates -/

/-- Interface `f` forbids firmware updates: it is locked or running, and was locked with that flag. -/
def Forbids (state : Nat → Option UInt8) (ctx : Nat → Ctx) (f : Nat) : Prop :=
  (state f = some 1 ∨ state f = some 2) ∧ (ctx f).lockFlags.testBit 0 = true

end Verif.Pcisig
