import Verif.Pcisig.Ide
/-! What the IDE key management responder has to answer. -/
namespace Verif.Pcisig.Ide

/-- The drivers' values fit the registers: registers have 32 bits, link blocks 8 bytes, a selective block announces `n` address blocks in the low
4 bits of its first byte and has at least 20 + 12 n and at most 200 bytes. -/
structure Env.WF (e : Env) : Prop where
  link : ∀ p i d, e.link p i = .ok d → d.length = 8
  sel : ∀ p i d, e.sel p i = .ok d → 20 + (d.getD 0 0).toNat % 16 * 12 ≤ d.length ∧ d.length ≤ 200

/-- The buffer is large enough for the fixed part of every answer and the request is in it. -/
structure Usable (m : Msg) : Prop where
  h15 : 15 ≤ m.room
  hr : m.room ≤ m.buf.length
  hl : m.len ≤ m.buf.length

/-- The part of a selective block that belongs to the answer. -/
def trimmed (d : Bytes) : Bytes := d.take (20 + (d.getD 0 0).toNat % 16 * 12)

/-- The register blocks of a port in order, each with the space asked for before it is read. -/
def blocks (e : Env) (port : UInt8) (cap : Nat) : List (Nat × Except Nat Bytes) :=
  (if cap.testBit 0 then (List.range (cap / 2 ^ 13 % 8 + 1)).map (fun i => (8, e.link port i)) else []) ++
  (if cap.testBit 1 then (List.range (cap / 2 ^ 16 % 256 + 1)).map (fun i => (200, (e.sel port i).map trimmed)) else [])

/-- All blocks, if each is readable and there is space for it; else the first problem. -/
def collect : Nat → List (Nat × Except Nat Bytes) → Except Status Bytes
  | _, [] => .ok []
  | avail, (need, r) :: bs =>
    if avail < need then .error .outOfSpace
    else match r with
      | .error c => .error (.driver c)
      | .ok d => (collect (avail - d.length) bs).map (d ++ ·)

/-- Answer to a query of `port`. -/
def queryReply (e : Env) (room : Nat) (port : UInt8) : Except Status Bytes :=
  match e.info port, e.cap port, e.ctrl port with
  | .error c, _, _ => .error (.driver c)
  | .ok _, .error c, _ => .error (.driver c)
  | .ok _, .ok _, .error c => .error (.driver c)
  | .ok (bus, df, seg, top), .ok cap, .ok ctrl =>
    (collect (room - 15) (blocks e port cap)).map fun d => [0x01, 0, port, df, bus, seg, top] ++ toLE 4 cap ++ toLE 4 ctrl ++ d

/-- The key a request names. -/
def named (q : Bytes) : Slot :=
  ⟨q.getD 6 0, q.getD 3 0, (q.getD 5 0).toNat % 2, (q.getD 5 0).toNat / 2 % 2 = 1, (q.getD 5 0).toNat / 16⟩

/-- Status byte for a programmed key. -/
def progStatus (q : Bytes) (r : KeyDrv) : UInt8 :=
  if q.length ≠ 47 then 1
  else match r with
    | .ok => 0
    | .invalidArgument => 3
    | .invalidStream => 3
    | .unsupportedPort => 2
    | .other => 4

/-- The answer to a secured request `q` that lies at the start of `buf`, or the error. -/
def reply (e : Env) (room : Nat) (buf q : Bytes) : Except Status Bytes :=
  if q = [] then .error .badSize
  else if q.getD 0 0 = 0 then (if q.length = 3 then queryReply e room (q.getD 2 0) else .error .badSize)
  else if q.getD 0 0 = 2 then .ok ([0x03] ++ window buf 1 3 ++ [progStatus q e.keyProg] ++ window buf 5 2)
  else if q.getD 0 0 = 4 then (if q.length = 7 then match e.go with | some c => .error (.driver c) | none => .ok (0x06 :: q.drop 1) else .error .badSize)
  else if q.getD 0 0 = 5 then (if q.length = 7 then match e.stop with | some c => .error (.driver c) | none => .ok (0x06 :: q.drop 1) else .error .badSize)
  else .error .unknownCommand

/-- The calls of the driver a request makes. -/
def callsOf (q : Bytes) : List Call :=
  if q.getD 0 0 = 2 ∧ q.length = 47 then [.prog (named q) (window q 7 32) (window q 39 8)]
  else if q.getD 0 0 = 4 ∧ q.length = 7 then [.go (named q)]
  else if q.getD 0 0 = 5 ∧ q.length = 7 then [.stop (named q)]
  else []

end Verif.Pcisig.Ide
