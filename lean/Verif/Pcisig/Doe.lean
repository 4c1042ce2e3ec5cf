import Verif.Pcisig.Model
/-! Data object exchange: `core/pcisig/doe/doe_interface.c` and `doe_cmd_channel.c`. The responder for SPDM messages and the channel are interfaces:
they are parameters. Null arguments are not modelled. -/
namespace Verif.Pcisig.Doe

/-- Errors of doe_interface.h and errors of the responder. -/
inductive Status
  | ok
  | unsupportedType
  | badSize
  | badVendor
  | badIndex
  | responder (code : Nat)
  deriving DecidableEq, Repr

/-- `struct doe_interface`: the supported protocols (vendor, type) and the responder, which gets the buffer behind the header, the length of the
message in it and whether it is secured, and leaves an answer there. -/
structure Doe where
  table : List (Nat × UInt8)
  responder : Bytes → Nat → Bool → Except Nat (Bytes × Nat)

/-- `doe_interface_init`, doe_interface.c:21-43: is the table accepted? The count has 8 bits. -/
def initOk (table : List (Nat × UInt8)) : Bool :=
  match table with
  | [] => false
  | (v, t) :: _ => v = 1 ∧ t = 0

/-- `doe_interface_encode_message`, doe_interface.c:63-93. `DOE_MESSAGE_MAX_SIZE_IN_BYTES` is the size of the buffer. -/
def encode (msg : Bytes) (size : Nat) : Option (Status × Bytes) := do
  let aligned := (size + 3) / 4 * 4
  let transport := aligned + 8
  if transport > msg.length then return (.badSize, msg)
  let msg ← put msg 4 (toLE 4 (if transport = 0x100000 then 0 else transport / 4))
  let msg ← put msg 3 [0]
  let msg ← put msg 0 (toLE 2 1)
  return (.ok, msg)

/-- `doe_interface_process_doe_discovery_request`, doe_interface.c:103-132: the buffer behind the header and the length of the answer. -/
def discovery (table : List (Nat × UInt8)) (payload : Bytes) : Option (Except Status (Bytes × Nat)) := do
  let index ← (get payload 0 1).map fun b => (b.getD 0 0).toNat
  if index ≥ table.length then return .error .badIndex
  let entry := table.getD index (0, 0)
  let next := if index = table.length - 1 then 0 else index + 1
  let payload ← put payload 0 (toLE 2 entry.1 ++ [entry.2] ++ [UInt8.ofNat next])
  return .ok (payload, 4)

/-- `doe_interface_decode_message`, doe_interface.c:164-224: the length of the data object and whether it is secured. -/
def decode (msg : Bytes) : Option (Except Status (Nat × Bool)) := do
  let len ← (get msg 4 4).map leNat
  if len ≠ 0 ∧ (len < 3 ∨ len ≥ 0x40000) then return .error .badSize
  let size := if len ≠ 0 then len * 4 else 0x100000
  if size > msg.length then return .error .badSize
  let vendor ← (get msg 0 2).map leNat
  if vendor ≠ 1 then return .error .badVendor
  let type ← (get msg 2 1).map fun b => (b.getD 0 0).toNat
  if type = 2 ∧ size ≤ 12 then return .error .badSize
  return .ok (size - 8, type = 2)

/-- The switch of `doe_interface_process_message`, doe_interface.c:252-266. -/
def dispatch (d : Doe) (type : Nat) (payload : Bytes) (len : Nat) (secured : Bool) : Option (Except Status (Bytes × Nat)) :=
  if type = 1 ∨ type = 2 then
    match d.responder payload len secured with
    | .error c => some (.error (.responder c))
    | .ok r => some (.ok r)
  else if type = 0 then discovery d.table payload
  else some (.error .unsupportedType)

/-- `doe_interface_process_message`, doe_interface.c:234-279. `none`: access outside of the buffer. -/
def process (d : Doe) (msg : Bytes) : Option (Status × Bytes) := do
  match ← decode msg with
  | .error s => return (s, msg)
  | .ok (len, secured) =>
    let type ← (get msg 2 1).map fun b => (b.getD 0 0).toNat
    match ← dispatch d type (msg.drop 8) len secured with
    | .error s => return (s, msg)
    | .ok (payload, n) => encode (msg.take 8 ++ payload) n

/-- `doe_cmd_channel_receive_and_process`, doe_cmd_channel.c:18-47: what is sent for a received message. -/
def serve (d : Doe) (msg : Bytes) : Option (List Bytes) := do
  match ← process d msg with
  | (.ok, b) => return [b]
  | _ => return []

end Verif.Pcisig.Doe
