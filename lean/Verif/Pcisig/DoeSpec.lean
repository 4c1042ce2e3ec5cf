import Verif.Pcisig.Doe
/-! Messages of the data object exchange: vendor (2 bytes), type, reserved byte, length in words of 4 bytes (0 for 2^18 words), data. -/
namespace Verif.Pcisig.Doe

def vendorOf (msg : Bytes) : Nat := leNat (window msg 0 2)
def typeOf (msg : Bytes) : Nat := (msg.getD 2 0).toNat
def wordsOf (msg : Bytes) : Nat := leNat (window msg 4 4)

/-- Bytes of a message, header included, if the length is legal. -/
def sizeOf (msg : Bytes) : Option Nat :=
  if wordsOf msg = 0 then some (2 ^ 20) else if 3 ≤ wordsOf msg ∧ wordsOf msg < 2 ^ 18 then some (4 * wordsOf msg) else none

/-- Buffers can hold the smallest and at most the largest message. -/
def Fits (msg : Bytes) : Prop := 12 ≤ msg.length ∧ msg.length ≤ 2 ^ 20

/-- Responders answer inside of the buffer they got. -/
def Doe.WF (d : Doe) : Prop :=
  d.table.length ≤ 255 ∧ ∀ p n s p' n', d.responder p n s = .ok (p', n') → p'.length = p.length ∧ n' ≤ p.length

/-- Answer to a discovery request for entry `i`. -/
def discovered (table : List (Nat × UInt8)) (i : Nat) : Except Status Bytes :=
  match table[i]? with
  | none => .error .badIndex
  | some (v, t) => .ok (toLE 2 v ++ [t, if i + 1 < table.length then UInt8.ofNat (i + 1) else 0])

/-- The answer of the addressed protocol: buffer behind the header and length; or an error. -/
def answered (d : Doe) (msg : Bytes) (size : Nat) : Except Status (Bytes × Nat) :=
  if typeOf msg = 0 then (discovered d.table (msg.getD 8 0).toNat).map fun a => (a ++ msg.drop 12, 4)
  else if typeOf msg = 1 then (match d.responder (msg.drop 8) (size - 8) false with | .error c => .error (.responder c) | .ok r => .ok r)
  else if typeOf msg = 2 then (match d.responder (msg.drop 8) (size - 8) true with | .error c => .error (.responder c) | .ok r => .ok r)
  else .error .unsupportedType

/-- What has to become of a message: the new buffer, or an error. -/
def reply (d : Doe) (msg : Bytes) : Except Status Bytes :=
  match sizeOf msg with
  | none => .error .badSize
  | some size =>
    if msg.length < size then .error .badSize
    else if vendorOf msg ≠ 1 then .error .badVendor
    else if typeOf msg = 2 ∧ size ≤ 12 then .error .badSize
    else match answered d msg size with
      | .error s => .error s
      | .ok (payload, n) =>
        if msg.length < 8 + (n + 3) / 4 * 4 then .error .badSize
        else .ok ([1, 0, UInt8.ofNat (typeOf msg), 0] ++ toLE 4 (if 8 + (n + 3) / 4 * 4 = 2 ^ 20 then 0 else 2 + (n + 3) / 4) ++ payload)

/-- Follows the chain of discovery answers from entry `i` on. -/
def walk (ask : Nat → Option Bytes) : Nat → Nat → List (Nat × UInt8)
  | 0, _ => []
  | fuel + 1, i =>
    match ask i with
    | none => []
    | some a => (leNat (window a 0 2), a.getD 2 0) :: (if a.getD 3 0 = 0 then [] else walk ask fuel (a.getD 3 0).toNat)

end Verif.Pcisig.Doe
