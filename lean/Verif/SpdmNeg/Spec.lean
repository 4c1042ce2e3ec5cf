import Verif.Common.Bytes
/-!
Negotiation of SPDM (DSP0274 1.2: GET_CAPABILITIES, NEGOTIATE_ALGORITHMS) as both sides see it.
-/
namespace Verif.SpdmNeg.Spec
open Verif

/-- The lowest bit of a mask of 32 bits. -/
def lowestBit (x : Nat) : Nat :=
  match (List.range 32).find? (x.testBit ·) with
  | some i => 2 ^ i
  | none => 0

/-- The choice from what both sides support: the first preference in common; without preferences the lowest bit. -/
def pick (prefs : Option (List Nat)) (mine theirs : Nat) : Nat :=
  match prefs with
  | some t => (t.find? fun p => decide (mine &&& theirs &&& p ≠ 0)).getD 0
  | none => lowestBit (mine &&& theirs)

/-- A table of a NEGOTIATE_ALGORITHMS request: type, supported algorithms and extended algorithms of 4 bytes each. -/
structure Table where
  ty : Nat
  sup : Nat
  exts : Bytes
deriving DecidableEq

/-- Number of extended algorithms. -/
def Table.ext (t : Table) : Nat := t.exts.length / 4

/-- The table in the request. -/
def Table.bytes (t : Table) : Bytes := [UInt8.ofNat t.ty, UInt8.ofNat (0x20 + t.ext)] ++ toLE 2 t.sup ++ t.exts

/-- A table a request may have: DHE (2), AEAD (3), asymmetric algorithms of the requester (4), key schedule (5). -/
structure Table.Ok (t : Table) : Prop where
  type : 2 ≤ t.ty ∧ t.ty ≤ 5
  some : t.sup ≠ 0
  bound : t.sup < 65536
  exts : t.exts.length % 4 = 0 ∧ t.ext < 16

/-- A table of the response. -/
def answer (ty sel : Nat) : Bytes := [UInt8.ofNat ty, 0x20] ++ toLE 2 sel

/-- A NEGOTIATE_ALGORITHMS request with these contents. -/
structure Request (msg : Bytes) (meas opq asym hash ea eh : Nat) (ts : List Table) : Prop where
  count : (msg.getD 2 0).toNat = ts.length
  length : leNat (window msg 4 2) = msg.length
  measIs : (msg.getD 6 0).toNat = meas
  opqIs : (msg.getD 7 0).toNat % 16 = opq
  asymIs : leNat (window msg 8 4) = asym
  hashIs : leNat (window msg 12 4) = hash
  eaIs : (msg.getD 28 0).toNat = ea
  ehIs : (msg.getD 29 0).toNat = eh
  size : msg.length = 32 + 4 * (ea + eh) + (ts.map (·.bytes)).flatten.length
  tables : msg.drop (32 + 4 * (ea + eh)) = (ts.map (·.bytes)).flatten
  ok : ∀ t ∈ ts, t.Ok
  rising : ts.Pairwise fun a b => a.ty < b.ty
  few : ea + eh + (ts.map (·.ext)).sum ≤ 20
  short : msg.length ≤ 128

/-- The response. -/
def response (v : UInt8) (meas opq measHash asym hash : Nat) (tables : List (Nat × Nat)) : Bytes :=
  [v, 0x63, UInt8.ofNat tables.length, 0] ++ toLE 2 (36 + 4 * tables.length) ++ [UInt8.ofNat meas, UInt8.ofNat opq] ++ toLE 4 measHash ++
    toLE 4 asym ++ toLE 4 hash ++ List.replicate 16 0 ++ (tables.map fun t => answer t.1 t.2).flatten

/-- The rules for capabilities of a requester of version 1.2. -/
structure Consistent (cert chal encrypt mac mutAuth keyEx hbeat keyUpd clear pubKey : Bool) (psk : Nat) : Prop where
  reserved : psk < 3
  /-- what only sessions have needs a way to make sessions, and these are authenticated -/
  session : mac = true ↔ (keyEx = true ∨ psk = 1)
  needs : encrypt = true ∨ clear = true ∨ hbeat = true ∨ keyUpd = true → keyEx = true ∨ psk = 1
  handshake : clear = true → keyEx = true
  /-- a certificate or a provisioned key, to be used in a challenge or key exchange -/
  one : ¬ (cert = true ∧ pubKey = true)
  used : cert = true ∨ pubKey = true → chal = true ∨ keyEx = true
  auth : chal = true ∨ mutAuth = true → cert = true ∨ pubKey = true

end Verif.SpdmNeg.Spec
