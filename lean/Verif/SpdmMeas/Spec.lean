import Verif.Pcr.Spec
/-!
What SPDM measurement blocks mean to a requester (DSP0274, tables "Measurement block format" and "DMTF
measurement specification format").
-/
namespace Verif.SpdmMeas.Spec
open Verif

/-- A measurement block. -/
structure Block where
  index : UInt8
  /-- a raw bit stream, not a digest -/
  raw : Bool
  /-- DMTF value type -/
  type : Nat
  value : Bytes
deriving DecidableEq, Repr

/-- Index, specification (bit 0: DMTF), size; then type and raw bit, size and value. -/
def Block.wire (b : Block) : Bytes :=
  b.index :: 1 :: (toLE 2 (3 + b.value.length) ++ (UInt8.ofNat (b.type + if b.raw then 128 else 0)) ::
    (toLE 2 b.value.length ++ b.value))

/-- A requester reads one block from the front. -/
def read1 : Bytes → Option (Block × Bytes)
  | i :: f :: s0 :: s1 :: t :: v0 :: v1 :: rest =>
    let n := v0.toNat + 256 * v1.toNat
    if f = 1 ∧ s0.toNat + 256 * s1.toNat = n + 3 ∧ n ≤ rest.length then
      some (⟨i, decide (t.toNat ≥ 128), t.toNat % 128, rest.take n⟩, rest.drop n)
    else none
  | _ => none

/-- A requester reads a record of `n` blocks; nothing may be left over. -/
def readAll : Nat → Bytes → Option (List Block)
  | 0, [] => some []
  | 0, _ => none
  | n + 1, s => (read1 s).bind fun (b, s) => (readAll n s).map (b :: ·)

/-- A measurement of the device: hash algorithm of its PCR, DMTF type, whether it belongs to the TCB,
recorded digest and the measured data (empty if they are not available). -/
structure Item where
  algo : Pcr.Algo
  type : Nat
  tcb : Bool
  digest : Bytes
  data : Bytes

/-- The digest that is reported: the recorded one if the algorithm is the one asked for. -/
def Item.hash (H : Pcr.Hash) (ty : Pcr.HashType) (x : Item) : Bytes :=
  if ty = .sha2 x.algo then x.digest else H ty x.data

/-- The block for a measurement: the data if they are asked for and available, or a digest. -/
def Item.block (H : Pcr.Hash) (raw : Bool) (ty : Pcr.HashType) (k : Nat) (x : Item) : Block :=
  if raw ∧ x.data ≠ [] then ⟨UInt8.ofNat k, true, x.type, x.data⟩ else ⟨UInt8.ofNat k, false, x.type, x.hash H ty⟩

/-- The measurement at a place of the store; `R` gives the measured data. -/
def itemAt (R : Nat → Nat → Bytes) (st : List Pcr.Bank) (t : Nat × Nat) : Option Item :=
  st[t.1]?.bind fun b => b.list[t.2]?.map fun m => ⟨b.algo, m.dmtf, !m.notTcb, m.digest, R t.1 t.2⟩

/-- All measurements in order. -/
def items (R : Nat → Nat → Bytes) (st : List Pcr.Bank) : List Item := (Pcr.allTypes 0 st).filterMap (itemAt R st)

/-- Numbers for a list, from `k`. -/
def number {α : Type} : Nat → List α → List (Nat × α)
  | _, [] => []
  | k, x :: l => (k, x) :: number (k + 1) l

/-- The blocks of all measurements, numbered from 1. -/
def blocks (H : Pcr.Hash) (raw : Bool) (ty : Pcr.HashType) (l : List Item) : List Block :=
  (number 1 l).map fun x => x.2.block H raw ty x.1

/-- What the summary is made of: the digest blocks, only those of the TCB if asked for. -/
def summaryBlocks (H : Pcr.Hash) (ty : Pcr.HashType) (onlyTcb : Bool) (l : List Item) : List Block :=
  ((number 1 l).filter fun x => !onlyTcb || x.2.tcb).map fun x => x.2.block H false ty x.1

/-- Encodings one after the other. -/
def wires (l : List Block) : Bytes := (l.map Block.wire).flatten

/-- The block with the device ID of discovery, index 0xef, type "hardware configuration". -/
def deviceBlock (H : Pcr.Hash) (raw : Bool) (ty : Pcr.HashType) (d : Bytes) : Block :=
  ⟨0xef, raw, 2, if raw then d else H ty d⟩

/-- PLDM QueryDeviceIdentifiers response: completion code, length of the descriptors, their number, and
each with type and length. -/
def deviceId (l : List (Nat × Bytes)) : Bytes :=
  let ds := (l.map fun d => toLE 2 d.1 ++ toLE 2 d.2.length ++ d.2).flatten
  0 :: (toLE 4 ds.length ++ UInt8.ofNat l.length :: ds)

end Verif.SpdmMeas.Spec
