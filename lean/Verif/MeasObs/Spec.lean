import Verif.Pcr.Spec
/-!
What the measurements of the active manifest, of the recovery image and of the host state are to contain.
-/
namespace Verif.MeasObs.Spec
open Verif

/-- What there is to know about an active manifest: its hash, its version and its platform identifier, a string without its terminator. -/
structure Facts where
  hash : Bytes
  version : Nat
  platform : Bytes
deriving DecidableEq, Repr

/-- The hash is measured; 32 zeros if there is no manifest. -/
def hashData : Option Facts → Bytes
  | none => List.replicate 32 0
  | some f => f.hash

/-- 1 and the version, least significant byte first; all zeros if there is no manifest. -/
def idData : Option Facts → Bytes
  | none => [0, 0, 0, 0, 0]
  | some f => [1, UInt8.ofNat f.version, UInt8.ofNat (f.version / 2 ^ 8), UInt8.ofNat (f.version / 2 ^ 16), UInt8.ofNat (f.version / 2 ^ 24)]

/-- The platform identifier as a string with its terminator; the empty string if there is no manifest. -/
def platformData : Option Facts → Bytes
  | none => [0]
  | some f => f.platform ++ [0]

/-- The measurement of a type, `256 * bank + index`, with the hash algorithm of its bank. -/
def lookup (st : List Pcr.Bank) (t : Nat) : Option (Pcr.Algo × Pcr.Meas) :=
  (st[t / 256]?).bind fun b => (b.list[t % 256]?).map fun m => (b.algo, m)

/-- Measurement `t` is that of `data`: the digest of the event type, version 0 and the data. -/
def Holds (H : Pcr.Hash) (st : List Pcr.Bank) (t : Nat) (data : Bytes) : Prop :=
  ∃ a m, lookup st t = some (a, m) ∧ m.digest = H (.sha2 a) (toLE 4 m.event ++ [0] ++ data)

/-- Measurement `t` exists and can be changed. -/
def Open (st : List Pcr.Bank) (t : Nat) : Prop := ∃ a m, lookup st t = some (a, m) ∧ m.isConstant = false

/-- What the host did; `dirty d` is a notification that the state of the inactive flash changed, with the state `d`. -/
inductive HostEvent where
  | bypass
  | active
  | recovery
  | dirty (d : Bool)
deriving DecidableEq, Repr

/-- The number that stands for an event; none if it says nothing about the firmware. -/
def HostEvent.code : HostEvent → Option Nat
  | .active => some 0
  | .bypass => some 1
  | .recovery => some 2
  | .dirty true => some 3
  | .dirty false => none

/-- The state after a history, from `s`. -/
def hostState (s : Nat) (es : List HostEvent) : Nat := ((es.filterMap HostEvent.code).getLast?).getD s

end Verif.MeasObs.Spec
