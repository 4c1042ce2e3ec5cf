import Verif.Common.Bytes
/-!
What is expected of the schedule of attestations and of the attestation status report, independent of the code.
-/
namespace Verif.DevSched.Spec
open Verif

/-- The values of a device state, `enum device_manager_device_state`. -/
def valid (s : Nat) : Prop := s ≤ 12 ∨ (16 ≤ s ∧ s ≤ 23) ∨ (32 ≤ s ∧ s ≤ 34)

/-- A device is attested unless nobody knows which device it is (1) or it is not an attestable device (5). -/
def attestable (s : Nat) : Prop := valid s ∧ s ≠ 1 ∧ s ≠ 5

/-- The last attempt did not authenticate the device: ready again (3), failed (4), interrupted (9), not present (10), or
one of the specific failures. -/
def failed (s : Nat) : Prop := s = 3 ∨ s = 4 ∨ s = 9 ∨ s = 10 ∨ (16 ≤ s ∧ s ≤ 23) ∨ (32 ≤ s ∧ s ≤ 34)

instance (s : Nat) : Decidable (valid s) := by unfold valid; infer_instance
instance (s : Nat) : Decidable (attestable s) := by unfold attestable; infer_instance
instance (s : Nat) : Decidable (failed s) := by unfold failed; infer_instance

/-- How long a device that goes from one state to another is left alone: an authenticated device for the long period, a device that fails
again (or on its first attempt) for the short one. -/
def wait (auth unauth prev s : Nat) : Nat :=
  if s = 0 ∨ s = 6 then auth
  else if failed s ∧ (failed prev ∨ prev = 2) then unauth
  else 0

/-- How many places after `last` the device `i` of `n` is, going round. The one just after `last` has distance 0. -/
def distance (n last i : Nat) : Nat := (i + (n - 1 - last)) % n

/-- A component type of the report: its number, and the states of its instances. -/
structure Group where
  comp : Nat
  states : List Nat
deriving DecidableEq, Repr

/-- The report: for every component type its 32-bit number, the number of instances, and one byte per instance. -/
def encode (gs : List Group) : Bytes :=
  gs.flatMap fun g => toLE 4 g.comp ++ [UInt8.ofNat g.states.length] ++ g.states.map UInt8.ofNat

end Verif.DevSched.Spec
