import Verif.Requester.Verdict
/-! What the rules of a CFM on measurements mean. -/
namespace Verif.Requester

/-- The number a measurement stands for. -/
def number (bigEndian : Bool) (b : Bytes) : Nat := if bigEndian then beNat b else leNat b

/-- The bits of a measurement that count. -/
def masked (mask : Option Bytes) (b : Bytes) : Bytes :=
  match mask with
  | none => b
  | some m => List.zipWith (· &&& ·) b m

/-- The relations a check asks for, between the measurement and the value in the CFM. -/
def Check.Holds : Check → Nat → Nat → Prop
  | .eq, a, b => a = b
  | .ne, a, b => a ≠ b
  | .lt, a, b => a < b
  | .le, a, b => a ≤ b
  | .gt, a, b => a > b
  | .ge, a, b => a ≥ b

/-- The measurement compares as asked for with a value of the CFM. -/
def Compares (c : DataCheck) (actual expected : Bytes) : Prop :=
  expected.length = actual.length ∧ c.check.Holds (number c.bigEndian (masked c.mask actual)) (number c.bigEndian (masked c.mask expected))

/-- The entries of a check that concern version set `vs`. -/
def applicable (c : DataCheck) (vs : Nat) : List DataEntry := c.entries.filter fun e => e.vs == 0 || e.vs == vs

/-- A check is passed: for "equal" one of the values is met, otherwise all of them are. -/
def Passes (c : DataCheck) (actual : Bytes) (vs : Nat) : Prop :=
  match c.check with
  | .eq => ∃ e ∈ applicable c vs, Compares c actual e.data
  | _ => ∀ e ∈ applicable c vs, Compares c actual e.data

end Verif.Requester
