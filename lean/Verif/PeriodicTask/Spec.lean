import Verif.Common.Bytes
/-! Which handler of a periodic task is due next. -/
namespace Verif.PeriodicTask.Spec

/-- What is known of an entry of the handler list: there is none; it is ready now; it is due in some milliseconds; its time cannot be
determined. -/
inductive Entry where
  | absent
  | ready
  | due (ms : Nat)
  | clockError (code : Int)
deriving DecidableEq, Repr

/-- The time until an entry is due. -/
def wait : Entry → Option Nat
  | .ready => some 0
  | .due ms => some ms
  | _ => none

/-- Entry `i` is the one to run next, in `w` milliseconds: no entry is due earlier, and none in front of it at the same time. -/
structure IsNext (l : List Entry) (i w : Nat) : Prop where
  waits : (l[i]?).bind wait = some w
  least : ∀ j v : Nat, (l[j]?).bind wait = some v → w ≤ v
  first : ∀ j v : Nat, j < i → (l[j]?).bind wait = some v → w < v

/-- The error of the first entry whose time cannot be determined. -/
def firstError : List Entry → Option Int
  | [] => none
  | .clockError c :: _ => some c
  | _ :: t => firstError t

end Verif.PeriodicTask.Spec
