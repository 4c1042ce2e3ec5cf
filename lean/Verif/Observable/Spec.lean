import Verif.Observable.Model
/-! What a list of observers is: a sequence without repetitions. -/
namespace Verif.Observable

inductive Op
  | add (o : Nat) (alloc : Option Nat)
  | remove (o : Nat)
  | notify (cb : Nat → Bool)

/-- What a call reports: the status, and the observers that were notified. -/
inductive Out
  | status (e : Option Err)
  | called (l : List Nat)
deriving DecidableEq

def step (n : Nat) (s : State) : Op → Option (State × Out)
  | .add o alloc => (add n s o alloc).map (fun r => (r.1, .status r.2))
  | .remove o => (remove n s o).map (fun r => (r.1, .status r.2))
  | .notify cb => (notify n s cb).map (fun l => (s, .called l))

/-- All calls. The memory allocator returns an address that is not NULL and not in use. -/
def Legal (s : State) : Op → Prop
  | .add _ (some a) => a ≠ 0 ∧ s.mem a = none
  | _ => True

/-- The registered observers, as a user sees it. -/
def registered (L : List Nat) : Op → List Nat
  | .add o alloc => if o = 0 ∨ alloc = none ∨ o ∈ L then L else L ++ [o]
  | .remove o => L.filter (· ≠ o)
  | .notify _ => L

/-- What the call must report. -/
def expected (L : List Nat) : Op → Out
  | .add o alloc => .status (if o = 0 then some .invalidArgument else if alloc = none then some .noMemory else none)
  | .remove o => .status (if o = 0 then some .invalidArgument else none)
  | .notify cb => .called (L.filter cb)

/-- A history: calls with what they reported, and the state it leads to. -/
inductive History (n : Nat) : State → List (Op × Out) → Prop
  | nil : History n init []
  | snoc {s s' h op out} : History n s h → Legal s op → step n s op = some (s', out) → History n s' (h ++ [(op, out)])

/-- The observers registered after a history. -/
def observers (h : List (Op × Out)) : List Nat := h.foldl (fun L e => registered L e.1) []

end Verif.Observable
