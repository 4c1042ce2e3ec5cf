import Verif.Common.Bytes
/-!
What the error state of FIPS 140-3 is to do: after a self-test failed nothing is sent any more, until the error state is left.
-/
namespace Verif.ErrorState.Spec
open Verif

/-- The handlers that are told to enter the error state: guarded channels, groups of handlers, and others that have no channel. -/
inductive Entry where
  | channel (i : Nat)
  | group (hs : List Entry)
  | other

/-- The handlers that are told to leave it, with the status they return. -/
inductive Exit where
  | channel (i : Nat)
  | group (hs : List Exit)
  | other (status : Int)

mutual
/-- The channels of an entry handler. -/
def Entry.channels : Entry → List Nat
  | .channel i => [i]
  | .group hs => Entry.listChannels hs
  | .other => []
/-- The channels of several. -/
def Entry.listChannels : List Entry → List Nat
  | [] => []
  | h :: hs => h.channels ++ Entry.listChannels hs
end

mutual
/-- The channels and statuses of an exit handler in the order in which they are called. -/
def Exit.leaves : Exit → List (Nat ⊕ Int)
  | .channel i => [.inl i]
  | .group hs => Exit.listLeaves hs
  | .other s => [.inr s]
/-- Those of several. -/
def Exit.listLeaves : List Exit → List (Nat ⊕ Int)
  | [] => []
  | h :: hs => h.leaves ++ Exit.listLeaves hs
end

/-- A handler that refuses to leave the error state. -/
def refuses : Nat ⊕ Int → Bool
  | .inl _ => false
  | .inr s => s != 0

/-- The channels that leave the error state: those before the first handler that refuses. -/
def Exit.left (e : Exit) : List Nat := (e.leaves.takeWhile fun l => !refuses l).filterMap Sum.getLeft?

/-- What happens. A test returns a status. `wire` is the status with which the underlying channel answers, if it is called. -/
inductive Event where
  | send (ch : Nat) (packet : Bytes) (wire : Int)
  | tests (e : Entry) (results : List Int)
  | enter (e : Entry)
  | exit (e : Exit)

/-- Channel `i` is in the error state after an event. -/
def after (i : Nat) (bad : Bool) : Event → Bool
  | .send .. => bad
  | .tests e rs => bad || (rs.any (· != 0) && e.channels.contains i)
  | .enter e => bad || e.channels.contains i
  | .exit e => bad && !e.left.contains i

/-- Channel `i` is in the error state after a history. -/
def inError (i : Nat) (es : List Event) : Bool := es.foldl (after i) false

end Verif.ErrorState.Spec
