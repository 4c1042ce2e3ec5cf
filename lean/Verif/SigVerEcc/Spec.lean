import Verif.Common.Bytes
/-! Which key a user of a signature verification expects to be in effect, from the calls and their results alone. -/
namespace Verif.SigVerEcc.Spec

/-- The calls. -/
inductive Call where
  /-- a null key, with any length -/
  | remove (length : Nat)
  | setKey (key : Bytes)
  | isKeyValid (key : Bytes)
  | verify (digest sig : Bytes)
deriving DecidableEq, Repr

/-- Results. -/
inductive Result where
  | ok
  | invalidArgument
  | noKey
  | badSignature
  | invalidKey
  | inconsistentKey
  | engine (code : Int)
deriving DecidableEq, Repr

/-- The key in effect after a call with this result: a key that was set successfully; none after a removal and after an attempt that
failed. A key without bytes is refused and changes nothing. -/
def next (k : Option Bytes) : Call × Result → Option Bytes
  | (.remove _, _) => none
  | (.setKey [], _) => k
  | (.setKey (b :: bs), .ok) => some (b :: bs)
  | (.setKey (_ :: _), _) => none
  | (.isKeyValid _, _) => k
  | (.verify _ _, _) => k

/-- The key in effect after a history. -/
def keyAfter (h : List (Call × Result)) : Option Bytes := h.foldl next none

end Verif.SigVerEcc.Spec
