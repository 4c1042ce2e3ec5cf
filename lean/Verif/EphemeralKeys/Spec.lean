import Verif.Common.Bytes
/-! What a user of the ephemeral key manager sees: what each call did, which keys went in and which came out. -/
namespace Verif.EphemeralKeys.Spec

/-- What a call did. -/
inductive Did where
  | waited
  | prepared
  | prepareFailed (code : Int)
  | stored (key : Bytes)
  | generateFailed (code : Int)
  | storeFailed (key : Bytes) (code : Int)
  | gave (key : Bytes)
  | gaveNone
deriving DecidableEq, Repr

/-- The keys that were stored, in order. -/
def stored : List Did → List Bytes
  | [] => []
  | .stored k :: t => k :: stored t
  | _ :: t => stored t

/-- The keys that were given out, in order. -/
def given : List Did → List Bytes
  | [] => []
  | .gave k :: t => k :: given t
  | _ :: t => given t

end Verif.EphemeralKeys.Spec
