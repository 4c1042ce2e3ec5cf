import Verif.SigVerEcc.Spec
/-! Model of `core/crypto/signature_verification_ecc.c`. The engine is a parameter; its answers depend on the number of the call, so it
can fail at any time. A loaded key is a numbered object that has to be released. Status 0, the two named engine errors and every other
status are told apart by constructors. NULL instances, NULL keys of `is_key_valid` and `get_max_signature_length` are not modelled. -/
namespace Verif.SigVerEcc
open Spec (Call Result)

/-- Results of loading a key: `ECC_ENGINE_NOT_EC_KEY` (ecc.h:311) is told apart. -/
inductive Load where
  | ok
  | notEc
  | error (code : Int)
deriving DecidableEq, Repr

/-- Results of `verify`: `ECC_ENGINE_BAD_SIGNATURE` (ecc.h:316) is told apart. -/
inductive Verdict where
  | good
  | bad
  | error (code : Int)
deriving DecidableEq, Repr

/-- The ECC engine. A loaded key is named by the bytes it was loaded from. -/
structure Engine where
  initPublic : Nat → Bytes → Load
  initPair : Nat → Bytes → Load
  verify : Nat → Bytes → Bytes → Bytes → Verdict

/-- A loaded key (`struct ecc_public_key`). -/
structure Key where
  id : Nat
  data : Bytes
deriving DecidableEq, Repr

/-- The keys the engine holds, the number of engine calls, and whether a key was used or released after its release. -/
structure World where
  live : List Nat
  fresh : Nat
  calls : Nat
  misuse : Bool
deriving DecidableEq, Repr

/-- `struct signature_verification_ecc_state`, with the world. -/
structure St where
  valid : Bool
  key : Key
  w : World
deriving DecidableEq, Repr

/-- `release_key_pair` of the engine. -/
def World.release (w : World) (k : Key) : World :=
  if w.live.contains k.id then { w with live := w.live.erase k.id } else { w with misuse := true }

/-- `signature_verification_ecc_load_key`, signature_verification_ecc.c:72-92. -/
def loadKey (E : Engine) (w : World) (key : Bytes) : Result × Option Key × World :=
  let done (l : Load) (w : World) : Result × Option Key × World := match l with
    | .ok => (.ok, some ⟨w.fresh, key⟩, { w with live := w.fresh :: w.live, fresh := w.fresh + 1 })
    | .notEc => (.invalidKey, none, w)
    | .error c => (.engine c, none, w)
  match E.initPublic w.calls key with
  | .error _ => done (E.initPair (w.calls + 1) key) { w with calls := w.calls + 2 }
  | l => done l { w with calls := w.calls + 1 }

/-- signature_verification_ecc.c:109-112: the old key is released. -/
def dropKey (s : St) : St :=
  if s.valid then { s with valid := false, w := s.w.release s.key } else s

/-- `signature_verification_ecc_set_verification_key`, signature_verification_ecc.c:94-122. -/
def setKey (E : Engine) (s : St) (key : Option Bytes) : Result × St :=
  match key with
  | none => (.ok, dropKey s)
  | some k =>
    if k.length = 0 then (.inconsistentKey, s)
    else
      let s := dropKey s
      match loadKey E s.w k with
      | (.ok, some l, w) => (.ok, ⟨true, l, w⟩)
      | (r, _, w) => (r, { s with w := w })

/-- `signature_verification_ecc_is_key_valid`, signature_verification_ecc.c:124-142. -/
def isKeyValid (E : Engine) (s : St) (key : Bytes) : Result × St :=
  if key.length = 0 then (.invalidArgument, s)
  else
    match loadKey E s.w key with
    | (.ok, some l, w) => (.ok, { s with w := w.release l })
    | (r, _, w) => (r, { s with w := w })

/-- `signature_verification_ecc_verify_signature`, signature_verification_ecc.c:11-34. -/
def verify (E : Engine) (s : St) (digest sig : Bytes) : Result × St :=
  if s.valid = false then (.noKey, s)
  else
    let w := { s.w with calls := s.w.calls + 1, misuse := s.w.misuse || !s.w.live.contains s.key.id }
    (match E.verify s.w.calls s.key.data digest sig with
      | .good => .ok
      | .bad => .badSignature
      | .error c => .engine c, { s with w := w })

/-- The state after the `memset` of `signature_verification_ecc_init_state`, signature_verification_ecc.c:227. -/
def init : St := ⟨false, ⟨0, []⟩, ⟨[], 0, 0, false⟩⟩

/-- `signature_verification_ecc_release`, signature_verification_ecc.c:237-242. -/
def release (s : St) : St := if s.valid then { s with w := s.w.release s.key } else s

/-- One call. -/
def exec (E : Engine) (s : St) : Call → Result × St
  | .remove _ => setKey E s none
  | .setKey k => setKey E s (some k)
  | .isKeyValid k => isKeyValid E s k
  | .verify d g => verify E s d g

/-- A history of calls with their results, and the state at the end. -/
def run (E : Engine) : St → List Call → List (Call × Result) × St
  | s, [] => ([], s)
  | s, c :: cs =>
    let r := exec E s c
    let t := run E r.2 cs
    ((c, r.1) :: t.1, t.2)

end Verif.SigVerEcc
