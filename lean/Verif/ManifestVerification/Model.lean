import Verif.Common.Bytes
/-! Model of `core/manifest/manifest_verification.c`: verification of manifest signatures with a stored and a default key, and the revocation
of the stored key.

The signature algorithm, the hash and the root key are parameters. A key record is the byte string of `struct manifest_verification_key_header`
with the key and its signature: 4 bytes of id, `pubLen` bytes of key, `sigLen` bytes of signature; these lengths are those of the default key
(lines 330-336). Calls are atomic (they hold the lock); NULL arguments and failing mutexes are left out. -/
namespace Verif.ManifestVerification

/-- Cryptography: `sigOk key digest signature`; `keyOk`: `is_key_valid`. -/
structure World where
  sigOk : Bytes → Bytes → Bytes → Bool
  keyOk : Bytes → Bool
  hash : Bytes → Bytes
  root : Bytes
  pubLen : Nat
  sigLen : Nat

/-- What goes wrong while a signature is checked: nothing, setting the key, the check itself (or hashing before it). -/
inductive Fault | none | setKey | verify
deriving DecidableEq

inductive Verdict | ok | bad | failed | undefined
deriving DecidableEq

/-- `set_verification_key` followed by `verify_signature`. -/
def check (W : World) (key digest sig : Bytes) (f : Fault) : Verdict :=
  match f with
  | .none => if W.sigOk key digest sig then .ok else .bad
  | _ => .failed

namespace World
/-- `key->id`, little endian. -/
def id (_ : World) (k : Bytes) : Nat := leNat (k.take 4)
/-- `&key->pub_key`, `pub_key_length`. -/
def pub (W : World) (k : Bytes) : Bytes := window k 4 W.pubLen
/-- `signature`, line 333. -/
def keySig (W : World) (k : Bytes) : Bytes := window k (4 + W.pubLen) W.sigLen
/-- `key_data_length`. -/
def keyLen (W : World) : Nat := 4 + W.pubLen + W.sigLen
end World

/-- `manifest_verification_verify_key`, lines 216-232, with `signature_verification_verify_message`, signature_verification.c:27-52.
An incompatible key is reported as `SIG_VERIFICATION_INVALID_KEY`, which is treated like a bad signature. -/
def verifyKey (W : World) (k : Bytes) (f : Fault) : Verdict :=
  match check W W.root (W.hash (k.take (W.keyLen - W.sigLen))) (W.keySig k) f with
  | .ok => if W.keyOk (W.pub k) then .ok else .bad
  | v => v

/-- `struct manifest_verification_state`, the default key of the firmware, and the contents of the keystore (`none`: no or no intact key).
`up`: initialization succeeded. -/
structure State where
  up : Bool
  stored : Option Bytes
  defaultValid : Bool
  saveFailed : Bool
  default : Bytes
  store : Option Bytes

/-- Outcome of `save_key`: success, or failure with what is then in the keystore. -/
inductive Save
  | ok
  | failed (left : Option Bytes)

/-- `keystore->save_key (default_key)`. -/
def save (s : State) (r : Save) : State × Bool :=
  match r with
  | .ok => ({ s with store := some s.default }, true)
  | .failed l => ({ s with store := l }, false)

/-- `manifest_verification_verify_signature`, lines 14-60; `f1` and `f2` are what goes wrong with the stored and the default key. With neither
key `status` is not initialized. -/
def verifySignature (W : World) (s : State) (digest sig : Bytes) (f1 f2 : Fault) : Verdict :=
  let second (v : Verdict) := if s.defaultValid then check W (W.pub s.default) digest sig f2 else v
  match s.stored with
  | some k =>
    match check W (W.pub k) digest sig f1 with
    | .bad => second .bad
    | v => v
  | none => second .undefined

/-- `manifest_verification_on_manifest_activated`, lines 105-177. The manifest is given by its digest and signature, `none` if it cannot be
read. The log entry is left out. -/
def activated (W : World) (s : State) (m : Option (Bytes × Bytes)) (f : Fault) (r : Save) : State :=
  if s.stored.isSome && s.defaultValid then
    match m with
    | none => s
    | some (digest, sig) =>
      match check W (W.pub s.default) digest sig f with
      | .ok =>
        let (s, ok) := save s r
        { s with stored := none, saveFailed := !ok }
      | _ => s
  else if s.saveFailed then
    match save s r with
    | (s, true) => { s with saveFailed := false }
    | (s, false) => s
  else s

/-- `manifest_verification_on_update_start`, lines 179-204: the new state and whether the update is allowed by this observer. -/
def updateStart (s : State) (r : Save) : State × Bool :=
  if s.saveFailed then
    match save s r with
    | (s, true) => ({ s with saveFailed := false }, true)
    | (s, false) => (s, false)
  else (s, true)

/-- What happens during initialization. `loadFail`: reading the keystore fails. -/
structure BootEnv where
  default : Bytes
  f1 : Fault
  f2 : Fault
  loadFail : Bool
  save : Save

/-- Lines 361-377. -/
def finishInit (W : World) (s : State) (env : BootEnv) : State :=
  match s.stored with
  | none =>
    match save s env.save with
    | (s, true) => { s with up := true }
    | (s, false) => s
  | some k => if W.id k ≥ W.id s.default then { s with defaultValid := false, up := true } else { s with up := true }

/-- `manifest_verification_init_state`, lines 298-387. -/
def init (W : World) (s : State) (env : BootEnv) : State :=
  let s : State := ⟨false, none, false, false, env.default, s.store⟩
  match verifyKey W s.default env.f1 with
  | .ok =>
    let s := { s with defaultValid := true }
    if env.loadFail then s
    else match s.store with
      | none => finishInit W s env
      | some k =>
        match (if k.length = s.default.length then verifyKey W k env.f2 else .bad) with
        | .ok => finishInit W { s with stored := some k } env
        | .bad => finishInit W s env
        | _ => s
  | _ => s

end Verif.ManifestVerification
