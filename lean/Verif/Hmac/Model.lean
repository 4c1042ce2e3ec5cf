import Verif.Common.Bytes
/-! Model of the HMAC functions of `core/crypto/hash.c` and of `core/crypto/hkdf.c`.

The hash engine is abstract: it collects the updated data and finally applies `H`. Every engine call can fail: `fail n` says
whether the `n`-th call of the engine does. -/
namespace Verif.Hmac

/-- A hash algorithm with its engine. `blockSize` and `hashLen` are `hash_get_block_size` and `hash_get_hash_length`. -/
structure Alg where
  H : Bytes → Bytes
  hashLen : Nat
  blockSize : Nat
  fail : Nat → Bool

/-- Size of `hmac_engine.key`: `SHA512_BLOCK_SIZE`, hash.h:270-276. -/
def keyBuf : Nat := 128

/-- State of the hash engine: the data of the active hash, if any, and the number of calls so far. -/
structure Engine where
  active : Option Bytes
  calls : Nat
deriving DecidableEq

inductive Status | ok | hashError | bufferTooSmall | noPrk
deriving DecidableEq, Repr

/-- `start_sha*` (through `hash_start_new_hash`, hash.c:18-60). Fails if a hash is in progress. -/
def start (A : Alg) (e : Engine) : Status × Engine :=
  if A.fail e.calls || e.active.isSome then (.hashError, { e with calls := e.calls + 1 })
  else (.ok, ⟨some [], e.calls + 1⟩)

/-- `hash_engine.update`. Fails if no hash is active. -/
def update (A : Alg) (e : Engine) (d : Bytes) : Status × Engine :=
  match A.fail e.calls, e.active with
  | false, some a => (.ok, ⟨some (a ++ d), e.calls + 1⟩)
  | _, _ => (.hashError, { e with calls := e.calls + 1 })

/-- `hash_engine.finish`: on success the digest is returned and the engine is idle. -/
def finish (A : Alg) (e : Engine) : Status × Bytes × Engine :=
  match A.fail e.calls, e.active with
  | false, some a => (.ok, A.H a, ⟨none, e.calls + 1⟩)
  | _, _ => (.hashError, [], { e with calls := e.calls + 1 })

/-- `hash_engine.cancel`. -/
def cancel (e : Engine) : Engine := { e with active := none }

/-- `hash_calculate`, hash.c:76-123: a complete hash. -/
def calculate (A : Alg) (e : Engine) (d : Bytes) : Status × Bytes × Engine :=
  if A.fail e.calls || e.active.isSome then (.hashError, [], { e with calls := e.calls + 1 })
  else (.ok, A.H d, { e with calls := e.calls + 1 })

/-- First key transformation, hash.c:394-401: `i < key_length ? key[i] ^ 0x36 : 0x36`. -/
def innerKey (A : Alg) (key : Bytes) (keyLength : Nat) : Bytes :=
  (List.range keyBuf).map (fun i =>
    if i < A.blockSize then (if i < keyLength then key.getD i 0 ^^^ 0x36 else 0x36) else key.getD i 0)

/-- Second key transformation, hash.c:410-412. -/
def outerKey (A : Alg) (key : Bytes) : Bytes :=
  (List.range keyBuf).map (fun i =>
    if i < A.blockSize then key.getD i 0 ^^^ (0x5c ^^^ 0x36) else key.getD i 0)

/-- `hash_hmac_init`, hash.c:353-420. `kb` is the previous content of `engine->key`. Returns the status, the content of
`engine->key` and the hash engine. -/
def init (A : Alg) (e : Engine) (kb key : Bytes) : Status × Bytes × Engine :=
  let go (e : Engine) (kb : Bytes) (keyLength : Nat) : Status × Bytes × Engine :=
    match start A e with
    | (.ok, e) =>
      let ik := innerKey A kb keyLength
      match update A e (ik.take A.blockSize) with
      | (.ok, e) => (.ok, outerKey A ik, e)
      | (s, e) => (s, List.replicate keyBuf 0, cancel e)
    | (s, e) => (s, List.replicate keyBuf 0, e)
  if key.length > A.blockSize then
    match calculate A e key with
    | (.ok, h, e) => go e (writeAt kb 0 h) A.hashLen
    | (s, _, e) => (s, List.replicate keyBuf 0, e)
  else go e (writeAt kb 0 key) key.length

/-- `hash_hmac_cancel`, hash.c:509-516. -/
def hmacCancel (e : Engine) : Bytes × Engine := (List.replicate keyBuf 0, cancel e)

/-- `hash_hmac_finish`, hash.c:453-502. Returns the status, the HMAC, the content of `engine->key` and the hash engine. -/
def hmacFinish (A : Alg) (e : Engine) (kb : Bytes) (outLen : Nat) : Status × Bytes × Bytes × Engine :=
  if outLen < A.hashLen then (.bufferTooSmall, [], kb, e)
  else
    match finish A e with
    | (.ok, inner, e) =>
      match start A e with
      | (.ok, e) =>
        match update A e (kb.take A.blockSize) with
        | (.ok, e) =>
          match update A e (inner.take A.hashLen) with
          | (.ok, e) =>
            match finish A e with
            | (.ok, out, e) => (.ok, out, List.replicate keyBuf 0, e)
            | (s, _, e) => (s, [], hmacCancel e)
          | (s, e) => (s, [], hmacCancel e)
        | (s, e) => (s, [], hmacCancel e)
      | (s, e) => (s, [], hmacCancel e)
    | (s, _, e) => (s, [], hmacCancel e)

/-- A sequence of `hash_hmac_update` calls (hash.c:431-438), stopping at the first failure. -/
def updates (A : Alg) : Engine → List Bytes → Status × Engine
  | e, [] => (.ok, e)
  | e, d :: ds =>
    match update A e d with
    | (.ok, e) => updates A e ds
    | r => r

/-- The usual sequence of calls: init, updates, finish, and cancel when an update fails (as in kdf.c and
`hash_generate_hmac`, hash.c:311-338). `outLen` is the output buffer size. -/
def hmac (A : Alg) (e : Engine) (kb key : Bytes) (chunks : List Bytes) (outLen : Nat) : Status × Bytes × Bytes × Engine :=
  match init A e kb key with
  | (.ok, kb, e) =>
    if outLen < A.hashLen then (.bufferTooSmall, [], hmacCancel e)
    else
      match updates A e chunks with
      | (.ok, e) => hmacFinish A e kb outLen
      | (s, e) => (s, [], hmacCancel e)
  | (s, kb, e) => (s, [], kb, e)

/-- The HKDF state, hkdf.h: the pseudorandom key and whether one is available (`hmac_type` valid). -/
structure Hkdf where
  prk : Bytes
  valid : Bool
deriving DecidableEq

/-- Size of `hkdf_state.prk`. -/
def prkBuf : Nat := 64

/-- `hkdf_reset_key_derivation_context`, hkdf.c:16-20. -/
def Hkdf.reset : Hkdf := ⟨List.replicate prkBuf 0, false⟩

/-- `hkdf_extract`, hkdf.c:22-51. -/
def extract (A : Alg) (e : Engine) (kb ikm salt : Bytes) : Status × Hkdf × Engine :=
  match hmac A e kb salt [ikm] prkBuf with
  | (.ok, out, _, e) => (.ok, ⟨writeAt (List.replicate prkBuf 0) 0 out, true⟩, e)
  | (s, _, _, e) => (s, .reset, e)

end Verif.Hmac
