import Verif.Hmac.Model
import Verif.CommonMath.Model
/-! Model of the deterministic nonce generator of `core/crypto/ecdsa.c`.

The HMAC functions are those of `Verif.Hmac.Model`, over a hash engine every call of which can fail. The pointers `drbg`, `hash`
and `k` are assumed not to be NULL (ecdsa.c:39, 135). -/
namespace Verif.Rfc6979
open Hmac (Alg Engine keyBuf)

/-- `HASH_MAX_HASH_LEN` with SHA-512 enabled, hash.h:17-27. -/
def maxHashLen : Nat := 64

/-- `ECC_KEY_LENGTH_521`, ecc.h:16. -/
def keyLength521 : Nat := 66

/-- Status codes: `ECDSA_INVALID_ARGUMENT`, `HASH_ENGINE_UNKNOWN_HASH` and all errors of the HMAC functions together. -/
inductive Status | ok | invalidArgument | unknownHash | hashError
deriving DecidableEq, Repr

/-- The hash algorithms by their number (`enum hmac_hash`, hash.h:259-265), `none` where `hash_get_hash_length` (hash.c:182-200)
does not know the algorithm, and the uninitialised content of the local `hmac_engine` (ecdsa.c:34, 128). -/
structure Env where
  alg : Nat → Option Alg
  junk : Bytes

/-- `struct ecdsa_deterministic_k_drbg`, ecdsa.h:20-25. -/
structure Drbg where
  algo : Nat
  key : Bytes
  value : Bytes
  first : Bool
deriving DecidableEq

/-- `buffer_zeroize (drbg, sizeof (*drbg))`, ecdsa.c:100, 206. -/
def Drbg.zero : Drbg := ⟨0, List.replicate maxHashLen 0, List.replicate maxHashLen 0, false⟩

/-- `ecdsa_deterministic_k_drbg_clear`, ecdsa.c:204-207. -/
def clear (_ : Drbg) : Drbg := .zero

/-- `hash_hmac_init`, some `hash_hmac_update`, `hash_hmac_finish`, with `hash_hmac_cancel` if an update fails
(ecdsa.c:56-84, 146-168), and `hash_generate_hmac`; the output buffer has `maxHashLen` bytes. The output is not written when the
operation fails (simplification). -/
def mac (E : Env) (A : Alg) (e : Engine) (key : Bytes) (chunks : List Bytes) : Option Bytes × Engine :=
  match Hmac.hmac A e E.junk key chunks maxHashLen with
  | (.ok, out, _, e) => (some out, e)
  | (_, _, _, e) => (none, e)

/-- The body common to the loop in ecdsa.c:54-92 and to ecdsa.c:144-175: a new K from `V` and `chunks`, then a new V. -/
def rekey (E : Env) (A : Alg) (e : Engine) (d : Drbg) (chunks : List Bytes) : Bool × Drbg × Engine :=
  match mac E A e (d.key.take A.hashLen) (d.value.take A.hashLen :: chunks) with
  | (some k, e) =>
    let d := { d with key := writeAt d.key 0 k }
    match mac E A e (d.key.take A.hashLen) [d.value.take A.hashLen] with
    | (some v, e) => (true, { d with value := writeAt d.value 0 v }, e)
    | (none, e) => (false, d, e)
  | (none, e) => (false, d, e)

/-- `ecdsa_deterministic_k_drbg_instantiate`, ecdsa.c:30-103. `none` is a NULL pointer. -/
def instantiate (E : Env) (e : Engine) (d : Drbg) (algo : Nat) (digest priv : Option Bytes) : Status × Drbg × Engine :=
  match digest, priv with
  | some digest, some priv =>
    match E.alg algo with
    | none => (.unknownHash, d, e)
    | some A =>
      let d : Drbg := ⟨algo, List.replicate maxHashLen 0, List.replicate maxHashLen 1, true⟩
      match rekey E A e d [[0], priv, digest] with
      | (true, d, e) =>
        match rekey E A e d [[1], priv, digest] with
        | (true, d, e) => (.ok, d, e)
        | (false, _, e) => (.hashError, .zero, e)
      | (false, _, e) => (.hashError, .zero, e)
  | _, _ => (.invalidArgument, d, e)

/-- The loop in ecdsa.c:179-187, with `buffer_copy` (buffer_util.c:25-63). `out` is what was written to `k`. Every round writes at
least one byte, so `k_length` rounds suffice. -/
def fill (E : Env) (A : Alg) (key : Bytes) : (fuel : Nat) → Engine → (value : Bytes) → (remaining : Nat) → (out : Bytes) →
    Option Bytes × Bytes × Engine
  | 0, e, v, _, out => (some out, v, e)
  | fuel + 1, e, v, remaining, out =>
    if remaining = 0 then (some out, v, e)
    else
      match mac E A e (key.take A.hashLen) [v.take A.hashLen] with
      | (some x, e) =>
        let v := writeAt v 0 x
        let n := min A.hashLen remaining
        fill E A key fuel e v (remaining - n) (out ++ v.take n)
      | (none, e) => (none, v, e)

/-- `ecdsa_deterministic_k_drbg_generate`, ecdsa.c:125-197. Returns the status, the content of `k` on success, the generator and
the engine. -/
def generate (E : Env) (e : Engine) (d : Drbg) (kLength : Nat) : Status × Bytes × Drbg × Engine :=
  match E.alg d.algo with
  | none => (.unknownHash, [], d, e)
  | some A =>
    match (if d.first then (true, d, e) else rekey E A e d [[0]]) with
    | (false, d, e) => (.hashError, [], d, e)
    | (true, d, e) =>
      let d := { d with first := false }
      match fill E A d.key kLength e d.value kLength [] with
      | (none, v, e) => (.hashError, [], { d with value := v }, e)
      | (some out, v, e) =>
        (.ok, if kLength = keyLength521 then CommonMath.rightShift out 7 else out, { d with value := v }, e)

/-- `n + 1` calls of `generate`, as a caller makes them that rejects the first `n` candidates; it stops at an error. The result is
that of the last call. -/
def generateN (E : Env) (e : Engine) (d : Drbg) (kLength : Nat) : Nat → Status × Bytes × Drbg × Engine
  | 0 => generate E e d kLength
  | n + 1 =>
    match generateN E e d kLength n with
    | (.ok, _, d, e) => generate E e d kLength
    | r => r

end Verif.Rfc6979
