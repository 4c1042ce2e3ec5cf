import Verif.BufferUtil.Model
/-! Model of key generation in `core/crypto/ecdh.c` and `core/crypto/ecdsa.c`: key pairs are tested before they are returned.

The code for FIPS CMVP testing (`ECDH_ENABLE_FIPS_CMVP_TESTING`, `ECDSA_ENABLE_FIPS_CMVP_TESTING`) is compiled out and not modelled.
The engines, and the priv_key arguments, are assumed not to be NULL. `ECC_MAX_KEY_LENGTH` is `ECC_KEY_LENGTH_521` (ecc.h:21). -/
namespace Verif.KeyGen
variable {P Q : Type}

/-- Status codes; `engine` are those of the ECC, hash and signature functions, which are never zero. -/
inductive Status | ok | pctFailure | unsupportedKeyLength | engine (code : Nat)
deriving DecidableEq, Repr

/-- Results of signature verification: `SIG_VERIFICATION_BAD_SIGNATURE` and `ECC_HW_ECDSA_BAD_SIGNATURE` are `bad`. -/
inductive Verdict | good | bad | error (code : Nat)
deriving DecidableEq, Repr

/-- SHA-2 with 256, 384 and 512 bits (`enum hash_type`, hash.h:37-46). -/
inductive Hash | sha256 | sha384 | sha512
deriving DecidableEq, Repr

/-- An ECC engine (`struct ecc_engine`, ecc.h). The first argument is the number of the call, so that every call can give another
result. `sign` and `verify` stand for `ecdsa_sign_message_with_key` and `ecdsa_verify_message_with_key` (ecdsa.c) on the message
`ECC_KAT_VECTORS_ECDSA_SIGNED`; `initPair` for `init_key_pair` on the test key of a curve, `none` for a NULL key. -/
structure Engine (P Q : Type) where
  gen : Nat → (keyLength : Nat) → Except Nat (P × Q)
  maxSecret : Nat → P → Except Nat Nat
  initPair : Nat → Option Nat → Except Nat (P × Q)
  secret : Nat → P → Q → Except Nat Bytes
  sign : Nat → Hash → P → Except Nat Bytes
  verify : Nat → Hash → Q → Bytes → Verdict

/-- What the engine holds: the number of calls, the next key context and the live ones. `bad` says whether a context was released
that was not live. -/
structure St where
  calls : Nat
  next : Nat
  live : List Nat
  bad : Bool
deriving DecidableEq

/-- One call of the engine. -/
def St.tick (s : St) : St := { s with calls := s.calls + 1 }

/-- A new key context. -/
def St.alloc (s : St) : St := { s with next := s.next + 1, live := s.next :: s.live }

/-- `release_key_pair` for one of its arguments; `none` is NULL. -/
def St.release (s : St) : Option Nat → St
  | none => s
  | some i => { s with live := s.live.erase i, bad := s.bad || !s.live.contains i }

/-- The test key for a secret length, ecdh.c:108-127: `none` if there is none. -/
def testKey (n : Nat) : Option Nat := if n = 32 ∨ n = 48 ∨ n = 66 then some n else none

/-- `buffer_compare (a, b, n) == 0`, buffer_util.c:159-180, on buffers that were zero before (ecdh.c:94-95, 272-273). -/
def equalBytes (a b : Bytes) (n : Nat) : Bool := (BufferUtil.compare (fun k => a.getD k 0) (fun k => b.getD k 0) n).1

/-- `ecdh_pairwise_consistency_test`, ecdh.c:86-202. -/
def ecdhPct (E : Engine P Q) (s : St) (p : P) (q : Q) : Status × St :=
  match E.maxSecret s.calls p with
  | .error c => (.engine c, s.tick)
  | .ok n =>
    let s := s.tick
    match E.initPair s.calls (testKey n) with
    | .error c => (.engine c, s.tick)
    | .ok (tp, tq) =>
      let i := s.next
      let s := s.tick.alloc
      let j := s.next
      let s := s.alloc
      match E.secret s.calls p tq with
      | .error c => (.engine c, (s.tick.release (some i)).release (some j))
      | .ok a =>
        let s := s.tick
        match E.secret s.calls tp q with
        | .error c => (.engine c, (s.tick.release (some i)).release (some j))
        | .ok b =>
          let s := (s.tick.release (some i)).release (some j)
          if b.length ≠ a.length then (.pctFailure, s)
          else if equalBytes a b a.length = false then (.pctFailure, s)
          else (.ok, s)

/-- `ecdsa_pairwise_consistency_test`, ecdsa.c:297-381. -/
def ecdsaPct (E : Engine P Q) (s : St) (h : Hash) (p : P) (q : Q) : Status × St :=
  match E.sign s.calls h p with
  | .error c => (.engine c, s.tick)
  | .ok sig =>
    let s := s.tick
    match E.verify s.calls h q sig with
    | .good => (.ok, s.tick)
    | .bad => (.pctFailure, s.tick)
    | .error c => (.engine c, s.tick)

/-- The key contexts a caller gets: number and content. -/
structure Keys (P Q : Type) where
  priv : Nat × P
  pub : Option (Nat × Q)

/-- What follows the test, ecdh.c:66-73, ecdsa.c:274-281. -/
def conclude (p : P) (q : Q) (i j : Nat) (wantPub : Bool) : Status × St → Status × Option (Keys P Q) × St
  | (.ok, s) => if wantPub then (.ok, some ⟨(i, p), some (j, q)⟩, s) else (.ok, some ⟨(i, p), none⟩, s.release (some j))
  | (e, s) => (e, none, (s.release (some i)).release (some j))

/-- `ecdh_generate_random_key`, ecdh.c:46-74. -/
def ecdhGenerate (E : Engine P Q) (s : St) (len : Nat) (wantPub : Bool) : Status × Option (Keys P Q) × St :=
  match E.gen s.calls len with
  | .error c => (.engine c, none, s.tick)
  | .ok (p, q) =>
    conclude p q s.next (s.next + 1) wantPub (ecdhPct E s.tick.alloc.alloc p q)

/-- The choice of the hash, ecdsa.c:259-267 and 416-424. -/
def hashFor (len : Nat) : Hash := if len = 48 then .sha384 else if len = 66 then .sha512 else .sha256

/-- `ecdsa_generate_random_key`, ecdsa.c:244-283. -/
def ecdsaGenerate (E : Engine P Q) (s : St) (len : Nat) (wantPub : Bool) : Status × Option (Keys P Q) × St :=
  match E.gen s.calls len with
  | .error c => (.engine c, none, s.tick)
  | .ok (p, q) =>
    conclude p q s.next (s.next + 1) wantPub (ecdsaPct E s.tick.alloc.alloc (hashFor len) p q)

/-- The ECC hardware (`struct ecc_hw`). Keys are bytes in the caller's memory. `gen` says also what is written to the private and
public key when it fails. `secret` gives the content of the output buffer; the test keys are those of the curve. -/
structure Hw where
  gen : (keyLength : Nat) → Option Nat × Bytes × Bytes
  testPriv : Nat → Bytes
  testPub : Nat → Bytes
  secret : Nat → (priv : Bytes) → (keyLength : Nat) → (pub : Bytes) → Except Nat Bytes
  sign : Hash → (priv : Bytes) → (keyLength : Nat) → Except Nat Bytes
  verify : Hash → (pub : Bytes) → Bytes → Verdict

/-- `ecdh_ecc_hw_pairwise_consistency_test`, ecdh.c:267-345. -/
def ecdhHwPct (E : Hw) (p : Bytes) (len : Nat) (q : Bytes) : Status :=
  if len = 32 ∨ len = 48 ∨ len = 66 then
    match E.secret 0 p len (E.testPub len) with
    | .error c => .engine c
    | .ok a =>
      match E.secret 1 (E.testPriv len) len q with
      | .error c => .engine c
      | .ok b => if equalBytes a b len = false then .pctFailure else .ok
  else .unsupportedKeyLength

/-- `ecdsa_ecc_hw_pairwise_consistency_test`, ecdsa.c:459-506. -/
def ecdsaHwPct (E : Hw) (h : Hash) (p : Bytes) (len : Nat) (q : Bytes) : Status :=
  match E.sign h p len with
  | .error c => .engine c
  | .ok sig =>
    match E.verify h q sig with
    | .good => .ok
    | .bad => .pctFailure
    | .error c => .engine c

/-- The caller's memory: `struct ecc_raw_private_key` and `struct ecc_point_public_key`, ecc.h:48-61. The public key is that of the
caller, or the local `temp_pub` if the caller passes NULL. -/
structure Mem where
  d : Bytes
  keyLength : Nat
  pub : Bytes
deriving DecidableEq

/-- `buffer_zeroize` of both keys. -/
def Mem.zeroize (m : Mem) : Mem := ⟨List.replicate m.d.length 0, 0, List.replicate m.pub.length 0⟩

/-- Common frame of `ecdh_ecc_hw_generate_random_key`, ecdh.c:222-254, and `ecdsa_ecc_hw_generate_random_key`, ecdsa.c:401-444, with
the test as an argument. -/
def hwGenerate (E : Hw) (test : (p : Bytes) → (len : Nat) → (q : Bytes) → Status) (m : Mem) (len : Nat) (wantPub : Bool) :
    Status × Mem :=
  match E.gen len with
  | (some c, d, q) => (.engine c, { m with d := d, pub := q })
  | (none, d, q) =>
    let m : Mem := ⟨d, len, q⟩
    match test m.d m.keyLength m.pub with
    | .ok => (.ok, if wantPub then m else { m with pub := List.replicate m.pub.length 0 })
    | e => (e, m.zeroize)

/-- `ecdh_ecc_hw_generate_random_key`, ecdh.c:222-254. -/
def ecdhHwGenerate (E : Hw) (m : Mem) (len : Nat) (wantPub : Bool) : Status × Mem :=
  hwGenerate E (ecdhHwPct E) m len wantPub

/-- `ecdsa_ecc_hw_generate_random_key`, ecdsa.c:401-444. -/
def ecdsaHwGenerate (E : Hw) (m : Mem) (len : Nat) (wantPub : Bool) : Status × Mem :=
  hwGenerate E (ecdsaHwPct E (hashFor len)) m len wantPub

end Verif.KeyGen
