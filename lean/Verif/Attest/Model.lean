import Verif.Common.Bytes
/-! The responder of the Cerberus attestation protocol, `core/attestation/attestation_responder.c`, and unsealing of keys, `core/attestation/aux_attestation.c`. -/
namespace Verif.Attest

/-! ### Certificates and digests -/

/-- What the key manager and the auxiliary attestation hold at one moment. The certificates of the keys are `none` for a null pointer. `aux` is `none` without auxiliary attestation,
`some none` without a certificate for it. -/
structure Certs where
  root : Option Bytes
  inter : Option Bytes
  devid : Option Bytes
  alias : Option Bytes
  aux : Option (Option Bytes)
  deriving DecidableEq, Repr

/-- The error codes, attestation.h. -/
inductive Err
  | slot
  | certNum
  | notAvailable
  | tooSmall
  | badLength
  /-- The error of a step that failed. -/
  | step (code : Nat)
  deriving DecidableEq, Repr

/-- The test of the slot of the auxiliary chain, attestation_responder.c:33-40 and 188-195. -/
def auxCheck (c : Certs) (slot : Nat) : Option Err :=
  if slot = 1 then
    match c.aux with
    | none => some .slot
    | some none => some .notAvailable
    | some (some _) => none
  else none

/-- A certificate of the keys is missing: a null pointer or a length of 0. -/
def missing (d : Option Bytes) : Bool := match d with
  | none => true
  | some d => d.isEmpty

/-- The test of the certificates of the keys, attestation_responder.c:43-51 and 198-206. -/
def keysCheck (c : Certs) (slot : Nat) : Option Err :=
  if missing c.devid then some .notAvailable
  else if slot = 0 ∧ missing c.alias then some .notAvailable
  else none

/-- The last certificate of the chain, attestation_responder.c:132-149 and 98-108; `none` is a null pointer. -/
def lastCert (c : Certs) (slot : Nat) : Option Bytes := if slot = 0 then c.alias else c.aux.join

/-- The hashes at attestation_responder.c:70-111, one after the other; `H` is SHA-256, or fails with an error code depending on the number of the call. A hash of a null pointer is refused by the engine. -/
def hashAll (H : Nat → Bytes → Except Nat Bytes) : Nat → List (Option Bytes) → Except Err Bytes
  | _, [] => .ok []
  | _, none :: _ => .error (.step 0)
  | n, some d :: ds => match H n d with
    | .error e => .error (.step e)
    | .ok h => match hashAll H (n + 1) ds with
      | .error e => .error e
      | .ok hs => .ok (h ++ hs)

/-- `attestation_responder_get_digests`, attestation_responder.c:12-121: the digests and their number. All pointers are read under the lock of the keys. The null checks of the arguments are left out. -/
def getDigests (H : Nat → Bytes → Except Nat Bytes) (c : Certs) (slot bufLen : Nat) : Except Err (Bytes × Nat) :=
  if slot > 1 then .error .slot
  else match auxCheck c slot with
    | some e => .error e
    | none => match keysCheck c slot with
      | some e => .error e
      | none =>
        let num := 2 + (if c.root.isSome then 1 else 0) + (if c.inter.isSome then 1 else 0)
        if bufLen < 32 * num then .error .tooSmall
        else
          let list := (if c.root.isSome then [c.root] else []) ++ (if c.inter.isSome then [c.inter] else []) ++ [c.devid] ++ [lastCert c slot]
          match hashAll H 0 list with
          | .error e => .error e
          | .ok d => .ok (d, num)

/-- `attestation_responder_get_certificate`, attestation_responder.c:151-258. `c` is what the manager holds when the pointers to the CA certificates are fetched (168-169), `c'` what it holds when they are
followed under the lock of the keys (197-255): the pointers are to the fields of the manager and not to the certificates. A null pointer in the result is `none`. -/
def getCertificate (c c' : Certs) (slot num : Nat) : Except Err (Option Bytes) :=
  if slot > 1 then .error .slot
  else if (if c.inter.isSome then num > 3 else if c.root.isSome then num > 2 else num > 1) then .error .certNum
  else match auxCheck c slot with
    | some e => .error e
    | none => match keysCheck c' slot with
      | some e => .error e
      | none => .ok (
        if num = 0 then (if c.root.isSome then c'.root else c'.devid)
        else if num = 1 then
          (if c.inter.isSome then c'.inter else if c.root.isSome then c'.devid else lastCert c' slot)
        else if num = 2 then (if c.inter.isSome then c'.devid else lastCert c' slot)
        else lastCert c' slot)

/-! ### Challenge -/

/-- The engines for one challenge. Each step has its error code if it fails. The PCR value and the random bytes of the call are given, signing gives the bytes of the signature. -/
structure Crypto where
  sha256 : Bytes → Bytes
  sign : (digest : Bytes) → (room : Nat) → Except Nat Bytes
  pcrNum : Nat
  pcr : Except Nat Bytes
  nonce : Except Nat Bytes
  start : Option Nat
  update1 : Option Nat
  update2 : Option Nat
  initKey : Option Nat
  finish : Option Nat
  minVersion : UInt8
  maxVersion : UInt8

/-- The buffer, the data of the active hash (`none`: no hash active) and whether both locks are held. -/
structure Work where
  buf : Bytes
  hash : Option Bytes
  lock : Bool
  keysLock : Bool
  deriving DecidableEq, Repr

/-- Store bytes at an offset. -/
def put (b : Bytes) (off : Nat) (d : Bytes) : Bytes := b.take off ++ d ++ b.drop (off + d.length)

/-- The body of the response before the nonce is known, attestation_responder.c:320-327: `struct attestation_response` is slot, mask, two versions, two reserved bytes, nonce of 32 bytes, number and size. -/
def responseHeader (cr : Crypto) (slot : UInt8) (nonce : Bytes) (len : Nat) : Bytes :=
  [slot, 1, cr.minVersion, cr.maxVersion, 0, 0] ++ nonce ++ [UInt8.ofNat (if cr.pcrNum = 0 then 1 else cr.pcrNum), UInt8.ofNat len]

/-- `ecdsa_sign_hash_and_finish`, ecdsa.c:612-643 and 783-818: the hash is not active afterwards. -/
def signAndFinish (cr : Crypto) (w : Work) (room : Nat) : Except Nat Bytes × Work :=
  match cr.initKey with
  | some e => (.error e, { w with hash := none })
  | none => match cr.finish with
    | some e => (.error e, { w with hash := none })
    | none => (cr.sign (cr.sha256 (w.hash.getD [])) room, { w with hash := none })

/-- `attestation_responder_challenge_response`, attestation_responder.c:260-361; the result is the length of the response. Under the lock of the responder. -/
def challenge (cr : Crypto) (w : Work) : Except Err Nat × Work :=
  if w.buf.length < 34 then (.error .badLength, w)
  else
    let slot := w.buf.getD 0 0
    if slot ≠ 0 then (.error .slot, w)
    else
      let w := { w with lock := true }
      let fail (e : Err) (w : Work) : Except Err Nat × Work := (.error e, { w with lock := false })
      let cleanup (e : Err) (w : Work) : Except Err Nat × Work := fail e { w with hash := none }
      match cr.pcr with
      | .error e => fail (.step e) w
      | .ok m =>
        let len := (40 + m.length) % 2 ^ 16
        if w.buf.length ≤ len then fail .tooSmall w
        else match cr.start with
          | some e => fail (.step e) w
          | none =>
            let w := { w with hash := some [] }
            match cr.update1 with
            | some e => cleanup (.step e) w
            | none =>
              let w := { w with hash := w.hash.map (· ++ w.buf.take 34) }
              let w := { w with buf := put w.buf 0 (List.replicate len 0) }
              let w := { w with buf := put w.buf 0 (responseHeader cr slot (List.replicate 32 0) m.length) }
              match cr.nonce with
              | .error e => cleanup (.step e) w
              | .ok nonce =>
                let w := { w with buf := put w.buf 6 nonce }
                let w := { w with buf := put w.buf 40 m }
                match cr.update2 with
                | some e => cleanup (.step e) w
                | none =>
                  let w := { w with hash := w.hash.map (· ++ w.buf.take len) }
                  let w := { w with keysLock := true }
                  let (r, w) := signAndFinish cr w (w.buf.length - len)
                  let w := { w with keysLock := false }
                  match r with
                  | .error e => fail (.step e) w
                  | .ok sig => (.ok (len + sig.length), { w with buf := put w.buf len sig, lock := false })

/-! ### Unsealing -/

/-- Error codes, aux_attestation.h:111-122. -/
inductive UErr
  | invalidArgument
  | keyLength
  | hmacType
  | bufferTooSmall
  | seedParam
  | unknownSeed
  | hmacMismatch
  | pcrLength
  | pcrMismatch
  | step (code : Nat)
  deriving DecidableEq, Repr

/-- A request to unseal. The seed types are 0 (RSA) and 1 (ECDH), the parameters of RSA 0 (PKCS#1 v1.5), 1 and 2 (OAEP with SHA-1 and SHA-256), those of ECDH 0 (raw) and 1 (SHA-256 of the output),
cerberus_protocol_optional_commands.h:86-116. -/
structure Request where
  keyType : Nat
  seed : Bytes
  seedType : Nat
  seedParam : Nat
  hmac : Bytes
  hmacType : Nat
  cipher : Bytes
  sealing : List Bytes
  keyRoom : Nat

/-- What the device computes. `pcrLen` is the length of a PCR, `none` for one that does not exist; `pcr` its value. Every computation can fail. -/
structure Device where
  decrypt : (sha256Padding : Bool) → Bytes → Except Nat Bytes
  ecdh : (hashed : Bool) → Bytes → Except Nat Bytes
  kdf : (secret : Bytes) → (label : String) → Except Nat Bytes
  hmac : (key : Bytes) → Bytes → Except Nat Bytes
  pcrLen : Nat → Option Nat
  pcr : Nat → Except Nat Bytes

/-- The seed, aux_attestation.c:379-418. -/
def getSecret (dev : Device) (r : Request) : Except UErr Bytes :=
  if r.seedType = 0 then
    if r.seedParam = 1 then (dev.decrypt false r.seed).mapError .step
    else if r.seedParam = 2 then (dev.decrypt true r.seed).mapError .step
    else .error .seedParam
  else if r.seedType = 1 then
    if r.seedParam ≠ 0 ∧ r.seedParam ≠ 1 then .error .seedParam
    else (dev.ecdh (r.seedParam = 1) r.seed).mapError .step
  else .error .unknownSeed

/-- The loop over the bytes of one sealing value, aux_attestation.c:470-481: whether the PCR is bypassed. `j` is the position. -/
def scan (pcrLen : Nat) : Nat → Bytes → Except UErr Bool
  | _, [] => .ok true
  | j, b :: bs => if b ≠ 0 then (if j < 64 - pcrLen then .error .pcrLength else .ok false) else scan pcrLen (j + 1) bs

/-- One turn of the loop over the PCRs, aux_attestation.c:454-492. The number of the PCR is an 8 bit parameter of the PCR store. -/
def checkPcr (dev : Device) (i : Nat) (s : Bytes) : Except UErr Unit :=
  let len := (dev.pcrLen (i % 256)).getD 64
  match scan len 0 s with
  | .error e => .error e
  | .ok true => .ok ()
  | .ok false => match dev.pcr (i % 256) with
    | .error e => .error (.step e)
    | .ok v => if v.take len = s.drop (64 - len) then .ok () else .error .pcrMismatch

/-- The loop at aux_attestation.c:453-493. -/
def checkPcrs (dev : Device) : Nat → List Bytes → Except UErr Unit
  | _, [] => .ok ()
  | i, s :: ss => match checkPcr dev i s with
    | .error e => .error e
    | .ok () => checkPcrs dev (i + 1) ss

/-- `aux_attestation_unseal`, aux_attestation.c:341-506. Null pointers are left out. -/
def unsealKey (dev : Device) (r : Request) : Except UErr Bytes :=
  if r.seed = [] ∨ r.cipher = [] ∨ r.sealing = [] then .error .invalidArgument
  else if r.keyType ≠ 32 then .error .keyLength
  else if r.hmacType ≠ 1 then .error .hmacType
  else if r.keyRoom < 32 then .error .bufferTooSmall
  else match getSecret dev r with
    | .error e => .error e
    | .ok secret => match dev.kdf secret "signing key" with
      | .error e => .error (.step e)
      | .ok sk => match dev.hmac sk (r.cipher ++ r.sealing.flatten) with
        | .error e => .error (.step e)
        | .ok mac =>
          if r.hmac.take 32 ≠ mac.take 32 then .error .hmacMismatch
          else match checkPcrs dev 0 r.sealing with
            | .error e => .error e
            | .ok () => (dev.kdf secret "encryption key").mapError .step

end Verif.Attest
