import Verif.Requester.Verdict
/-! Attesting a device over SPDM: `core/attestation/attestation_requester.c` without device discovery, and the caches of `core/cmd_interface/device_manager.c` it uses.
The responder, the transport, the random numbers and every failure of an engine are arbitrary. Not modelled: the Cerberus and TCG protocols, RSA keys, logging,
timeouts, the device's announced message size (a parameter here). -/
namespace Verif.Requester

/-- `struct device_manager_key`, with `X509_PUBLIC_KEY_ECC` or not. -/
structure Key where
  ecc : Bool
  bytes : Bytes
  deriving DecidableEq, Repr

/-- `enum device_manager_device_state`, device_manager.h:136-165. -/
inductive DevState
  | authenticated | unidentified | neverAttested | ready | failed | notAttestable | withoutCerts | withTimeout | withoutCertsTimeout | interrupted | notPresent
  | transient | forced | invalidVersion | invalidCaps | invalidAlgorithm | invalidDigests | invalidCerts | invalidChallenge | invalidMeasurement | invalidResponse
  | mismatch | untrusted | invalidCfm
  deriving DecidableEq, Repr

/-- What `send_request_message` gives: a timeout, an unusable response, another failure, or `len` bytes at the begin of the message buffer. The bytes behind them are
those of earlier messages; here they are arbitrary. -/
inductive Reply
  | timeout | unusable | failure
  | msg (buf : Bytes) (len : Nat)
  deriving DecidableEq, Repr

/-- The surroundings. `n` is the size of the message buffer; `fault k`: the `k`-th call of an engine or allocation fails; `reply k` the outcome of the `k`-th request;
`nonce k` random bytes. `sigOk`: the ECDSA signature (r, s) of a digest is right. `certOk`, `rootOk`, `caOk`: a certificate can be loaded, added as a root CA, added as a
trusted CA; `auth a c`: `c` is accepted if the store has only `a`; `keyOf` its public key. `derLen` is `asn1_get_der_item_len`. `fixed` gives the requests that depend
only on code, version and hash type. `maxLen`: the largest message of the device. -/
structure Env where
  n : Nat
  fault : Nat → Bool
  reply : Nat → Reply
  nonce : Nat → Bytes
  hash : Nat → Bytes → Bytes
  builtIn : Nat → Bool
  sigOk : Key → Bytes → Bytes → Bytes → Bool
  certOk : Bytes → Bool
  rootOk : Bytes → Bool
  caOk : Bytes → Bool
  auth : Bytes → Bytes → Bool
  keyOf : Bytes → Option Key
  derLen : Bytes → Option Nat
  localRoot : Option Bytes
  maxLen : Nat
  retries : Nat
  fixed : Nat → Nat → Nat → Bytes

/-- A rule of a component, `struct cfm_measurement_container`, cfm.h: a digest, data, or a digest over several measurements. -/
inductive Item
  | digest (id : Nat) (l : List DigestEntry)
  | data (id : Nat) (l : List DataCheck)
  | aggregated (type : Nat) (ids : List Nat) (l : List DigestEntry)
  deriving DecidableEq, Repr

/-- What a CFM says about a component: `get_component_device`, `get_root_ca_digest`, `get_component_pmr_digest` for PMR 0, `get_next_measurement_or_measurement_data`.
Failures to read the CFM are not modelled, apart from a missing component. -/
structure Component where
  slot : Nat
  thash : Nat
  mhash : Nat
  spdm : Bool
  root : Option Digests
  pmr0 : Option Digests
  items : List Item
  deriving DecidableEq, Repr

/-- `struct attestation_requester_transaction_state`, attestation_requester.h. -/
structure Txn where
  buf : Bytes := []
  len : Nat := 0
  minor : Nat := 0
  vs : Nat := 0
  slot : Nat := 0
  sigLen : Nat := 0
  thash : Nat := 0
  mhash : Nat := 0
  finished : Bool := false
  chal : Bool := false
  cert : Bool := false
  raw : Bool := false
  op : Nat := 0
  deriving DecidableEq, Repr

/-- What happened, for the statements only: a random nonce; the device has announced that it has certificates or not; a measurement that was taken, with key and transcript of its signature if there was one, and the response; the summary of
all measurements in a challenge response with key and transcript. -/
inductive Ev
  | nonce (b : Bytes)
  | caps (cert : Bool)
  | meas (op : Nat) (raw : Bool) (sig : Option (Key × Bytes)) (rsp value : Bytes)
  | summary (sig : Option (Key × Bytes)) (rsp value : Bytes)
  deriving DecidableEq, Repr

/-- The state. `alias` and `chain` are the key and the chain digest the device manager holds, each for one device only (device_manager.c:1082-1270); `prim` and `sec`
the two hash engines; `succ` `status_success_count`. `trace` is for the statements, newest first, for the current component. -/
structure St where
  k : Nat := 0
  r : Nat := 0
  dev : Nat → DevState
  succ : Nat → Nat := fun _ => 0
  alias : Option (Nat × Key) := none
  chain : Option (Nat × Bytes) := none
  prim : Option (Nat × Bytes) := none
  sec : Option (Nat × Bytes) := none
  txn : Txn := {}
  trace : List Ev := []

def M (α : Type) := St → Except Err α × St

instance : Monad M where
  pure a := fun s => (.ok a, s)
  bind m f := fun s => match m s with
    | (.ok a, s) => f a s
    | (.error e, s) => (.error e, s)

def fail (e : Err) : M α := fun s => (.error e, s)
def modify (f : St → St) : M Unit := fun s => (.ok (), f s)
def check (b : Bool) (e : Err) : M Unit := if b then pure () else fail e
def txn : M Txn := fun s => (.ok s.txn, s)
def setTxn (f : Txn → Txn) : M Unit := modify fun s => { s with txn := f s.txn }

/-- A value that may be missing. -/
def orFail (o : Option α) (e : Err) : M α := match o with
  | none => fail e
  | some a => pure a

/-- A result as a step. -/
def ofResult (r : Except Err α) : M α := match r with
  | .ok a => pure a
  | .error e => fail e

/-- A step that is made only under a condition. -/
def doIf (b : Bool) (m : M Unit) : M Unit := if b then m else pure ()

/-- Clean-up code for errors. -/
def onError (m : M α) (f : St → St) : M α := fun s => match m s with
  | (.ok a, s) => (.ok a, s)
  | (.error e, s) => (.error e, f s)

/-- Clean-up code at the end of a function. -/
def always (m : M α) (f : St → St) : M α := fun s => ((m s).1, f (m s).2)

/-- A call that can fail. -/
def engine (env : Env) : M Unit := fun s => (if env.fault s.k then .error .engine else .ok (), { s with k := s.k + 1 })

/-- `device_manager_update_device_state`, device_manager.c:1327-1362, without the timer. -/
def setDev (eid : Nat) (d : DevState) (s : St) : St :=
  { s with dev := fun e => if e = eid then (if s.dev eid = .notAttestable then .notAttestable else d) else s.dev e }

/-- `hash_get_hash_length`, with the numbers of hash.h:38-44. -/
def hashLen (t : Nat) : Nat := match t with
  | 0 => 20 | 1 => 32 | 2 => 48 | 3 => 64 | 4 => 32 | 5 => 48 | 6 => 64 | _ => 0

/-- `hash_start_new_hash` of the primary engine. -/
def primStart (env : Env) (t : Nat) : M Unit := do
  check (env.builtIn t) .unsupported
  engine env
  modify fun s => { s with prim := some (t, []) }

/-- `update` of the primary engine. -/
def primUpdate (env : Env) (d : Bytes) : M Unit := fun s => match s.prim with
  | none => (.error .engine, s)
  | some (t, x) => (do engine env; modify fun s => { s with prim := some (t, x ++ d) } : M Unit) s

/-- `finish` of the primary engine: the digest. -/
def primFinish (env : Env) : M Bytes := fun s => match s.prim with
  | none => (.error .engine, s)
  | some (t, x) => (do engine env; modify fun s => { s with prim := none }; pure (env.hash t x) : M Bytes) s

/-- `cancel` of the primary engine. -/
def primCancel (s : St) : St := { s with prim := none }

/-- `hash_start_new_hash` of the secondary engine. -/
def secStart (env : Env) (t : Nat) : M Unit := do
  check (env.builtIn t) .unsupported
  engine env
  modify fun s => { s with sec := some (t, []) }

/-- `update` of the secondary engine. -/
def secUpdate (env : Env) (d : Bytes) : M Unit := fun s => match s.sec with
  | none => (.error .engine, s)
  | some (t, x) => (do engine env; modify fun s => { s with sec := some (t, x ++ d) } : M Unit) s

/-- `finish` of the secondary engine: hash type and bytes hashed. The digest is `env.hash` of them. -/
def secFinish (env : Env) : M (Nat × Bytes) := fun s => match s.sec with
  | none => (.error .engine, s)
  | some (t, x) => (do engine env; modify fun s => { s with sec := none }; pure (t, x) : M (Nat × Bytes)) s

/-- `cancel` of the secondary engine. -/
def secCancel (s : St) : St := { s with sec := none }

/-- A byte of the message buffer. -/
def u8 (b : Bytes) (i : Nat) : Nat := (b.getD i 0).toNat
/-- A 16 bit field. -/
def u16 (b : Bytes) (i : Nat) : Nat := leNat (window b i 2)
/-- A 32 bit field. -/
def u32 (b : Bytes) (i : Nat) : Nat := leNat (window b i 4)

/-- The content of the message buffer has its size. -/
def fit (n : Nat) (b : Bytes) : Bytes := (b ++ List.replicate n 0).take n

/-- `attestation_requester_send_msg_transport_request_and_get_response`, attestation_requester.c:83-125. The request itself has no influence on the (arbitrary) reply. -/
def exchange (env : Env) (eid : Nat) : M Unit := fun s =>
  let s' : St := { s with r := s.r + 1 }
  match env.reply s.r with
  | .timeout => (.error .timeout, setDev eid (match s.dev eid with
      | .authenticated => .withTimeout
      | .withoutCerts => .withoutCertsTimeout
      | _ => .interrupted) s')
  | .unusable => (.error .unexpected, setDev eid .invalidResponse s')
  | .failure => (.error .transport, setDev eid .failed s')
  | .msg b len => (.ok (), { s' with txn := { s.txn with buf := fit env.n b, len := min len env.n } })

/-- The format checks of `spdm_process_*_response`, spdm_commands.c:1516-1532, 1798-1820, 2260-2306, 2528-2539, 2801-2817, 3112-3123, 3496-3514, by the code in the
response. The lengths of the algorithm structures (2282-2303) are not checked here; `none` for other codes. -/
def wellFormed (b : Bytes) (len : Nat) : Option Bool :=
  let minor := u8 b 0 % 16
  match u8 b 1 with
  | 0x04 => some (decide (6 ≤ len ∧ len = 6 + 2 * u8 b 5))
  | 0x61 => some (decide (len = if minor < 2 then 12 else 20))
  | 0x63 => some (decide (36 ≤ len ∧ (minor < 1 → u8 b 2 = 0) ∧ len = u16 b 4))
  | 0x01 => some (decide (4 ≤ len))
  | 0x02 => some (decide (8 ≤ len ∧ len = 8 + u16 b 4))
  | 0x03 => some (decide (4 < len))
  | 0x60 => some (decide (42 ≤ len ∧ 42 + leNat (window b 5 3) ≤ len ∧ 42 + leNat (window b 5 3) + u16 b (8 + leNat (window b 5 3) + 32) ≤ len))
  | _ => none

/-- `attestation_requester_spdm_response_not_ready`, attestation_requester.c:1341-1396, for the command `cmd`. The shift at 1388 is undefined for exponents from 31 on. -/
def notReady (cmd : Nat) (b : Bytes) : Except Err (Option Nat) :=
  if cmd = 0x84 ∨ cmd = 0xe1 ∨ cmd = 0xe3 then .error .proto
  else if u8 b 5 ≠ cmd then .error .proto
  else if min (u8 b 4) 41 ≥ 31 then .error .ub
  else .ok (some (u8 b 6))

/-- `attestation_requester_process_spdm_protocol_response`, attestation_requester.c:1407-1508: the token of a response that is not ready. The code of the response is
not compared with that of the request. -/
def processResponse (eid cmd : Nat) : M (Option Nat) := fun s =>
  let b := s.txn.buf
  let bad (e : Err) : Except Err (Option Nat) × St := (.error e, setDev eid .invalidResponse s)
  if s.txn.len < 2 then bad .proto
  else match wellFormed b s.txn.len with
    | some true => (.ok none, s)
    | some false => bad .proto
    | none =>
      if u8 b 1 = 0x7f then
        if 4 ≤ s.txn.len then
          if u8 b 2 = 0x42 then
            match notReady cmd b with
            | .ok t => (.ok t, s)
            | .error e => bad e
          else if u8 b 2 = 0x03 ∧ s.dev eid = .authenticated then (.error .unexpected, setDev eid .transient s)
          else bad .unexpected
        else (.ok none, s)
      else bad .unexpected

/-- `attestation_requester_send_spdm_protocol_request_and_get_response`, attestation_requester.c:1521-1611. The first argument is `max_rsp_not_ready_retries`. -/
def requestLoop (env : Env) (eid cmd : Nat) : Nat → M Unit
  | 0 => do
    exchange env eid
    let t ← processResponse eid cmd
    if t.isSome then onError (fail .retries) (setDev eid .invalidResponse) else pure ()
  | retries + 1 => do
    exchange env eid
    let t ← processResponse eid cmd
    if t.isSome then requestLoop env eid cmd retries else pure ()

/-- `attestation_requester_send_spdm_command_request`, attestation_requester.c:1629-1750. `post` is what is done with the response, `d` the state of the device if this
fails, `count` the number of bytes of the response that go into the transcript; a number above the size of the buffer is undefined behaviour. -/
def sendCommand (env : Env) (eid cmd : Nat) (req : Bytes) (d : DevState) (post : M Unit) (count : Txn → Nat) : M Unit := do
  secUpdate env req
  requestLoop env eid cmd env.retries
  onError post (setDev eid d)
  let t ← txn
  check (decide (count t ≤ env.n)) .ub
  secUpdate env (window t.buf 0 (count t))

/-- The versions offered, attestation_requester.c:884-894: the greatest minor version from `m` on. -/
def bestVersion (b : Bytes) : List Nat → Option Nat → Option Nat
  | [], m => m
  | i :: rest, m =>
    let e := u16 b (6 + 2 * i)
    let minor := e / 256 % 16
    bestVersion b rest (if e / 4096 = 1 ∧ e % 16 = 0 ∧ m.getD 0 ≤ minor ∧ minor ≤ 2 then some minor else m)

/-- `attestation_requester_get_version_rsp_post_processing`, attestation_requester.c:874-909. -/
def versionPost (env : Env) : M Unit := do
  let t ← txn
  check (decide (6 + 2 * u8 t.buf 5 ≤ env.n)) .ub
  let m ← orFail (bestVersion t.buf (List.range (u8 t.buf 5)) none) .proto
  setTxn fun t => { t with minor := m }

/-- `attestation_requester_get_capabilities_rsp_post_processing`, attestation_requester.c:919-1010, without the update of the capabilities in the device manager. -/
def capabilitiesPost : M Unit := do
  let t ← txn
  let flags := u32 t.buf 8
  let cert := decide (flags / 2 % 2 = 1)
  let meas := flags / 8 % 4
  let chal := decide (flags / 4 % 2 = 1)
  modify fun s => { s with txn := { s.txn with cert := cert }, trace := .caps cert :: s.trace }
  check (decide (meas ≠ 0)) .proto
  check (decide (meas = if cert then 2 else 1)) .proto
  check (cert || !chal) .proto
  setTxn fun t => { t with chal := chal }

/-- The length of r and s for a signature algorithm, attestation_requester.c:1036-1055. -/
def sigLength (a : Nat) : Option Nat := match a with
  | 0x10 => some 32 | 0x80 => some 48 | 0x100 => some 66 | _ => none

/-- The hash type for a selected base hash, attestation_requester.c:1057-1069 and 1105-1116. -/
def baseHash (h : Nat) : Option Nat := match h with
  | 1 => some 1 | 2 => some 2 | 4 => some 3 | _ => none

/-- The hash type for a selected measurement hash, attestation_requester.c:1128-1150. -/
def measHash (h : Nat) : Option Nat := match h with
  | 2 => some 1 | 16 => some 1 | 4 => some 2 | 32 => some 2 | 8 => some 3 | 64 => some 3 | _ => none

/-- The algorithms of signatures, attestation_requester.c:1035-1088 and 1104-1117. -/
def asymPost : M Unit := do
  let t ← txn
  if t.cert then do
    let l ← orFail (sigLength (u32 t.buf 12)) .unsupported
    setTxn fun t => { t with sigLen := l }
    check (decide (baseHash (u32 t.buf 16) = some t.thash)) .unsupported
  else
    check (decide (u32 t.buf 12 = 0 ∧ u32 t.buf 16 = 0)) .unsupported

/-- `attestation_requester_negotiate_algorithms_rsp_post_processing`, attestation_requester.c:1020-1154, for a build with all hashes and key lengths. -/
def algorithmsPost : M Unit := do
  let t ← txn
  check (decide (u8 t.buf 6 = 1)) .proto
  asymPost
  let h ← orFail (measHash (u32 t.buf 8)) .unsupported
  setTxn fun t => { t with mhash := h }

/-- `attestation_requester_setup_spdm_device`, attestation_requester.c:2275-2384. -/
def setup (env : Env) (eid : Nat) : M Unit := do
  sendCommand env eid 0x84 (env.fixed 0x84 0 0) .invalidVersion (versionPost env) Txn.len
  let t ← txn
  sendCommand env eid 0xe1 (env.fixed 0xe1 t.minor 0) .invalidCaps capabilitiesPost Txn.len
  let t ← txn
  check (t.thash == 1 || t.thash == 2 || t.thash == 3) .unsupported
  sendCommand env eid 0xe3 (env.fixed 0xe3 t.minor t.thash) .invalidAlgorithm algorithmsPost Txn.len

/-- `device_manager_compare_cert_chain_digest`, device_manager.c:1147-1176. -/
def chainIs (s : St) (eid : Nat) (d : Bytes) : Bool := s.chain == some (eid, d)

/-- The same as a step. -/
def checkChain (eid : Nat) (d : Bytes) : M Unit := fun s => if chainIs s eid d then (.ok (), s) else (.error .untrusted, s)

/-- `device_manager_get_alias_key`, device_manager.c:1223-1242. -/
def aliasOf (s : St) (eid : Nat) : Option Key := match s.alias with
  | some (e, k) => if e = eid then some k else none
  | none => none

/-- The same as a step. -/
def getAlias (eid : Nat) : M (Option Key) := fun s => (.ok (aliasOf s eid), s)

/-- `device_manager_clear_alias_key`, device_manager.c:1252-1270. -/
def clearAlias (eid : Nat) (s : St) : St := match s.alias with
  | some (e, _) => if e = eid then { s with alias := none } else s
  | none => s

/-- `device_manager_clear_cert_chain_digest`, device_manager.c:1117-1135. -/
def clearChain (eid : Nat) (s : St) : St := match s.chain with
  | some (e, _) => if e = eid then { s with chain := none } else s
  | none => s

/-- `attestation_requester_update_cert_chain_digest`, attestation_requester.c:415-442, with device_manager.c:1082-1107. -/
def updateChain (eid : Nat) (d : Bytes) : M Unit := modify fun s =>
  match aliasOf s eid with
  | none => { s with chain := some (eid, d) }
  | some _ => if chainIs s eid d then s else { clearAlias eid s with chain := some (eid, d) }

/-- Is a bit of a slot mask set? -/
def slotSet (m i : Nat) : Bool := decide (m / 2 ^ i % 2 = 1)

/-- `common_math_get_num_bits_set_before_index`. -/
def bitsBefore (m i : Nat) : Nat := ((List.range i).filter (slotSet m)).length

/-- `attestation_requester_get_digests_rsp_post_processing`, attestation_requester.c:1164-1202. -/
def digestsPost (eid : Nat) : M Unit := do
  let t ← txn
  let m := u8 t.buf 3
  let hl := hashLen t.thash
  check (decide (t.len = bitsBefore m 8 * hl + 4)) .proto
  check (slotSet m t.slot) .proto
  updateChain eid (window t.buf (4 + bitsBefore m t.slot * hl) hl)

/-- `attestation_requester_get_certificate_rsp_post_processing`, attestation_requester.c:1212-1227. -/
def certificatePost : M Unit := do
  let t ← txn
  check (decide (u8 t.buf 2 = t.slot)) .proto

/-- The length of a challenge response without signature, spdm_commands.h:643-656. -/
def challengeLen (t : Txn) : Nat := 4 + hashLen t.thash + 32 + 2 + hashLen t.thash + u16 t.buf (4 + hashLen t.thash + 32 + hashLen t.thash)

/-- `attestation_requester_spdm_challenge_rsp_post_processing`, attestation_requester.c:1237-1288. -/
def challengePost (eid : Nat) : M Unit := do
  let t ← txn
  check (decide (u8 t.buf 2 % 16 = t.slot)) .proto
  check (decide (u8 t.buf 2 / 128 = 0)) .proto
  check (slotSet (u8 t.buf 3) t.slot) .proto
  check (decide (challengeLen t < t.len)) .proto
  checkChain eid (window t.buf 4 (hashLen t.thash))

/-- The length of the record in a response with measurements. -/
def recordLen (b : Bytes) : Nat := leNat (window b 5 3)

/-- The length of a response with measurements without signature, spdm_commands.h:848-859. -/
def measLen (t : Txn) : Nat := 42 + recordLen t.buf + u16 t.buf (8 + recordLen t.buf + 32)

/-- `attestation_requester_spdm_get_measurements_rsp_post_processing`, attestation_requester.c:1298-1330, with the access to the opaque length at 1735. -/
def measurementsPost (env : Env) : M Unit := do
  let t ← txn
  check (decide (t.op = 255 ∨ u8 t.buf 4 = 1)) .proto
  check (decide (u8 t.buf 3 % 16 = t.slot)) .proto
  setTxn fun t => if t.op = 0 then { t with buf := t.buf.set 0 (t.buf.getD 2 0), len := 1 } else t
  check (decide (42 + recordLen t.buf ≤ env.n)) .ub

/-- The characters of a string. -/
def ascii (s : String) : Bytes := s.toList.map fun c => UInt8.ofNat c.toNat

/-- The 100 bytes in front of a signed digest, spdm_commands.c:4472-4498, with the contexts at attestation_requester.c:34-35. -/
def sigPrefix (minor : Nat) (challenge : Bool) : Bytes :=
  let p := ascii "dmtf-spdm-v1." ++ [UInt8.ofNat (minor + 48)] ++ ascii ".*"
  let c := ascii (if challenge then "responder-challenge_auth signing" else "responder-measurements signing")
  p ++ p ++ p ++ p ++ List.replicate (36 - c.length) 0 ++ c

/-- The digest that is signed, attestation_requester.c:793-814 and spdm_commands.c:4469-4524. -/
def signedDigest (env : Env) (minor : Nat) (challenge : Bool) (t : Nat) (x : Bytes) : Bytes :=
  if 2 ≤ minor then env.hash t (sigPrefix minor challenge ++ env.hash t x) else env.hash t x

/-- `spdm_format_signature_digest`, spdm_commands.c:4469-4524: the calls it makes. -/
def formatDigest (env : Env) (t : Nat) : M Unit :=
  onError (do secStart env t; secUpdate env []; secUpdate env []; let _ ← secFinish env; pure ()) secCancel

/-- `attestation_requester_verify_ecdsa_signature`, attestation_requester.c:727-762: is the signature right? -/
def verifyEcdsa (env : Env) (off : Nat) (d : Bytes) (k : Key) : M Bool := do
  let t ← txn
  check (decide (off + 2 * t.sigLen ≤ env.n)) .ub
  engine env
  engine env
  engine env
  pure (env.sigOk k d (window t.buf off t.sigLen) (window t.buf (off + t.sigLen) t.sigLen))

/-- The bytes of both halves of a signature swapped, attestation_requester.c:833-834. -/
def swapHalves (b : Bytes) (off h : Nat) : Bytes :=
  b.take off ++ (window b off h).reverse ++ (window b (off + h) h).reverse ++ b.drop (off + 2 * h)

/-- The checks of a signature with a key, attestation_requester.c:822-839. `len` is the length of the message, at whose end the signature is. -/
def checkSig (env : Env) (off len : Nat) (d : Bytes) (k : Key) : M Unit := do
  let ok ← verifyEcdsa env off d k
  if ok then pure ()
  else do
    let t ← txn
    check (decide (t.minor < 2)) .badSig
    check (decide (off ≤ len)) .ub
    setTxn fun t => { t with buf := swapHalves t.buf off ((len - off) / 2) }
    let ok ← verifyEcdsa env off d k
    check ok .badSig

/-- `attestation_requester_verify_signature`, attestation_requester.c:777-862: key and transcript of the signature, if one was checked. -/
def verifySig (env : Env) (eid : Nat) (challenge : Bool) (off len : Nat) : M (Option (Key × Bytes)) := do
  let h ← secFinish env
  setTxn fun t => { t with finished := true }
  let t ← txn
  if t.cert then do
    doIf (decide (2 ≤ t.minor)) (formatDigest env h.1)
    let a ← getAlias eid
    let k ← orFail a .noKey
    check k.ecc .unsupported
    checkSig env off len (signedDigest env t.minor challenge h.1 h.2) k
    pure (some (k, h.2))
  else pure none

/-- The loop over the blocks, attestation_requester.c:2424-2474: the values. They are moved to the begin of the buffer; the target never reaches the blocks still to
be read, so that they are read from the buffer as it was. -/
def blocks (n op : Nat) (raw : Bool) (b : Bytes) : Nat → Nat → Bytes → Except Err Bytes
  | 0, _, acc => .ok acc
  | k + 1, off, acc =>
    if n < off + 7 then .error .ub
    else if op ≠ 255 ∧ u8 b off ≠ op then .error .proto
    else if decide (u8 b (off + 4) / 128 = 1) ≠ raw then .error .proto
    else
      let size := u16 b (off + 5)
      if n < size + acc.length then .error .tooLarge
      else if n < off + 7 + size then .error .ub
      else blocks n op raw b k (off + 7 + size) (acc ++ window b (off + 7) size)

/-- `attestation_requester_spdm_process_get_measurements_response`, attestation_requester.c:2395-2477. -/
def processMeasurements (env : Env) (eid : Nat) : M Unit := do
  let t ← txn
  if t.op = 0 then modify fun s => { s with trace := .meas t.op t.raw none t.buf (window t.buf 0 1) :: s.trace }
  else do
    let sig ← verifySig env eid false (measLen t) t.len
    let u ← txn
    let v ← ofResult (blocks env.n t.op t.raw u.buf (u8 t.buf 4) 8 [])
    setTxn fun x => { x with buf := v ++ x.buf.drop v.length, len := v.length }
    modify fun s => { s with trace := .meas t.op t.raw sig u.buf v :: s.trace }

/-- `spdm_generate_get_measurements_request`, spdm_commands.c:3441-3487; a nonce if a signature is asked for. -/
def measRequest (minor slot op : Nat) (raw : Bool) (nonce : Option Bytes) : Bytes :=
  [UInt8.ofNat (16 + minor), 0xe0, UInt8.ofNat ((if nonce.isSome then 1 else 0) + (if raw ∧ 2 ≤ minor then 2 else 0)), UInt8.ofNat op] ++
    match nonce with
    | none => []
    | some x => x ++ if 0 < minor then [UInt8.ofNat slot] else []

/-- `generate_random_buffer`. -/
def random (env : Env) : M Bytes := fun s =>
  if env.fault s.k then (.error .engine, { s with k := s.k + 1 })
  else (.ok (env.nonce s.k), { s with k := s.k + 1, trace := .nonce (env.nonce s.k) :: s.trace })

/-- The nonce of a request with signature, attestation_requester.c:2528-2534. -/
def newNonce (env : Env) (cert : Bool) : M (Option Bytes) :=
  if cert then do let x ← random env; pure (some x) else pure none

/-- `attestation_requester_send_and_receive_spdm_get_measurements`, attestation_requester.c:2490-2631. -/
def fetch (env : Env) (eid op : Nat) (raw : Bool) : M Unit := do
  modify fun s => if s.txn.finished then s else secCancel s
  setTxn fun t => { t with finished := true }
  let t ← txn
  secStart env t.thash
  setTxn fun t => { t with finished := false }
  doIf (decide (1 < t.minor)) (setup env eid)
  let t ← txn
  let nonce ← newNonce env t.cert
  check (decide (¬ (t.minor = 0 ∧ t.slot ≠ 0))) .proto
  setTxn fun t => { t with raw := raw, op := op }
  sendCommand env eid 0xe0 (measRequest t.minor t.slot op raw nonce) .invalidMeasurement (measurementsPost env) measLen
  onError (processMeasurements env eid) (setDev eid .invalidMeasurement)

/-- The comparison of digests and its effect on the version set, see `Verif.Requester.verifyDigests`. -/
def judgeDigests (l : List DigestEntry) (d : Bytes) (type : Nat) : M Unit := do
  let t ← txn
  let r := verifyDigests l d type t.vs
  setTxn fun t => { t with vs := r.2 }
  ofResult r.1

/-- The comparison of data and its effect on the version set, see `Verif.Requester.verifyDataBlock`. -/
def judgeData (l : List DataCheck) (d : Bytes) : M Unit := do
  let t ← txn
  let r := verifyDataBlock l d t.vs
  setTxn fun t => { t with vs := r.2 }
  ofResult r.1

/-- The loop at attestation_requester.c:2879-2902 over the measurements of a mask. -/
def fetchAll (env : Env) (eid : Nat) : List Nat → M Unit
  | [] => pure ()
  | i :: rest => do
    fetch env eid i false
    let t ← txn
    primUpdate env (window t.buf 0 t.len)
    fetchAll env eid rest

/-- `attestation_requester_get_and_verify_spdm_measurement_block`, `..._measurement_data_block` and `..._aggregated_measurement`, attestation_requester.c:2707-2816,
3199-3269 and 2829-2987. A digest is compared with the first bytes of the buffer, whatever the length of the measurement. -/
def checkItem (env : Env) (eid : Nat) (i : Item) : M Unit := do
  let t ← txn
  match i with
  | .digest id l =>
    if digestsApply l t.vs then do
      fetch env eid id false
      let u ← txn
      judgeDigests l (window u.buf 0 (hashLen u.mhash)) u.mhash
    else pure ()
  | .data id l =>
    if dataApply l t.vs then do
      fetch env eid id true
      let u ← txn
      judgeData l (window u.buf 0 u.len)
    else pure ()
  | .aggregated type ids l =>
    if l = [] then fail .invalid
    else if digestsApply l t.vs then do
      primStart env type
      onError (do fetchAll env eid ids; check (decide (ids ≠ [])) .invalid) primCancel
      let d ← onError (primFinish env) primCancel
      judgeDigests l d type
    else pure ()

/-- The loop of `attestation_requester_get_and_verify_cfm_contents`, attestation_requester.c:3292-3313. -/
def checkItems (env : Env) (eid : Nat) : List Item → M Unit
  | [] => pure ()
  | i :: rest => do
    checkItem env eid i
    checkItems env eid rest

/-- `attestation_requester_get_and_verify_cfm_contents`, attestation_requester.c:3284-3329. Without any measurement in the CFM the first call fails with
`MANIFEST_CHILD_NOT_FOUND`, cfm_flash.c:1241-1243. -/
def checkContents (env : Env) (eid : Nat) (l : List Item) : M Unit := fun s =>
  if l.isEmpty then (.error .notFound, setDev eid .mismatch s)
  else match checkItems env eid l s with
  | (.error e, s) => (.error e, if e = .timeout ∨ e = .unexpected then s else setDev eid .mismatch s)
  | r => r

/-- `attestation_requester_get_and_verify_all_spdm_measurement_blocks`, attestation_requester.c:2646-2694, for a component with a digest of PMR 0. -/
def checkAllBlocks (env : Env) (eid : Nat) (p : Digests) : M Unit := do
  fetch env eid 255 false
  let t ← txn
  check (env.builtIn t.mhash) .unsupported
  engine env
  onError (ofResult (verifyDigest p (env.hash t.mhash (window t.buf 0 t.len)) t.mhash)) (setDev eid .mismatch)

/-- The loop of `attestation_requester_retrieve_spdm_certificate_chain_portion`, attestation_requester.c:3904-3960, until `length` bytes are there. The first argument
bounds the number of rounds, each of which gives at least one byte. `acc` is the memory buffer, if it was allocated. -/
def portionLoop (env : Env) (eid : Nat) : Nat → Nat → Nat → Nat → Option Bytes → M Bytes
  | 0, _, _, _, _ => fail .ub
  | fuel + 1, offset, length, readLen, acc => do
    let t ← txn
    sendCommand env eid 0x82 ([UInt8.ofNat (16 + t.minor), 0x82, UInt8.ofNat t.slot, 0] ++ toLE 2 (offset % 65536) ++ toLE 2 (readLen % 65536)) .invalidCerts
      certificatePost Txn.len
    let t ← txn
    let p := u16 t.buf 4
    onError (check (decide (p ≠ 0 ∧ p ≤ length)) .untrusted) (setDev eid .invalidCerts)
    check (decide (8 + p ≤ env.n)) .ub
    let d := window t.buf 8 p
    match acc with
    | none =>
      if p = length then pure d
      else do
        engine env
        portionLoop env eid fuel (offset + p) (length - p) (min readLen (length - p)) (some d)
    | some x =>
      if p = length then do
        setTxn fun t => { t with buf := x ++ d ++ t.buf.drop (x.length + p) }
        pure (x ++ d)
      else portionLoop env eid fuel (offset + p) (length - p) (min readLen (length - p)) (some (x ++ d))

/-- `attestation_requester_retrieve_spdm_certificate_chain_portion`, attestation_requester.c:3876-3975. For no bytes at all the status has no value. -/
def portion (env : Env) (eid offset length : Nat) : M Bytes := do
  onError (check (decide (length ≤ env.n)) .tooLarge) (setDev eid .invalidCerts)
  check (decide (length ≠ 0)) .ub
  portionLoop env eid length offset length (min length (env.maxLen - 8) % 65536) none

/-- `attestation_requester_retrieve_individual_spdm_certificate`, attestation_requester.c:3989-4049. -/
def individual (env : Env) (eid offset : Nat) : M Bytes := do
  let h ← portion env eid offset 7
  let l ← orFail (env.derLen h) .proto
  onError (check (decide (l + 8 ≤ env.n)) .tooLarge) (setDev eid .invalidCerts)
  if l < 7 then pure h
  else do
    let rest ← portion env eid (offset + 7) (l - 7)
    pure (h ++ rest)

/-- The rule of the CFM on the root certificate, attestation_requester.c:479-505. -/
def checkRoot (env : Env) (eid : Nat) (r : Option Digests) (root : Bytes) : M Unit := match r with
  | none => pure ()
  | some r => do
    check (env.builtIn r.type) .unsupported
    engine env
    onError (ofResult (verifyDigest r (env.hash r.type root) r.type)) (setDev eid .untrusted)

/-- The certificate that goes into the store, attestation_requester.c:512-519. -/
def anchorOf (env : Env) (r : Option Digests) (root : Bytes) : Bytes := match r, env.localRoot with
  | none, some l => l
  | _, _ => root

/-- `attestation_requester_verify_and_load_root_cert`, attestation_requester.c:462-555: the certificate in the store. -/
def verifyRoot (env : Env) (eid : Nat) (c : Component) (header root : Bytes) : M Bytes := do
  checkRoot env eid c.root root
  engine env
  engine env
  check (env.rootOk (anchorOf env c.root root)) .engine
  let t ← txn
  primStart env t.thash
  onError (do primUpdate env header; primUpdate env root) primCancel
  pure (anchorOf env c.root root)

/-- `attestation_requester_verify_and_load_certificate`, attestation_requester.c:586-647. -/
def verifyCert (env : Env) (eid : Nat) (anchor cert : Bytes) (leaf : Bool) : M Unit :=
  onError (do
    primUpdate env cert
    engine env
    check (env.certOk cert) .engine
    onError (do engine env; check (env.auth anchor cert) .untrusted) (setDev eid .untrusted)
    doIf (!leaf) (do
      engine env
      engine env
      check (env.caOk cert) .engine)) primCancel

/-- The loop at attestation_requester.c:4105-4123: the last certificate. The first argument bounds the number of rounds, each of which takes at least seven bytes. -/
def loadChain (env : Env) (eid total : Nat) : Nat → Nat → Bytes → Option Bytes → M (Option Bytes)
  | 0, _, _, last => pure last
  | fuel + 1, offset, anchor, last =>
    if offset < total then do
      let cert ← onError (individual env eid offset) primCancel
      verifyCert env eid anchor cert (decide (total ≤ offset + cert.length))
      loadChain env eid total fuel (offset + cert.length) cert (some cert)
    else pure last

/-- `attestation_requester_update_alias_key`, attestation_requester.c:664-713. -/
def updateAlias (env : Env) (eid : Nat) (leaf : Bytes) : M Unit := do
  let d ← onError (primFinish env) primCancel
  onError (checkChain eid d) (setDev eid .untrusted)
  engine env
  engine env
  let k ← orFail (env.keyOf leaf) .engine
  modify fun s => { s with alias := some (eid, k) }

/-- `attestation_requester_verify_and_load_leaf_key_spdm`, attestation_requester.c:4062-4126. With the root only, `cert` has no value. -/
def loadLeaf (env : Env) (eid : Nat) (c : Component) : M Unit := do
  let t ← txn
  let hl := 4 + hashLen t.thash
  let header ← portion env eid 0 hl
  let root ← individual env eid hl
  let anchor ← verifyRoot env eid c header root
  let total := u16 header 0
  let last ← loadChain env eid total total (hl + root.length) anchor none
  let leaf ← orFail last .ub
  updateAlias env eid leaf

/-- `spdm_generate_challenge_request`, spdm_commands.c:3080-3103. -/
def challengeRequest (minor slot : Nat) (nonce : Bytes) : Bytes := [UInt8.ofNat (16 + minor), 0x83, UInt8.ofNat slot, 0xff] ++ nonce

/-- `attestation_requester_spdm_process_challenge_response`, attestation_requester.c:3836-3862. -/
def processChallenge (env : Env) (eid : Nat) : M Unit := do
  let t ← txn
  let sig ← verifySig env eid true (challengeLen t) t.len
  let u ← txn
  let hl := hashLen t.thash
  let v := window u.buf (4 + hl + 32) hl
  setTxn fun x => { x with buf := v ++ x.buf.drop hl, len := hl }
  modify fun s => { s with trace := .summary sig u.buf v :: s.trace }

/-- The challenge, attestation_requester.c:4203-4232. -/
def challenge (env : Env) (eid : Nat) : M Unit := do
  let x ← random env
  let t ← txn
  sendCommand env eid 0x83 (challengeRequest t.minor t.slot x) .invalidChallenge (challengePost eid) challengeLen
  processChallenge env eid

/-- `attestation_requester_verify_pmr`, attestation_requester.c:381-401. -/
def verifyPmr (eid : Nat) (p : Digests) : M Unit := do
  let t ← txn
  onError (ofResult (verifyDigest p (window t.buf 0 (hashLen t.thash)) t.thash)) (setDev eid .mismatch)

/-- The certificate part of `attestation_requester_attest_device_spdm`, attestation_requester.c:4168-4198 and 4264-4266. -/
def certificates (env : Env) (eid : Nat) (c : Component) : M Unit := do
  let t ← txn
  sendCommand env eid 0x81 (env.fixed 0x81 t.minor 0) .invalidDigests (digestsPost eid) Txn.len
  let a ← getAlias eid
  doIf a.isNone (onError (loadLeaf env eid c) (fun s => clearChain eid (clearAlias eid s)))

/-- What is compared after a challenge, attestation_requester.c:4234-4255. -/
def afterChallenge (env : Env) (eid : Nat) (c : Component) : M Unit := match c.pmr0 with
  | some p => verifyPmr eid p
  | none => checkContents env eid c.items

/-- What is asked for and compared without challenge, attestation_requester.c:4240-4255. -/
def withoutChallenge (env : Env) (eid : Nat) (c : Component) : M Unit := match c.pmr0 with
  | some p => checkAllBlocks env eid p
  | none => checkContents env eid c.items

/-- The measurement part of `attestation_requester_attest_device_spdm`, attestation_requester.c:4202-4255. -/
def measurements (env : Env) (eid : Nat) (c : Component) : M Unit := do
  let t ← txn
  if t.chal then do
    challenge env eid
    afterChallenge env eid c
  else withoutChallenge env eid c

/-- `attestation_requester_attest_device_spdm`, attestation_requester.c:4139-4273. -/
def attestSpdm (env : Env) (eid : Nat) (c : Component) : M Unit := do
  check (env.builtIn c.thash) .unsupported
  secStart env c.thash
  always (do
    setup env eid
    let t ← txn
    doIf t.cert (certificates env eid c)
    measurements env eid c) (fun s => if s.txn.finished then s else secCancel s)

/-- The state of the device at the begin, attestation_requester.c:4323-4330. `d` is its state before the first component. -/
def makeReady (eid : Nat) (d : DevState) : M Unit := fun s =>
  if d = .authenticated ∨ d = .withoutCerts then (.ok (), s)
  else if s.dev eid = .notAttestable then (.error .frozen, s)
  else (.ok (), setDev eid .ready s)

/-- `attestation_requester_attest_device_by_component_id`, attestation_requester.c:4315-4377. -/
def byComponent (env : Env) (eid : Nat) (d : DevState) (c : Option Component) : M Unit := do
  makeReady eid d
  match c with
  | none => onError (fail .noCfm) (setDev eid .invalidCfm)
  | some c => do
    modify fun s => { s with txn := { slot := c.slot, thash := c.thash, mhash := c.mhash }, trace := [] }
    check c.spdm .unsupported
    attestSpdm env eid c

/-- The loop at attestation_requester.c:4468-4484: the component that was accepted. -/
def components (env : Env) (eid : Nat) (d : DevState) : List (Option Component) → Err → M (Option Component)
  | [], e => fail e
  | c :: rest, _ => fun s =>
    match byComponent env eid d c s with
    | (.ok (), s) => (.ok c, s)
    | (.error .ub, s) => (.error .ub, s)
    | (.error e, s) => components env eid d rest e s

/-- The end of `attestation_requester_attest_device`, attestation_requester.c:4490-4521, with device_manager.c:1531-1551 for the counter of successes. -/
def conclude (eid : Nat) (ok : Bool) (s : St) : St :=
  let s :=
    if ok then setDev eid (if s.txn.cert then .authenticated else .withoutCerts) s
    else if s.dev eid = .neverAttested ∨ s.dev eid = .ready then setDev eid .failed s
    else s
  if s.dev eid = .authenticated ∨ s.dev eid = .withoutCerts then { s with succ := fun e => if e = eid then s.succ e + 1 else s.succ e } else s

/-- `attestation_requester_attest_device`, attestation_requester.c:4387-4524, for a known device with the given components in the active CFM (`none`: not in it) an
active CFM and no pending update of the routing table. The order of the component types is not changed by the model (4480). -/
def attestDevice (env : Env) (eid : Nat) (l : List (Option Component)) : M (Option Component) := fun s =>
  if l = [] then (.error .noType, s)
  else match components env eid (s.dev eid) l .noType s with
    | (.ok c, s) => (.ok c, conclude eid true s)
    | (.error .ub, s) => (.error .ub, s)
    | (.error e, s) => (.error e, conclude eid false s)

end Verif.Requester
