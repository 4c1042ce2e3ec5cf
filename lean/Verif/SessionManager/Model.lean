import Verif.CommonMath.Model
/-! Encrypted sessions: `core/cmd_interface/session_manager.c` and `session_manager_ecc.c`.

Not modelled: null arguments, the engines behind the cryptographic functions (they are the fields of `Crypto`, and each call of one of them may
fail), the bytes of the response to a key exchange, `session_manager_release` and `session_manager_generate_keys_digest`. The choice of the hash
function is left out: only SHA-256 is accepted (session_manager_ecc.c:64-70). Nothing in these files takes a lock; the operations are one step each
because one task processes the messages. -/
namespace Verif.SessionManager

/-- `SESSION_STATE_...`, session_manager.h:28-33. -/
inductive SState | unused | setup | established | paired
  deriving DecidableEq, Repr

/-- `session_state >= SESSION_STATE_ESTABLISHED`. -/
def SState.live : SState → Bool
  | .unused => false
  | .setup => false
  | .established => true
  | .paired => true

/-- `struct session_manager_entry`, session_manager.h:48-57, without `hmac_hash_type`. -/
structure Entry where
  key : Bytes
  hmacKey : Bytes
  devNonce : Bytes
  cerNonce : Bytes
  iv : Bytes
  eid : UInt8
  state : SState
  deriving DecidableEq, Repr

/-- An entry with all bytes zero (session_manager.c:407, 636, 645). -/
def Entry.zero : Entry := ⟨List.replicate 32 0, List.replicate 32 0, List.replicate 32 0, List.replicate 32 0, List.replicate 12 0, 0, .unused⟩

/-- The cryptographic functions: `kdf key label context` (32 bytes of output), `hmac key data`, authenticated encryption `enc key iv plain`, which
gives the encrypted data and the tag, and decryption `dec key iv data tag`. -/
structure Crypto where
  kdf : Bytes → Bytes → Bytes → Bytes
  hmac : Bytes → Bytes → Bytes
  enc : Bytes → Bytes → Bytes → Bytes × Bytes
  dec : Bytes → Bytes → Bytes → Bytes → Option Bytes

/-- What `session_manager_init` is given: the list of endpoints that can be paired and whether there is a key store. -/
structure Cfg where
  crypto : Crypto
  pairingEids : List UInt8
  hasStore : Bool

/-- The table of sessions and the keys in the key store, by index. -/
structure St where
  table : List Entry
  keys : Nat → Option Bytes

/-- The status codes a caller can tell apart; `overflow` is not a status but a write outside a buffer on the stack. -/
inductive Err
  | unexpectedEid | notEstablished | malformed | bufTooSmall | full | invalidOrder | invalidRequest | unsupported | notPermitted | pairingUnsupported
  | ivExhausted | engine | store | overflow
  deriving DecidableEq, Repr

/-- `SESSION_PAIRING_STATE_...`, session_manager.h:35-40. -/
inductive PState | notSupported | notInitialized | notPaired | paired
  deriving DecidableEq, Repr

/-- The result of an operation. -/
inductive Ans
  | ok
  | msg (data : Bytes)
  | flag (b : Bool)
  | pairing (p : PState)
  | tag (h : Bytes)
  | err (e : Err)
  deriving DecidableEq, Repr

/-- What an operation asked of the engines that matters for the keys: a new session key was derived and stored in an entry, or the encryption engine
was run with a key and an initialization vector. -/
inductive Call
  | derived (key : Bytes)
  | encrypted (key iv : Bytes)
  deriving DecidableEq, Repr

/-- The effect of one operation. -/
structure Res where
  st : St
  ans : Ans
  calls : List Call

/-- An operation that fails and changes nothing. -/
def fail (s : St) (e : Err) : Res := ⟨s, .err e, []⟩

/-- The loop of `session_manager_get_session` and `session_manager_get_free_session`: the first entry that fits, with its index. -/
def scan (p : Entry → Bool) : List Entry → Nat → Option (Nat × Entry)
  | [], _ => none
  | x :: xs, i => if p x then some (i, x) else scan p xs (i + 1)

/-- `session_manager_get_session`, session_manager.c:25-38. -/
def getSession (s : St) (eid : UInt8) : Option (Nat × Entry) :=
  scan (fun x => decide (x.eid = eid) && decide (x.state ≠ .unused)) s.table 0

/-- `session_manager_get_free_session`, session_manager.c:47-58. -/
def getFree (s : St) : Option (Nat × Entry) := scan (fun x => decide (x.state = .unused)) s.table 0

/-- `session_manager_get_paired_key_index`, session_manager.c:69-80. -/
def pairedIndex : List UInt8 → UInt8 → Nat → Option Nat
  | [], _, _ => none
  | x :: xs, eid, i => if x = eid then some i else pairedIndex xs eid (i + 1)

/-- Storing an entry back in the table. -/
def St.put (s : St) (i : Nat) (x : Entry) : St := { s with table := s.table.set i x }

/-- `session_manager_is_session_established`, session_manager.c:123-137. -/
def isEstablished (s : St) (eid : UInt8) : Res :=
  match getSession s eid with
  | none => ⟨s, .flag false, []⟩
  | some (_, x) => ⟨s, .flag x.state.live, []⟩

/-- `session_manager_get_pairing_state`, session_manager.c:147-181; `loadFails`: the key store fails other than by having no key. -/
def pairingState (c : Cfg) (s : St) (eid : UInt8) (loadFails : Bool) : Res :=
  match pairedIndex c.pairingEids eid 0 with
  | none => ⟨s, .pairing .notSupported, []⟩
  | some k =>
    if c.hasStore = false then ⟨s, .pairing .notSupported, []⟩
    else if loadFails then fail s .store
    else if s.keys k = none then ⟨s, .pairing .notInitialized, []⟩
    else
      match getSession s eid with
      | none => ⟨s, .pairing .notPaired, []⟩
      | some (_, x) => ⟨s, .pairing (if x.state = .paired then .paired else .notPaired), []⟩

/-- `sizeof (struct cerberus_protocol_header)`, cerberus_protocol.h:142-151; the part in front of the command is one less. -/
def hdrLen : Nat := 5
/-- `SESSION_MANAGER_TRAILER_LEN`, session_manager.h:23-24: a tag of 16 bytes and an initialization vector of 12 bytes. -/
def trailerLen : Nat := 28

/-- `session_manager_set_key`, session_manager.c:91-113: the index and the entry of the session to use. -/
def setKey (s : St) (eid : UInt8) (keyOk : Bool) : Except Err (Nat × Entry) :=
  match getSession s eid with
  | none => .error .unexpectedEid
  | some (i, x) =>
    if x.state.live = false then .error .notEstablished
    else if keyOk then .ok (i, x) else .error .engine

/-- A message to decrypt or to encrypt: `data` are the `length` bytes of the message, `maxResp` is `max_response`. `keyOk` and `aesOk` say whether the
engine takes the key and whether it works. -/
structure Msg where
  eid : UInt8
  data : Bytes
  maxResp : Nat
  keyOk : Bool
  aesOk : Bool

/-- The message after decryption: the plain text in place of the encrypted data. -/
def decryptOut (c : Cfg) (m : Msg) (x : Entry) : Ans :=
  let n := m.data.length - (hdrLen - 1) - trailerLen
  match c.crypto.dec x.key (window m.data (hdrLen - 1 + n + 16) 12) (window m.data (hdrLen - 1) n) (window m.data (hdrLen - 1 + n) 16) with
  | none => .err .engine
  | some plain => .msg (m.data.take (hdrLen - 1) ++ plain)

/-- `session_manager_decrypt_message`, session_manager.c:191-229. -/
def decrypt (c : Cfg) (s : St) (m : Msg) : Res :=
  if m.data.length ≤ trailerLen + hdrLen then fail s .malformed
  else if m.maxResp < m.data.length - trailerLen ∨ m.maxResp ≤ hdrLen + trailerLen then fail s .bufTooSmall
  else
    match setKey s m.eid m.keyOk with
    | .error e => fail s e
    | .ok (_, x) => if m.aesOk then ⟨s, decryptOut c m x, []⟩ else fail s .engine

/-- `header->crypt = 1`, session_manager.c:289-290: bit 5 of the fourth byte. -/
def setCrypt (d : Bytes) : Bytes := d.set 3 (d.getD 3 0 ||| 0x20)

/-- The message after encryption: header, encrypted data, tag and initialization vector. -/
def encryptOut (c : Cfg) (m : Msg) (key iv : Bytes) : Bytes :=
  let r := c.crypto.enc key iv (m.data.drop (hdrLen - 1))
  setCrypt (m.data.take (hdrLen - 1) ++ r.1 ++ r.2 ++ iv)

/-- The rest of `session_manager_encrypt_message` from line 272, for the entry in use. -/
def encryptWith (c : Cfg) (s : St) (m : Msg) (i : Nat) (x : Entry) : Res :=
  match CommonMath.increment x.iv false with
  | (.ok, iv) =>
    ⟨s.put i { x with iv := iv }, if m.aesOk then .msg (encryptOut c m x.key iv) else .err .engine, [.encrypted x.key iv]⟩
  | (_, iv) => ⟨s.put i { x with iv := iv }, .err .ivExhausted, []⟩

/-- `session_manager_encrypt_message`, session_manager.c:239-293. -/
def encrypt (c : Cfg) (s : St) (m : Msg) : Res :=
  if m.data.length < hdrLen then ⟨s, .msg m.data, []⟩
  else if m.maxResp < m.data.length + trailerLen then fail s .bufTooSmall
  else
    match setKey s m.eid m.keyOk with
    | .error e => fail s e
    | .ok (i, x) => encryptWith c s m i x

/-- The first initialization vector of a session, session_manager.c:324, 327. -/
def firstIv : Bytes := 0x80 :: List.replicate 11 0

/-- The changes `session_manager_add_session` makes to the entry, session_manager.c:322-327. -/
def addTo (x : Entry) (eid : UInt8) (dn cn : Bytes) : Entry :=
  { x with devNonce := dn, cerNonce := cn, iv := firstIv, state := .setup, eid := eid }

/-- `session_manager_add_session`, session_manager.c:305-330. -/
def addSession (s : St) (eid : UInt8) (dn cn : Bytes) : Res :=
  match getSession s eid with
  | some (i, x) => ⟨s.put i (addTo x eid dn cn), .ok, []⟩
  | none =>
    match getFree s with
    | some (i, x) => ⟨s.put i (addTo x eid dn cn), .ok, []⟩
    | none => fail s .full

/-- `session_manager_generate_and_compare_hmac`, session_manager.c:346-371. -/
def compareHmac (c : Cfg) (key data hmac : Bytes) (hmacOk : Bool) : Except Err Unit :=
  if hmac.length ≠ 32 then .error .unsupported
  else if hmacOk = false then .error .engine
  else if c.crypto.hmac key data = hmac then .ok () else .error .notPermitted

/-- `session_manager_reset_session`, session_manager.c:383-412; no `hmac` is the null pointer. -/
def resetSession (c : Cfg) (s : St) (eid : UInt8) (hmac : Option Bytes) (hmacOk : Bool) : Res :=
  match getSession s eid with
  | none => fail s .unexpectedEid
  | some (i, x) =>
    match hmac with
    | none => ⟨s.put i .zero, .ok, []⟩
    | some h =>
      if x.state.live then
        match compareHmac c x.hmacKey x.key h hmacOk with
        | .error e => fail s e
        | .ok () => ⟨s.put i .zero, .ok, []⟩
      else ⟨s.put i .zero, .ok, []⟩

/-- A request to set up pairing: the endpoint, the HMAC of the pairing key, and which of the calls fail: loading the key (other than by there being no
key), deriving the pairing key, the HMAC, deriving the session key, saving the pairing key. -/
structure PairReq where
  eid : UInt8
  hmac : Bytes
  loadFails : Bool
  kdf1Ok : Bool
  hmacOk : Bool
  kdf2Ok : Bool
  saveOk : Bool

/-- The bytes of the string `"pairing"`. -/
def pairingLabel : Bytes := [0x70, 0x61, 0x69, 0x72, 0x69, 0x6e, 0x67]

/-- Lines 503-522 of `session_manager_setup_paired_session`: the pairing key and whether it is new. The key from the store is copied, with whatever
length it has, into a buffer of 32 bytes that holds zeros. -/
def pairingKey (c : Cfg) (s : St) (q : PairReq) (k : Nat) (x : Entry) : Except Err (Bytes × Bool) :=
  if q.loadFails then .error .store
  else
    match s.keys k with
    | none => if q.kdf1Ok then .ok (c.crypto.kdf x.key pairingLabel [], true) else .error .engine
    | some b => if 32 < b.length then .error .overflow else .ok (b ++ List.replicate (32 - b.length) 0, false)

/-- Saving a key in the store. -/
def saveKey (s : St) (k : Nat) (b : Bytes) : St := { s with keys := fun j => if j = k then some b else s.keys j }

/-- Lines 531-548 of `session_manager_setup_paired_session`: the new session key is in the entry before the pairing key is saved. -/
def pairFinish (c : Cfg) (s : St) (q : PairReq) (k i : Nat) (x : Entry) (pk : Bytes) (isNew : Bool) : Res :=
  if q.kdf2Ok = false then fail s .engine
  else
    let nk := c.crypto.kdf pk x.key []
    if isNew then
      if q.saveOk then ⟨(saveKey s k pk).put i { x with key := nk, state := .paired }, .ok, [.derived nk]⟩
      else ⟨s.put i { x with key := nk }, .err .store, [.derived nk]⟩
    else ⟨s.put i { x with key := nk, state := .paired }, .ok, [.derived nk]⟩

/-- `session_manager_setup_paired_session` for the entry in use, session_manager.c:494-554. -/
def pairWith (c : Cfg) (s : St) (q : PairReq) (i : Nat) (x : Entry) : Res :=
  if x.state.live = false then fail s .invalidOrder
  else
    match pairedIndex c.pairingEids q.eid 0 with
    | none => fail s .pairingUnsupported
    | some k =>
      match pairingKey c s q k x with
      | .error e => fail s e
      | .ok (pk, isNew) =>
        match compareHmac c x.hmacKey pk q.hmac q.hmacOk with
        | .error e => fail s e
        | .ok () => pairFinish c s q k i x pk isNew

/-- `session_manager_setup_paired_session`, session_manager.c:469-555. -/
def pairSession (c : Cfg) (s : St) (q : PairReq) : Res :=
  if c.hasStore = false then fail s .unsupported
  else
    match getSession s q.eid with
    | none => fail s .unexpectedEid
    | some (i, x) => pairWith c s q i x

/-- `session_manager_session_sync`, session_manager.c:568-595: `rn` are the four bytes of the number. -/
def sessionSync (c : Cfg) (s : St) (eid : UInt8) (rn : Bytes) (hmacOk : Bool) : Res :=
  match getSession s eid with
  | none => fail s .unexpectedEid
  | some (_, x) =>
    if x.state.live = false then fail s .notEstablished
    else if hmacOk then ⟨s, .tag (c.crypto.hmac x.hmacKey rn), []⟩ else fail s .engine

/-- A request to establish a session: the length of the message, the size of the response buffer, the type of HMAC asked for, the shared secret of the
key exchange, and which of the calls fail; `exchangeOk` stands for all the steps of lines 72-148 (reading the key of the device, making the own keys,
room in the response, signing, the shared secret). -/
structure EstReq where
  eid : UInt8
  length : Nat
  maxResp : Nat
  hmacType : UInt8
  exchangeOk : Bool
  secret : Bytes
  kdf1Ok : Bool
  kdf2Ok : Bool
  hmacOk : Bool

/-- Lines 150-177 of `session_manager_ecc_establish_session`. The keys of one block are only written when the derivation succeeds (kdf.c:106). -/
def establishKeys (c : Cfg) (s : St) (q : EstReq) (i : Nat) (x : Entry) : Res :=
  if q.kdf1Ok = false then fail s .engine
  else
    let k := c.crypto.kdf q.secret x.devNonce x.cerNonce
    if q.kdf2Ok = false then ⟨s.put i { x with key := k }, .err .engine, [.derived k]⟩
    else
      let h := c.crypto.kdf q.secret x.cerNonce x.devNonce
      if q.hmacOk = false then ⟨s.put i { x with key := k, hmacKey := h }, .err .engine, [.derived k]⟩
      else ⟨s.put i { x with key := k, hmacKey := h, state := .established }, .ok, [.derived k]⟩

/-- `session_manager_ecc_establish_session`, session_manager_ecc.c:18-199. The messages have 7 and 6 bytes without keys
(cerberus_protocol_optional_commands.h:396-399, 421-424, 438-441). -/
def establish (c : Cfg) (s : St) (q : EstReq) : Res :=
  if q.length ≤ 7 then fail s .invalidRequest
  else if q.maxResp ≤ 6 then fail s .bufTooSmall
  else
    match getSession s q.eid with
    | none => fail s .unexpectedEid
    | some (i, x) =>
      if x.state ≠ .setup then fail s .invalidOrder
      else if q.hmacType ≠ 0 then fail s .unsupported
      else if q.exchangeOk = false then fail s .engine
      else establishKeys c s q i x

/-- The operations of `struct session_manager`, session_manager.h. -/
inductive Op
  | add (eid : UInt8) (devNonce cerNonce : Bytes)
  | establish (q : EstReq)
  | isEstablished (eid : UInt8)
  | pairingState (eid : UInt8) (loadFails : Bool)
  | decrypt (m : Msg)
  | encrypt (m : Msg)
  | reset (eid : UInt8) (hmac : Option Bytes) (hmacOk : Bool)
  | pair (q : PairReq)
  | sync (eid : UInt8) (rn : Bytes) (hmacOk : Bool)

/-- One operation. -/
def step (c : Cfg) (s : St) : Op → Res
  | .add e d n => addSession s e d n
  | .establish q => establish c s q
  | .isEstablished e => isEstablished s e
  | .pairingState e f => pairingState c s e f
  | .decrypt m => decrypt c s m
  | .encrypt m => encrypt c s m
  | .reset e h f => resetSession c s e h f
  | .pair q => pairSession c s q
  | .sync e r f => sessionSync c s e r f

/-- `session_manager_init`, session_manager.c:615-650: `n` entries with all bytes zero; `keys` is what the key store holds. -/
def init (n : Nat) (keys : Nat → Option Bytes) : St := ⟨List.replicate n .zero, keys⟩

end Verif.SessionManager
