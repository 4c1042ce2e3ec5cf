import Verif.Protocol.System
/-! What is expected of the request handlers. -/
namespace Verif.Protocol.Spec
open Verif.Protocol

/-! ### Callees keep to their interfaces -/

/-- What a callee may store: no more than it was allowed to, and on success exactly what it
announces. -/
def Answer : Call → Reply → Prop
  | .digests _ max, r => r.data.length ≤ max ∧ (∀ v, r.rc = .ok v → r.data.length = 32 * r.val ∧ r.val < 256)
  | .challenge _ max, r => r.data.length ≤ max ∧ (∀ v, r.rc = .ok v → v = r.data.length ∧ 38 ≤ v)
  | .getCaps, r => r.data.length ≤ 10 ∧ (∀ v, r.rc = .ok v → r.data.length = 10)
  | .resetCounter _ _, r => r.data.length ≤ 2 ∧ (∀ v, r.rc = .ok v → r.data.length = 2)
  | .uuid max, r | .logRead _ _ max, r | .versions _ _ _ max, r | .components _ _ max, r
  | .measurement _ _ _ max, r | .sync _ _ max, r =>
    r.data.length ≤ max ∧ (∀ v, r.rc = .ok v → v = r.data.length)
  | .platformId _ max, r => r.data.length ≤ max ∧ (∀ v, r.rc = .ok v → (0 : UInt8) ∈ r.data)
  | .recVersion _ max, r | .establish _ max, r | .unsealResult max, r => r.data.length ≤ max
  | .counters _ max, r => r.data.length = max
  | .heap max, r => r.data.length ≤ max ∧ (∀ v, r.rc = .ok v → r.data.length = max)
  | .instances _ max, r => r.data.length ≤ max ∧ (∀ v, r.rc = .ok v → r.data.length = 2 * v ∧ v < 256)
  | .stack _ max, r => r.data.length ≤ max + 4 ∧ (∀ v, r.rc = .ok v → r.data.length = v + 4)
  | .decrypt _ max, r => r.data.length ≤ max ∧ (∀ v, r.rc = .ok v → r.data.length = max)
  | .encrypt p, r => r.data.length ≤ p.length + 28 ∧ (∀ v, r.rc = .ok v → r.data.length = p.length + 28)
  | _, _ => True

/-- All callees keep to their interfaces, `size_t` has at least 32 bits, and the firmware identifiers
of manifests are strings. -/
structure Faithful (env : Env) : Prop where
  answer : ∀ cs c, Answer c (env.reply cs c)
  size : 2 ^ 32 ≤ env.size
  cap : env.cap = 4096
  ids : ∀ p b id, id ∈ env.fwIds p b → (0 : UInt8) ∉ id

/-! ### Requests -/

/-- Byte of a message. -/
def byte (msg : Bytes) (i : Nat) : Nat := (msg.getD i 0).toNat
/-- Little endian values in a request. -/
def word (msg : Bytes) (i : Nat) : Nat := byte msg i + 256 * byte msg (i + 1)
def dword (msg : Bytes) (i : Nat) : Nat := word msg i + 65536 * word msg (i + 2)
/-- Part of a request. -/
def slice (msg : Bytes) (i n : Nat) : Bytes := (msg.drop i).take n

/-- Messages of this protocol: long enough for a command, with the message type of vendor defined
messages and the vendor of this protocol. -/
def Request (msg : Bytes) : Prop := 5 ≤ msg.length ∧ byte msg 0 = 0x7E ∧ word msg 1 = 0x1414

instance (msg : Bytes) : Decidable (Request msg) := by unfold Request; infer_instance

/-- Requests that read beyond their own end: an unseal request whose ciphertext ends one byte before
the message does, and a key exchange of type 1 with half a key length. -/
def Ragged (msg : Bytes) : Prop :=
  (byte msg 4 = 0x89 ∧ 9 + word msg 7 + 2 + word msg (9 + word msg 7) + 1 = msg.length) ∨
  (byte msg 4 = 0x84 ∧ msg.length = 7 ∧ byte msg 5 = 1)

/-- The request as it is handled: decrypted if its header says so. -/
def plain (env : Env) (msg : Bytes) : Bytes :=
  if byte msg 3 / 32 % 2 = 1 then msg.take 4 ++ (env.reply [] (.decrypt msg (msg.length - 32))).data else msg

/-- A request for supported firmware versions names its firmware by a terminated string. -/
def Terminated (msg : Bytes) : Prop :=
  byte msg 4 = 0x5A → 12 < msg.length → (0 : UInt8) ∈ msg.drop 12

/-! ### Effects -/

/-- Calls that change the state of the device. -/
def mutates : Call → Bool
  | .resetSession .. | .addSession .. | .storeCert .. | .checkCerts | .setCaps .. | .fwPrepare _ | .fwWrite _
  | .fwStart _ | .logClear | .prepare .. | .store .. | .finish .. | .unsealStart _ | .authorize .. | .execute
  | .recPrepare .. | .recUpdate .. | .recActivate _ | .establish .. | .pairedSession .. | .setFlashConfig ..
  | .force _ | .wake | .fillLog => true
  | _ => false

/-- An unseal request is complete: seed, ciphertext, HMAC of 32 bytes and five platform registers of
64 bytes follow each other up to the end. -/
def sealed (msg : Bytes) : Bool :=
  decide (10 ≤ msg.length) &&
  byte msg 5 / 4 % 8 == 0 && decide (byte msg 5 % 4 ≤ 1) &&
  !(byte msg 5 % 4 == 0 && decide (byte msg 6 % 8 > 2)) &&
  decide (word msg 7 ≠ 0) &&
  decide (word msg (9 + word msg 7) ≠ 0) &&
  word msg (11 + word msg 7 + word msg (9 + word msg 7)) == 32 &&
  decide (9 + word msg 7 + 2 + word msg (9 + word msg 7) + 2 + 32 + 320 = msg.length)

/-- One of two allowed values, or "unchanged". -/
def choice (max v : Nat) : Bool := decide (v ≤ max) || v == 255

/-- The changes a request asks for, in order; none if it does not have the form required.  `cs` are
the calls before (last one first); answers decide about later steps. -/
def effects (itemLen : ItemLen) (env : Env) (keyAlg : Nat) (cs : List Call) (msg : Bytes) : List Call :=
  let n := msg.length
  let p := byte msg 5
  match byte msg 4 with
  -- certificate digests: a new session may follow
  | 0x81 => if n = 7 ∧ p ≤ 7 ∧ byte msg 6 = 1 ∧ env.has .session ∧ byte msg 3 / 32 % 2 = 0 then
      [.resetSession env.eid none] else []
  -- challenge: start of a session if one was announced
  | 0x83 => if n = 39 ∧ env.has .session ∧ keyAlg = 1 then
      let r := env.reply cs (.challenge (slice msg 5 34) (env.maxResp - 5))
      if r.rc.isErr then [] else [.addSession env.eid (slice msg 7 32) (slice r.data 6 32)]
    else []
  -- device capabilities of the requester
  | 0x02 => if n = 13 then
      match (env.reply cs (.deviceNum env.eid)).rc with
      | .ok d => [.setCaps d (slice msg 5 8)]
      | _ => []
    else []
  -- certificate import
  | 0x21 => if 9 ≤ n ∧ word msg 6 ≠ 0 ∧ n = 8 + word msg 6 ∧ itemLen (msg.drop 8) = word msg 6 ∧ p ≤ 2 then
      .storeCert p (msg.drop 8) ::
        (if (env.reply cs (.storeCert p (msg.drop 8))).rc = .ok 0 then [.checkCerts] else [])
    else []
  | 0x51 => if n = 6 ∧ p = 1 then [.logClear] else []
  -- firmware update
  | 0x66 => if n = 9 then [.fwPrepare (dword msg 5)] else []
  | 0x67 => if 6 ≤ n then [.fwWrite (msg.drop 5)] else []
  | 0x69 => if n = 5 then [.fwStart true] else if n = 6 then [.fwStart (p != 0)] else []
  -- platform firmware manifests
  | 0x5B => if n = 10 ∧ p < 2 ∧ env.has (.pfmCmd p) then [.prepare (.pfm p) (dword msg 6)] else []
  | 0x5C => if 7 ≤ n ∧ p < 2 ∧ env.has (.pfmCmd p) then [.store (.pfm p) (msg.drop 6)] else []
  | 0x5D => if n = 7 ∧ p < 2 ∧ env.has (.pfmCmd p) then [.finish (.pfm p) (byte msg 6)] else []
  -- component firmware manifest
  | 0x5F => if n = 9 ∧ env.has .cfmCmd then [.prepare .cfm (dword msg 5)] else []
  | 0x60 => if 6 ≤ n ∧ env.has .cfmCmd then [.store .cfm (msg.drop 5)] else []
  | 0x61 => if n = 6 ∧ env.has .cfmCmd then [.finish .cfm p] else []
  -- platform configuration
  | 0x63 => if n = 9 ∧ env.has .pcdCmd then [.prepare .pcd (dword msg 5)] else []
  | 0x64 => if 6 ≤ n ∧ env.has .pcdCmd then [.store .pcd (msg.drop 5)] else []
  | 0x65 => if n = 6 ∧ env.has .pcdCmd then [.finish .pcd p]
      else if n = 5 ∧ env.has .pcdCmd then [.finish .pcd 1] else []
  | 0x89 => if sealed msg then [.unsealStart msg] else []
  -- reset of configuration: executed only if authorized
  | 0x6A => if 6 ≤ n then
      let a := .authorize p (if n = 6 then none else some (msg.drop 6))
      let r := env.reply cs a
      a :: (if r.rc = .ok 0 ∧ r.val ≠ 0 then [.execute] else [])
    else []
  -- recovery images
  | 0x72 => if n = 10 ∧ p < 2 ∧ env.has (.recCmd p) then [.recPrepare p (dword msg 6)] else []
  | 0x73 => if 7 ≤ n ∧ p < 2 ∧ env.has (.recCmd p) then [.recUpdate p (msg.drop 6)] else []
  | 0x74 => if n = 6 ∧ p < 2 ∧ env.has (.recCmd p) then [.recActivate p] else []
  | 0x42 => if n = 9 ∧ p < 2 ∧ choice 1 (byte msg 6) ∧ choice 1 (byte msg 7) ∧ choice 3 (byte msg 8) ∧
        env.has (.host p) then [.setFlashConfig p (byte msg 6) (byte msg 7) (byte msg 8)] else []
  -- sessions: types 1 and 2 only within a session
  | 0x84 => if env.has .session ∧ 6 < n then
      if p = 0 then [.establish (msg.drop 6) (env.maxResp - 6)]
      else if p = 1 ∧ env.encrypted then
        [.pairedSession env.eid (word msg 6) (some (if n = 40 then msg.drop 8 else []))]
      else if p = 2 ∧ env.encrypted then [.resetSession env.eid (some (if n = 38 then msg.drop 6 else []))]
      else []
    else []
  | 0xF2 => if n = 5 then [.fillLog] else []
  | 0x90 => if env.has .attReq ∧ 6 ≤ n ∧ p ≤ 4 ∧ n = 5 + (if p = 4 then 10 else if p = 3 then 6 else 1) then
      .force (msg.drop 5) :: (if (env.reply cs (.force (msg.drop 5))).rc = .ok 0 then [.wake] else [])
    else []
  | _ => []

/-- An encrypted request can be opened: there is a session, the sizes fit, and decryption works. -/
def Opens (env : Env) (msg : Bytes) : Prop :=
  env.has .session = true ∧ 33 < msg.length ∧ msg.length - 28 ≤ env.maxResp ∧ 33 < env.maxResp ∧
    (env.reply [] (.decrypt msg (msg.length - 32))).rc = .ok 0

instance (env : Env) (msg : Bytes) : Decidable (Opens env msg) := by unfold Opens; infer_instance

/-- Bits of the header that must be zero. -/
def reserved (msg : Bytes) : Bool := byte msg 3 % 32 != 0 || byte msg 3 / 64 % 2 != 0

/-- The changes a message asks for: those of the request in it.  Encrypted messages are decrypted
first, and leave less room for the response. -/
def asked (itemLen : ItemLen) (env : Env) (keyAlg : Nat) (msg : Bytes) : List Call :=
  if reserved msg then []
  else if byte msg 3 / 32 % 2 = 0 then effects itemLen { env with encrypted := false } keyAlg [] msg
  else if Opens env msg then
    effects itemLen { env with maxResp := env.maxResp - 28, encrypted := true } keyAlg
      [.decrypt msg (msg.length - 32)] (plain env msg)
  else []

/-- The changes among calls (last one first), in order. -/
def changes (calls : List Call) : List Call := calls.reverse.filter mutates

/-- What a change does to the devices: only new capabilities matter. -/
def devStep (devs : List Dev) : Call → List Dev
  | .setCaps n caps => setCaps devs n caps
  | _ => devs

/-- The buffer holds a request. -/
structure Holds (s : St) (msg : Bytes) : Prop where
  len : s.len = msg.length
  mem : ∀ i, i < msg.length → s.mem i = msg[i]?

/-! ### Responses -/

/-- A message that can be sent: every byte is known, the size is within the limit, and the header is
that of this protocol with the request bit of the request. -/
def Response (limit rq : Nat) (o : Outcome) : Prop :=
  ∃ b : Bytes, o = .sent (b.map some) ∧ b.length ≤ limit ∧ 5 ≤ b.length ∧
    slice b 0 3 = [0x7E, 0x14, 0x14] ∧ byte b 3 / 128 = rq

/-! ### Certificates -/

/-- Request for the part of a certificate from an offset on, as long as the response allows. -/
def certRequest (slot cert off : Nat) : Bytes :=
  [0x7E, 0x14, 0x14, 0, 0x82] ++ le 1 slot ++ le 1 cert ++ le 2 off ++ le 2 0

/-- The part of a certificate that answers a request: from the offset asked for, as much as asked for
or as fits. -/
def certPart (limit : Nat) (d msg : Bytes) : Bytes :=
  (d.drop (word msg 7)).take (if word msg 9 = 0 ∨ word msg 9 > limit - 7 then limit - 7 else word msg 9)

/-- What a response to it carries. -/
def payload : Outcome → Bytes
  | .sent b => (b.drop 7).filterMap id
  | _ => []

/-- Reading in parts: go on behind what has been received until nothing comes. -/
def collect (get : Nat → Bytes) : Nat → Nat → Bytes
  | 0, _ => []
  | n + 1, off => if get off = [] then [] else get off ++ collect get n (off + (get off).length)

end Verif.Protocol.Spec
