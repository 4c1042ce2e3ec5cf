import Verif.Protocol.Spec
/-! What the response to each request carries, as a function of the bytes of the request and of what
the parts of the device answer.  Nothing here is stored in place: the request stays as it is, and the
data of a response are given as a whole. -/
namespace Verif.Protocol.Spec
open Verif.Protocol

/-- Answer to a request: refused with an error, done without data (`none`), or the data behind the
header. -/
abbrev Ans := Except Err (Option Bytes)

/-- Refuse if a condition holds. -/
def refuse (c : Prop) [Decidable c] (e : Err) : Except Err Unit := if c then .error e else .ok ()

/-- The result of a part must be success. -/
def ended (r : Reply) : Except Err Unit := if r.rc = .ok 0 then .ok () else .error (.sub r.rc)

/-- The result of a part must be a value. -/
def given (r : Reply) : Except Err Nat := match r.rc with
  | .ok v => .ok v
  | rc => .error (.sub rc)

/-- Answers with data, and without. -/
def data (d : Bytes) : Ans := .ok (some d)
def finished : Ans := .ok none

/-- A text in a field of `n` bytes, cut so that at least one zero follows. -/
def text (n : Nat) (s : Bytes) : Bytes := s.take (n - 1) ++ List.replicate (n - (s.take (n - 1)).length) 0

/-- The string at the start of some bytes, without and with its terminator. -/
def string (d : Bytes) : Bytes := d.takeWhile (· ≠ 0)
def stringz (d : Bytes) : Bytes := string d ++ [0]

section
variable (env : Env) (cs : List Call)

/-- Work that ends without data. -/
def work (c : Call) : Ans := do
  ended (env.reply cs c)
  finished

/-- Data of a part, at most what fits behind `n` bytes. -/
def deliver (c : Call) : Ans := do
  let _ ← given (env.reply cs c)
  data (env.reply cs c).data

/-- Identifier of a manifest, if there is one: its number or its platform. -/
def idAnswer (k : Kind) (platform present : Bool) : Ans :=
  match platform, present with
  | false, false => data (0 :: le 4 0)
  | true, false => data [0, 0]
  | false, true => do
    let r := env.reply cs (.manifestId k)
    ended r
    data (1 :: le 4 r.val)
  | true, true => do
    let r := env.reply cs (.platformId k (env.maxResp - 6))
    ended r
    data (1 :: stringz r.data)

/-- Identifier of the manifest of a kind: region 0 is the active one, region 1 the pending one. -/
def manifestIdAnswer (k : Kind) (region id : Nat) : Ans :=
  if env.has (mgrPart k) then do
    refuse (1 < region) .outOfRange
    let c := .manifest k (region == 1)
    idAnswer env (c :: cs) k (id == 1) ((env.reply cs c).val != 0)
  else idAnswer env cs k (id == 1) false

/-- A list out of a manifest: whether there is one, its identifier, then the entries. -/
def listAnswer (k : Kind) (region : Nat) (entries : Call) : Ans :=
  if env.has (mgrPart k) then do
    refuse (1 < region) .outOfRange
    let c := .manifest k (region == 1)
    if (env.reply cs c).val ≠ 0 then do
      let r := env.reply (c :: cs) (.manifestId k)
      ended r
      let l := env.reply (.manifestId k :: c :: cs) entries
      let _ ← given l
      data (1 :: le 4 r.val ++ l.data)
    else data (0 :: le 4 0)
  else data (0 :: le 4 0)

/-- The firmware a request for supported versions asks for. -/
def namedFw (port region : Nat) (msg : Bytes) : FwArg :=
  if msg.length ≤ 12 then .first
  else if string (msg.drop 12) ∈ env.fwIds port (region == 1) then .known (string (msg.drop 12))
  else .unknown

/-- Port of a request that concerns one of two hosts. -/
def onPort (p : Nat) (part : Part) (a : Ans) : Ans := do
  refuse (2 ≤ p) .outOfRange
  refuse (env.has part = false) .unsupportedIndex
  a

/-- Progress of an operation. -/
def progress (t : Task) : Ans := data (le 4 (env.reply cs (.status t)).val)

/-- Progress of an operation and what remains of it. -/
def progress2 (t : Task) : Ans :=
  data (le 4 (env.reply cs (.status t)).val ++ le 4 (env.reply (.status t :: cs) (.remaining t)).val)

/-- Answer to a certificate request. -/
def certAnswer (r : Reply) (msg : Bytes) : Ans := match r.rc with
  | .ok _ => data (slice msg 5 2 ++ certPart env.maxResp r.data msg)
  | .invalidSlot | .invalidCert | .certNotAvailable => data (slice msg 5 2)
  | rc => .error (.sub rc)

/-- Answer to a digest request: version 1, number of digests, digests. -/
def digestAnswer (r : Reply) : Ans := match r.rc with
  | .ok _ => data (1 :: le 1 r.val ++ r.data)
  | .invalidSlot | .certNotAvailable => data [1, 0]
  | rc => .error (.sub rc)

/-- Answer to a request for a certificate signing request. -/
def csrAnswer (r : Reply) : Ans := match r.rc with
  | .ok 0 => do
    refuse (4091 < r.data.length) .bufTooSmall
    refuse (env.maxResp - 5 < r.data.length) .responseTooSmall
    data r.data
  | .unknownCsr => .error .unsupportedIndex
  | rc => .error (.sub rc)

/-- Whether a host is in reset: out of reset (0), held there by this device (1), in reset (2). -/
def hostAnswer (p : Nat) : Ans := match (env.reply cs (.inReset p)).rc with
  | .ok 0 => data [0]
  | .ok 1 => match (env.reply (.inReset p :: cs) (.heldInReset p)).rc with
    | .ok 1 => data [1]
    | .ok 0 => data [2]
    | rc => .error (.sub rc)
  | rc => .error (.sub rc)

/-- An authorized reset is executed; otherwise a challenge to sign may be the answer. -/
def resetAnswer (c : Call) : Ans :=
  let r := env.reply cs c
  match r.rc with
  | .ok 0 => if r.val ≠ 0 then work env (c :: cs) .execute else .error .unsupportedOperation
  | .challenge => do
    refuse (env.maxResp - 5 < r.data.length) .bufTooSmall
    data r.data
  | .unsupportedOp => .error .unsupportedIndex
  | rc => .error (.sub rc)

/-- Outcome of an unseal operation: status, and the key if there is one. -/
def unsealAnswer (r : Reply) : Ans := do
  let _ ← given r
  if r.val % 2 ^ 32 = 0 then data (le 4 0 ++ le 2 r.data.length ++ r.data) else data (le 4 r.val)

/-- Version of the recovery image of a port, zeros if there is none. -/
def recAnswer (p : Nat) : Ans :=
  if (env.reply cs (.recImage p)).val ≠ 0 then do
    let r := env.reply (.recImage p :: cs) (.recVersion p 32)
    ended r
    data (r.data ++ List.replicate (32 - r.data.length) 0)
  else data (List.replicate 32 0)

/-- Key exchange: establishing a session, pairing, and closing the session. -/
def keyAnswer (msg : Bytes) : Ans :=
  let n := msg.length
  if byte msg 5 = 0 then do
    let r := env.reply cs (.establish (msg.drop 6) (env.maxResp - 6))
    ended r
    data (0 :: r.data)
  else if byte msg 5 = 1 then do
    refuse (env.encrypted = false) .shouldBeEncrypted
    ended (env.reply cs (.pairedSession env.eid (word msg 6) (some (if n = 40 then msg.drop 8 else []))))
    data [1]
  else if byte msg 5 = 2 then do
    refuse (env.encrypted = false) .shouldBeEncrypted
    ended (env.reply cs (.resetSession env.eid (some (if n = 38 then msg.drop 6 else []))))
    data [2]
  else .error .unsupportedIndex

/-- The answer to the request `msg`. -/
def answer (itemLen : ItemLen) (msg : Bytes) : Ans :=
  let n := msg.length
  let p := byte msg 5
  let size (k : Nat) : Except Err Unit := refuse (n ≠ k) .badLength
  let atLeast (k : Nat) : Except Err Unit := refuse (n < k) .badLength
  let needs (part : Part) : Except Err Unit := refuse (env.has part = false) .unsupportedCommand
  match byte msg 4 with
  -- firmware version
  | 0x01 => do
    size 6
    refuse (env.fwVersions.length ≤ p) .unsupportedIndex
    data (text 32 ((env.fwVersions.getD p none).getD []))
  -- device capabilities: those of the requester are stored, then the own ones returned
  | 0x02 => do
    size 13
    let num := .deviceNum env.eid
    let d ← given (env.reply cs num)
    let set := .setCaps d (slice msg 5 8)
    ended (env.reply (num :: cs) set)
    let r := env.reply (set :: num :: cs) .getCaps
    ended r
    data r.data
  -- device identity
  | 0x03 => do
    size 5
    data (le 2 (env.ids.getD 0 0) ++ le 2 (env.ids.getD 1 0) ++ le 2 (env.ids.getD 2 0) ++ le 2 (env.ids.getD 3 0))
  | 0x04 => do
    size 6
    refuse (p ≠ 0) .unsupportedIndex
    deliver env cs (.uuid (env.maxResp - 5))
  -- identity certificates
  | 0x20 => do
    size 6
    csrAnswer env (env.reply cs (.csr p))
  | 0x21 => do
    atLeast 9
    refuse (word msg 6 = 0 ∨ n ≠ 8 + word msg 6) .badLength
    refuse (itemLen (msg.drop 8) ≠ word msg 6) .badLength
    refuse (2 < p) .unsupportedIndex
    let c := .storeCert p (msg.drop 8)
    ended (env.reply cs c)
    work env (c :: cs) .checkCerts
  | 0x22 => do
    size 5
    data (le 4 (env.reply cs .certState).val)
  -- hosts
  | 0x40 => do
    size 6
    onPort env p (.hostCtrl p) (hostAnswer env cs p)
  | 0x41 => do
    size 6
    onPort env p (.host p) do
      let r := env.reply cs (.flashConfig p)
      ended r
      data ((List.range 4).flatMap fun i => le 1 (r.vals.getD i 0))
  | 0x42 => do
    size 9
    refuse (2 ≤ p) .outOfRange
    refuse (choice 1 (byte msg 6) = false ∨ choice 1 (byte msg 7) = false ∨ choice 3 (byte msg 8) = false) .outOfRange
    refuse (env.has (.host p) = false) .unsupportedIndex
    work env cs (.setFlashConfig p (byte msg 6) (byte msg 7) (byte msg 8))
  -- logs
  | 0x4F => do
    size 5
    data (le 4 (sizeOrZero (env.reply cs (.logSize .debug))) ++
      le 4 (sizeOrZero (env.reply (.logSize .debug :: cs) (.logSize .attestation))) ++ le 4 0)
  | 0x50 => do
    size 10
    if p = 1 then deliver env cs (.logRead .debug (dword msg 6) (env.maxResp - 5))
    else if p = 2 then deliver env cs (.logRead .attestation (dword msg 6) (env.maxResp - 5))
    else if p = 4 then deliver env cs (.logRead .tcg (dword msg 6) (env.maxResp - 5))
    else .error .unsupportedIndex
  | 0x51 => do
    size 6
    if p = 1 then work env cs .logClear else if p = 2 then finished else .error .unsupportedIndex
  -- attestation data
  | 0x52 => do
    size 11
    deliver env cs (.measurement p (byte msg 6) (dword msg 7) (env.maxResp - 5))
  | 0x53 => do
    size 10
    let c := .component (dword msg 5) (byte msg 9)
    match (env.reply cs c).rc with
    | .ok d =>
      data (le 1 (env.reply (c :: cs) (.prevState d)).val ++
        (env.reply (.prevState d :: c :: cs) (.counters d 12)).data)
    | _ => .error .unsupportedIndex
  -- platform firmware manifests
  | 0x59 => do
    refuse (n ≠ 7 ∧ n ≠ 8) .badLength
    let id := if n = 7 then 0 else byte msg 7
    refuse (2 ≤ p ∨ 1 < id) .outOfRange
    manifestIdAnswer env cs (.pfm p) (byte msg 6) id
  | 0x5A => do
    atLeast 11
    refuse (11 < n ∧ n ≠ 12 + byte msg 11) .badLength
    refuse (2 ≤ p) .outOfRange
    listAnswer env cs (.pfm p) (byte msg 6)
      (.versions p (namedFw env p (byte msg 6) msg) (dword msg 7) (env.maxResp - 10))
  | 0x5B => do
    size 10
    onPort env p (.pfmCmd p) (work env cs (.prepare (.pfm p) (dword msg 6)))
  | 0x5C => do
    atLeast 7
    onPort env p (.pfmCmd p) (work env cs (.store (.pfm p) (msg.drop 6)))
  | 0x5D => do
    size 7
    onPort env p (.pfmCmd p) (work env cs (.finish (.pfm p) (byte msg 6)))
  -- component firmware manifest
  | 0x5E => do
    refuse (n ≠ 6 ∧ n ≠ 7) .badLength
    let id := if n = 6 then 0 else byte msg 6
    refuse (1 < id) .outOfRange
    manifestIdAnswer env cs .cfm p id
  | 0x5F => do
    size 9
    needs .cfmCmd
    work env cs (.prepare .cfm (dword msg 5))
  | 0x60 => do
    atLeast 6
    needs .cfmCmd
    work env cs (.store .cfm (msg.drop 5))
  | 0x61 => do
    size 6
    needs .cfmCmd
    work env cs (.finish .cfm p)
  | 0x8D => do
    size 10
    listAnswer env cs .cfm p (.components .cfm (dword msg 6) (env.maxResp - 10))
  -- platform configuration
  | 0x62 => do
    refuse (n ≠ 5 ∧ n ≠ 6) .badLength
    let id := if n = 5 then 0 else p
    refuse (1 < id) .outOfRange
    manifestIdAnswer env cs .pcd 0 id
  | 0x63 => do
    size 9
    needs .pcdCmd
    work env cs (.prepare .pcd (dword msg 5))
  | 0x64 => do
    atLeast 6
    needs .pcdCmd
    work env cs (.store .pcd (msg.drop 5))
  | 0x65 => do
    refuse (n ≠ 5 ∧ n ≠ 6) .badLength
    needs .pcdCmd
    work env cs (.finish .pcd (if n = 5 then 1 else p))
  | 0x8C => do
    size 9
    listAnswer env cs .pcd 0 (.components .pcd (dword msg 5) (env.maxResp - 10))
  | 0x8F => do
    size 9
    let r := env.reply cs (.instances (dword msg 5) (env.maxResp - 6))
    let k ← given r
    data (le 1 k ++ r.data)
  -- firmware update
  | 0x66 => do
    size 9
    work env cs (.fwPrepare (dword msg 5))
  | 0x67 => do
    atLeast 6
    work env cs (.fwWrite (msg.drop 5))
  | 0x69 => do
    refuse (n ≠ 5 ∧ n ≠ 6) .badLength
    work env cs (.fwStart (decide (n = 5 ∨ p ≠ 0)))
  -- progress
  | 0x68 => do
    size 7
    let port := byte msg 6
    if p = 0 then progress env cs .firmware
    else if p = 1 then onPort env port (.pfmCmd port) (progress env cs (.pfm port))
    else if p = 2 then do
      refuse (env.has .cfmCmd = false) .unsupportedIndex
      progress env cs .cfm
    else if p = 3 then do
      refuse (env.has .pcdCmd = false) .unsupportedIndex
      progress env cs .pcd
    else if p = 4 then onPort env port (.host port) do
      ended (env.reply cs (.nextVerification port))
      data (le 4 (env.reply cs (.nextVerification port)).val)
    else if p = 5 then onPort env port (.recCmd port) (progress env cs (.recovery port))
    else if p = 6 then progress env cs .reset
    else if p = 7 then onPort env port (.host port) (progress env cs (.hostFlash port))
    else .error .unsupportedIndex
  | 0x8E => do
    size 7
    let port := byte msg 6
    if p = 0 then progress2 env cs .firmware
    else if p = 5 then do
      refuse (1 < port) .outOfRange
      refuse (env.has (.recMgr port) = false ∨ env.has (.recCmd port) = false) .unsupportedIndex
      progress2 env cs (.recovery port)
    else .error .unsupportedIndex
  -- reset of configuration
  | 0x6A => do
    atLeast 6
    resetAnswer env cs (.authorize p (if n = 6 then none else some (msg.drop 6)))
  -- recovery images
  | 0x72 => do
    size 10
    onPort env p (.recCmd p) (work env cs (.recPrepare p (dword msg 6)))
  | 0x73 => do
    atLeast 7
    onPort env p (.recCmd p) (work env cs (.recUpdate p (msg.drop 6)))
  | 0x74 => do
    size 6
    onPort env p (.recCmd p) (work env cs (.recActivate p))
  | 0x75 => do
    refuse (n ≠ 6 ∧ n ≠ 7) .badLength
    onPort env p (.recMgr p) (recAnswer env cs p)
  -- attestation of this device
  | 0x81 => do
    size 7
    refuse (7 < p) .outOfRange
    refuse (2 ≤ byte msg 6) .unsupportedIndex
    refuse (byte msg 6 = 1 ∧ env.has .session = false) .unsupportedOperation
    digestAnswer (env.reply
      (if byte msg 6 = 1 ∧ byte msg 3 / 32 % 2 = 0 then .resetSession env.eid none :: cs else cs)
      (.digests p (env.maxResp - 7)))
  | 0x82 => do
    size 11
    refuse (7 < p) .outOfRange
    certAnswer env (env.reply cs (.certificate p (byte msg 6))) msg
  | 0x83 => do
    size 39
    deliver env cs (.challenge (slice msg 5 34) (env.maxResp - 5))
  -- sessions
  | 0x84 => do
    needs .session
    atLeast 7
    keyAnswer env cs msg
  | 0x85 => do
    needs .session
    refuse (env.encrypted = false) .shouldBeEncrypted
    size 9
    deliver env cs (.sync env.eid (dword msg 5) (env.maxResp - 5))
  | 0x87 => do
    size 7
    let r := env.reply cs (.resetCounter p (byte msg 6))
    ended r
    data r.data
  -- unsealing
  | 0x89 => do
    if sealed msg then work env cs (.unsealStart msg)
    else if 10 ≤ n ∧ (byte msg 5 / 4 % 8 ≠ 0 ∨ 1 < byte msg 5 % 4 ∨ byte msg 5 % 4 = 0 ∧ 2 < byte msg 6 % 8)
    then .error .outOfRange else .error .badLength
  | 0x8A => do
    size 5
    unsealAnswer (env.reply cs (.unsealResult (env.maxResp - 11)))
  -- attestation of other devices
  | 0x90 => do
    refuse (env.has .attReq = false) .invalidArgument
    atLeast 6
    refuse (4 < p) .outOfRange
    size (5 + if p = 4 then 10 else if p = 3 then 6 else 1)
    ended (env.reply cs (.force (msg.drop 5)))
    data []
  | 0x91 => do
    needs .attReq
    size 5
    let r := env.reply cs .forceState
    let st ← given r
    data (le 1 st ++ le 4 r.val)
  -- diagnosis
  | 0xD0 => do
    size 5
    let r := env.reply cs (.heap 24)
    ended r
    data r.data
  | 0xD1 => do
    size 9
    deliver env cs (.stack (dword msg 5) (env.maxResp - 9))
  | 0xF1 => do
    size 6
    let r := env.reply cs (.deviceState p)
    let st ← given r
    data (le 1 st)
  | 0xF2 => do
    size 5
    work env cs .fillLog
  | _ => .error .unknownRequest

end

/-- Message about success (code 0) or an error (code 4) of an operation, with its value. -/
def notice (request code value : Nat) : Bytes :=
  [0x7E, 0x14, 0x14, UInt8.ofNat (request * 128), 0x7F, UInt8.ofNat code,
    UInt8.ofNat value, UInt8.ofNat (value / 2 ^ 8), UInt8.ofNat (value / 2 ^ 16), UInt8.ofNat (value / 2 ^ 24)]

/-- The message that goes back to the requester of `msg`: the header of the request with the data, or
a message about success or an error. -/
def reply (code : Err → Nat) (msg : Bytes) : Ans → Bytes
  | .ok (some d) => msg.take 5 ++ d
  | .ok none => notice (byte msg 3 / 128) 0 0
  | .error e => notice (byte msg 3 / 128) 4 (code e)

/-- Opening of an encrypted message. -/
def opening (env : Env) (msg : Bytes) : Except Err Unit := do
  refuse (env.has .session = false) .encryptionUnsupported
  refuse (msg.length ≤ 33) (.sub (.err 1))
  refuse (env.maxResp < msg.length - 28 ∨ env.maxResp ≤ 33) (.sub (.err 2))
  ended (env.reply [] (.decrypt msg (msg.length - 32)))

/-- The answer to the request in an encrypted message. -/
def sessionAnswer (env : Env) (itemLen : ItemLen) (msg : Bytes) : Ans := do
  opening env msg
  answer { env with maxResp := env.maxResp - 28, encrypted := true } [.decrypt msg (msg.length - 32)] itemLen (plain env msg)

/-- Header of a message with the bit for encryption cleared. -/
def openHeader (msg : Bytes) : Bytes := [0x7E, 0x14, 0x14, UInt8.ofNat (byte msg 3 - 32), 0x84]

/-- What becomes of an encrypted message, given the answer to the request in it. -/
def SentFor (code : Err → Nat) (env : Env) (msg : Bytes) (out : Outcome) (calls : List Call) : Ans → Prop
  | .ok (some d) =>
    let req := plain env msg
    if byte req 4 = 0x84 ∧ byte req 5 = 2 then out = .sent ((openHeader msg ++ d).map some)
    else if byte req 4 = 0xD0 ∨ byte req 4 = 0xD1 then out = .sent ((req.take 5 ++ d).map some)
    else if env.maxResp < 33 + d.length then out = .sent ((notice (byte msg 3 / 128) 4 (code (.sub (.err 2)))).map some)
    else ∃ cs, calls = .encrypt (UInt8.ofNat (byte req 4) :: d) :: cs ∧
      let r := env.reply cs (.encrypt (UInt8.ofNat (byte req 4) :: d))
      out = .sent ((if r.rc = .ok 0 then msg.take 4 ++ r.data else notice (byte msg 3 / 128) 4 (code (.sub r.rc))).map some)
  | a => out = .sent ((reply code msg a).map some)

end Verif.Protocol.Spec
