import Verif.Common.Bytes
/-! Authorization of operations with signed one-time tokens: `core/common/auth_token.c`, `authorization_challenge.c`, `authorization_global.c`,
`authorization_allowed.c`, `authorization_disallowed.c`, `authorized_data_with_aad.c`, `authorized_data_token_only.c` and
`core/cmd_interface/cmd_authorization.c`.

Not modelled: the set-up functions (their effect is the initial state and the conditions on the configuration) and null arguments. A call of a
challenge handler is one step: `authorization_challenge_authorize` holds the lock of the handler all the time (authorization_challenge.c:23, 68). -/
namespace Verif.AuthToken

/-- Values of `size_t` on a 32-bit device. -/
def SZ : Nat := 2 ^ 32

/-- The status codes a caller can tell apart; `overread` is not a status but a read outside the payload. -/
inductive Err
  | tooLong | notValid | notAuthorized | badData | noToken | noSignature | invalidArg | rng | sign | timer | engine | badOpData | unsupported | overread
  deriving DecidableEq, Repr

/-- How a payload is laid out: authorized_data_token_only.c or authorized_data_with_aad.c. -/
inductive Fmt | tokenOnly | withAad
  deriving DecidableEq, Repr

/-- A challenge handler with its token manager (authorization_challenge.h:39-47, auth_token.h:30-98). `sigOk hash message signature` is the
signature check with the key of the authority. -/
structure Cfg where
  dataLen : Nat
  nonceLen : Nat
  sigMax : Nat
  bufLen : Nat
  validity : Nat
  tag : Option Bytes
  fmt : Fmt
  authHash : Nat
  sigOk : Nat → Bytes → Bytes → Bool

/-- `struct auth_token_state` and the token buffer (auth_token.h:22-25, 90). -/
structure St where
  tokenLen : Nat
  buffer : Bytes
  expiration : Nat
  deriving DecidableEq, Repr

/-- What the outside world does during one call: the clock, the random generator (it may leave anything in the buffer when it fails), the signature
with the device key (`none`: failure), failures of the timer and of the verification engine. -/
structure Env where
  now : Nat
  rngOk : Bool
  rngOut : Bytes
  sign : Bytes → Option Bytes
  timerFails : Bool
  engineFails : Bool

/-! ### Layout of the payload -/

/-- A 16-bit field of the payload (`buffer_unaligned_read16`). -/
def u16 (d : Bytes) (off : Nat) : Nat := leNat (window d off 2)
/-- `token_length` of the header, authorized_data_with_aad.c:16. -/
def hdrTok (d : Bytes) : Nat := u16 d 0
/-- `aad_length` of the header, authorized_data_with_aad.c:17. -/
def hdrAad (d : Bytes) : Nat := u16 d 2

/-- `authorized_data_with_aad_get_header`, authorized_data_with_aad.c:32-49. -/
def getHeader (d : Bytes) : Except Err Unit :=
  if d.length < 4 then .error .badData
  else if 4 + hdrTok d + hdrAad d > d.length then .error .badData
  else .ok ()

/-- `get_token_offset`, authorized_data_with_aad.c:51-75 and authorized_data_token_only.c:9-24. -/
def tokenOffset (f : Fmt) (d : Bytes) : Except Err Nat :=
  match f with
  | .tokenOnly => if d.length = 0 then .error .noToken else .ok 0
  | .withAad =>
    match getHeader d with
    | .error e => .error e
    | .ok () => if hdrTok d ≠ 0 then .ok 4 else .error .noToken

/-- `get_authenticated_data_length`, authorized_data_with_aad.c:105-123 and authorized_data_token_only.c:41-51. -/
def aadLength (f : Fmt) (d : Bytes) : Except Err Nat :=
  match f with
  | .tokenOnly => if d.length = 0 then .error .invalidArg else .ok 0
  | .withAad =>
    match getHeader d with
    | .error e => .error e
    | .ok () => .ok (hdrAad d)

/-- `get_authenticated_data`, authorized_data_with_aad.c:77-103 and authorized_data_token_only.c:26-39. `none` is the null pointer. -/
def authenticatedData (f : Fmt) (d : Bytes) : Except Err (Option Bytes) :=
  match f with
  | .tokenOnly => if d.length = 0 then .error .invalidArg else .ok none
  | .withAad =>
    match getHeader d with
    | .error e => .error e
    | .ok () => if hdrAad d ≠ 0 then .ok (some (window d (4 + hdrTok d) (hdrAad d))) else .ok none

/-- `authorized_data_with_aad_get_signature`, authorized_data_with_aad.c:125-151: the length of the signature at the end of the payload. -/
def signatureLength (d : Bytes) : Except Err Nat :=
  match getHeader d with
  | .error e => .error e
  | .ok () => if d.length = 4 + hdrTok d + hdrAad d then .error .noSignature else .ok (d.length - (4 + hdrTok d + hdrAad d))

/-! ### Tokens -/

/-- The context data of a token, auth_token.c:32-38: padded with zeros. -/
def padded (c : Cfg) (data : Option Bytes) : Bytes :=
  match data with
  | none => List.replicate c.dataLen 0
  | some x => x ++ List.replicate (c.dataLen - x.length) 0

/-- The check of auth_token.c:24-26. -/
def tooLong (c : Cfg) (data : Option Bytes) : Bool :=
  match data with
  | none => false
  | some x => x.length > c.dataLen

/-- `auth_token_new_token`, auth_token.c:12-74. -/
def newToken (c : Cfg) (s : St) (e : Env) (data : Option Bytes) : St × Except Err Bytes :=
  if tooLong c data then (s, .error .tooLong)
  else
    let b1 := if c.dataLen ≠ 0 then writeAt s.buffer 0 (padded c data) else s.buffer
    let b2 := writeAt b1 c.dataLen e.rngOut
    let signed := c.dataLen + c.nonceLen
    if e.rngOk = false then ({ s with tokenLen := 0, buffer := b2 }, .error .rng)
    else match e.sign (window b2 0 signed) with
      | none => ({ s with tokenLen := 0, buffer := b2 }, .error .sign)
      | some sig =>
        let b3 := writeAt b2 signed sig
        if c.validity ≠ 0 ∧ e.timerFails = true then ({ s with tokenLen := 0, buffer := b3 }, .error .timer)
        else ({ tokenLen := signed + sig.length, buffer := b3,
                expiration := if c.validity ≠ 0 then e.now + c.validity else s.expiration },
              .ok (window b3 0 (signed + sig.length)))

/-- The timer check of `auth_token_verify_data`, auth_token.c:98-106: `none` is "go on". A deadline has passed when the clock has reached it
(projects/linux/platform.c:78-92). The 32-bit tick counter of FreeRTOS, after whose overflow an old deadline looks open again
(projects/freertos/platform_clock_freertos.c:50-81), is not modelled. -/
def timerCheck (c : Cfg) (s : St) (e : Env) : Option Err :=
  if c.validity = 0 then none
  else if e.timerFails then some .timer
  else if s.expiration ≤ e.now then some .notValid
  else none

/-- `auth_token_verify_data`, auth_token.c:76-130. -/
def verifyData (c : Cfg) (s : St) (e : Env) (d : Bytes) (off aad : Nat) : Except Err Unit :=
  let authLen := (off + s.tokenLen + aad) % SZ
  if s.tokenLen ≠ 0 ∧ s.tokenLen < d.length ∧ off < d.length ∧ aad < d.length ∧ d.length > authLen then
    match timerCheck c s e with
    | some x => .error x
    | none =>
      if off + s.tokenLen > d.length then .error .overread
      else if window d off s.tokenLen ≠ window s.buffer 0 s.tokenLen then .error .notValid
      else if e.engineFails then .error .engine
      else if c.sigOk c.authHash (window d 0 authLen) (window d authLen (d.length - authLen)) then .ok ()
      else .error .notValid
  else .error .notValid

/-- `auth_token_invalidate`, auth_token.c:132-141. -/
def invalidate (s : St) : St := { s with tokenLen := 0 }

/-! ### Deciding on an operation -/

/-- What an authorization answers: a challenge, a permission, or a refusal. -/
inductive Ans
  | challenge (token : Bytes)
  | granted
  | refused (e : Err)
  deriving DecidableEq, Repr

/-- The verification half of `authorization_challenge_authorize`, authorization_challenge.c:40-65. -/
def respond (c : Cfg) (s : St) (e : Env) (d : Bytes) : St × Ans :=
  match tokenOffset c.fmt d with
  | .error x => (s, .refused x)
  | .ok off =>
    match aadLength c.fmt d with
    | .error x => (s, .refused x)
    | .ok aad =>
      match verifyData c s e d off aad with
      | .ok () => (invalidate s, .granted)
      | .error .notValid => (s, .refused .notAuthorized)
      | .error x => (s, .refused x)

/-- The challenge half, authorization_challenge.c:25-39. -/
def challenge (c : Cfg) (s : St) (e : Env) : St × Ans :=
  match newToken c s e c.tag with
  | (s', .ok t) => (s', .challenge t)
  | (s', .error x) => (s', .refused x)

/-- `authorization_challenge_authorize`, authorization_challenge.c:12-71: no payload asks for a challenge. -/
def authorize (c : Cfg) (s : St) (e : Env) (payload : Option Bytes) : St × Ans :=
  match payload with
  | none => challenge c s e
  | some d => respond c s e d

/-- `struct authorization_global`: signed data without a token (authorization_global.h). -/
structure GCfg where
  hash : Nat
  sigOk : Nat → Bytes → Bytes → Bool

/-- `authorization_global_authorize`, authorization_global.c:9-40. -/
def globalAuthorize (g : GCfg) (e : Env) (payload : Option Bytes) : Ans :=
  match payload with
  | none => .refused .notAuthorized
  | some d =>
    if d.length = 0 then .refused .notAuthorized
    else match signatureLength d with
      | .error x => .refused x
      | .ok sl =>
        if e.engineFails then .refused .engine
        else if g.sigOk g.hash (window d 0 (d.length - sl)) (window d (4 + hdrTok d + hdrAad d) sl) then .granted
        else .refused .notAuthorized

/-- The authorization of an operation: one of the four implementations; challenge handlers are numbered. -/
inductive Auth
  | allowed
  | disallowed
  | global (g : GCfg)
  | challenge (h : Nat)

/-- `struct cmd_authorization_operation`, cmd_authorization.h:18-41. `exec` is the execution context and its `validate_data`. -/
structure Op where
  id : Nat
  auth : Option Auth
  data : Option Fmt
  exec : Option (Nat × (Option Bytes → Bool))

/-- `struct cmd_authorization_operation_context`, cmd_authorization.h:46-63. -/
structure Ctx where
  exec : Option Nat
  data : Option Bytes
  deriving DecidableEq, Repr

/-- All challenge handlers of a device and its operations. -/
structure Sys where
  handler : Nat → Cfg
  ops : List Op

/-- The answer to a request. -/
inductive Out
  | challenge (token : Bytes)
  | granted (ctx : Ctx)
  | refused (e : Err)
  deriving DecidableEq, Repr

/-- The search for the operation, cmd_authorization.c:31-37: the first one with this identifier. -/
def findOp (ops : List Op) (id : Nat) : Option Op := ops.find? (fun o => o.id == id)

/-- Dispatch to the authorization, cmd_authorization.c:42; authorization_allowed.c:11-19 and authorization_disallowed.c:11-19 ignore everything. -/
def askAuth (y : Sys) (st : Nat → St) (a : Auth) (e : Env) (payload : Option Bytes) : (Nat → St) × Ans :=
  match a with
  | .allowed => (st, .granted)
  | .disallowed => (st, .refused .notAuthorized)
  | .global g => (st, globalAuthorize g e payload)
  | .challenge h =>
    let r := authorize (y.handler h) (st h) e payload
    (fun i => if i = h then r.1 else st i, r.2)

/-- The data for the operation, cmd_authorization.c:47-53. -/
def opData (o : Op) (payload : Option Bytes) : Except Err (Option Bytes) :=
  match payload, o.data with
  | some d, some f => authenticatedData f d
  | _, _ => .ok none

/-- The context for an authorized operation, cmd_authorization.c:44-65. -/
def context (o : Op) (payload : Option Bytes) : Out :=
  match opData o payload with
  | .error x => .refused x
  | .ok data =>
    match o.exec with
    | none => .granted ⟨none, data⟩
    | some (k, validate) => if validate data then .granted ⟨some k, data⟩ else .refused .badOpData

/-- The outcome for each answer of the authorization, cmd_authorization.c:42-66. -/
def outOf (o : Op) (payload : Option Bytes) (a : Ans) : Out :=
  match a with
  | .challenge t => .challenge t
  | .refused x => .refused x
  | .granted => context o payload

/-- `cmd_authorization_authorize_operation`, cmd_authorization.c:12-77. -/
def authorizeOperation (y : Sys) (st : Nat → St) (id : Nat) (e : Env) (payload : Option Bytes) : (Nat → St) × Out :=
  match findOp y.ops id with
  | none => (st, .refused .unsupported)
  | some o =>
    match o.auth with
    | none => (st, .refused .notAuthorized)
    | some a =>
      let r := askAuth y st a e payload
      (r.1, outOf o payload r.2)

end Verif.AuthToken
