import Verif.AuthToken.Model
/-! Histories of requests, and which token is active after a history. -/
namespace Verif.AuthToken

/-- A request: the operation, the payload (`none`: asking for a challenge) and what the outside world does meanwhile. -/
structure Call where
  id : Nat
  payload : Option Bytes
  env : Env

/-- The challenge handler a request is about, if any. -/
def handlerOf (y : Sys) (c : Call) : Option Nat :=
  match findOp y.ops c.id with
  | some { auth := some (.challenge h), .. } => some h
  | _ => none

/-- The token buffer has room for the token (auth_token.c:273, 318), the tag fits into the token (authorization_challenge.c:112-113) and sizes stay
below 2^32. -/
structure Cfg.WF (c : Cfg) : Prop where
  room : c.dataLen + c.nonceLen + c.sigMax ≤ c.bufLen
  tag : ∀ x, c.tag = some x → x.length ≤ c.dataLen
  small : c.bufLen + 65539 < SZ

/-- Nonces and signatures have the lengths they should have, and payloads are shorter than 4 GiB. -/
structure Call.WF (y : Sys) (c : Call) : Prop where
  nonce : ∀ h, handlerOf y c = some h → c.env.rngOut.length = (y.handler h).nonceLen
  sig : ∀ h, handlerOf y c = some h → ∀ m s, c.env.sign m = some s → s.length ≤ (y.handler h).sigMax
  payload : ∀ d, c.payload = some d → d.length < SZ

/-- A history, the latest request first, and the state it leads to. -/
inductive Hist (y : Sys) : List (Call × Out) → (Nat → St) → Prop
  | init {s} : (∀ h, (s h).tokenLen = 0 ∧ (s h).buffer.length = (y.handler h).bufLen) → Hist y [] s
  | step {past s c s' out} : Hist y past s → c.WF y → authorizeOperation y s c.id c.env c.payload = (s', out) → Hist y ((c, out) :: past) s'

/-- The usable token after a request to the handler, when it was `before` before: a challenge replaces it, a request for a challenge that fails and a
granted operation remove it. -/
def activeStep (c : Call) (out : Out) (before : Option (Bytes × Nat)) : Option (Bytes × Nat) :=
  match c.payload, out with
  | none, .challenge t => some (t, c.env.now)
  | none, _ => none
  | some _, .granted _ => none
  | some _, _ => before

/-- The token of handler `h` that may still be used after a history, and when it was issued. -/
def active (y : Sys) (h : Nat) : List (Call × Out) → Option (Bytes × Nat)
  | [] => none
  | (c, out) :: past => if handlerOf y c = some h then activeStep c out (active y h past) else active y h past

/-- Where the token starts in a payload. -/
def tokenPos : Fmt → Nat
  | .tokenOnly => 0
  | .withAad => 4

/-- The payload `d` carries the token `T` at its place, and ends with a signature of the authority over everything before it. -/
def Carries (c : Cfg) (T d : Bytes) : Prop :=
  ∃ pre aad sig, d = pre ++ T ++ aad ++ sig ∧ pre.length = tokenPos c.fmt ∧ sig ≠ [] ∧ c.sigOk c.authHash (pre ++ T ++ aad) sig = true

/-- The message the authority has to sign for token `T` and additional data `aad` (none in the format without header). -/
def message (f : Fmt) (T aad : Bytes) : Bytes :=
  match f with
  | .tokenOnly => T
  | .withAad => toLE 2 T.length ++ toLE 2 aad.length ++ T ++ aad

/-- `T` is made of the tag of the handler (padded with zeros), the nonce and the signature of the device over both. -/
def MadeFrom (c : Cfg) (e : Env) (T : Bytes) : Prop :=
  ∃ sig, e.sign (padded c c.tag ++ e.rngOut) = some sig ∧ T = padded c c.tag ++ e.rngOut ++ sig

/-- Request `x` issued a token of handler `h`. -/
def Issues (y : Sys) (h : Nat) (x : Call × Out) : Prop := handlerOf y x.1 = some h ∧ x.1.payload = none ∧ ∃ T, x.2 = .challenge T
/-- Request `x` was granted by handler `h`. -/
def Grants (y : Sys) (h : Nat) (x : Call × Out) : Prop := handlerOf y x.1 = some h ∧ ∃ ctx, x.2 = .granted ctx

end Verif.AuthToken
