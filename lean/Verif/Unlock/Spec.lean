import Verif.Unlock.Model
import Verif.CommonMath.Spec
/-! What a user of the unlock interface relies on: the data an authority signs, what a token says, and histories of calls. -/
namespace Verif.Unlock
open CommonMath (bitAt IsFirstClear)

/-- The data an authority signs to unlock a device with token `T`: both lengths, the token and the policy. -/
def container (T policy : Bytes) : Bytes := toLE 2 T.length ++ T ++ toLE 2 policy.length ++ policy

/-- An identifier padded with zeros to 16 bytes. -/
def pad16 (u : Bytes) : Bytes := u ++ List.replicate (16 - u.length) 0

/-- What a token says about the device: type, format, identifier and unlock counter. -/
def contextOf (oid uuid counter : Bytes) : Bytes :=
  [0x06, UInt8.ofNat oid.length] ++ oid ++ [1, 0] ++ pad16 uuid ++ [UInt8.ofNat counter.length] ++ counter

/-- `new` is `old` moved on to the next count that means "unlocked": bits are only added, up to the end of the run of set bits, and the run has odd
length. -/
def NextOdd (old new : Bytes) : Prop :=
  new.length = old.length ∧ (∀ j, bitAt old j = true → bitAt new j = true) ∧
    ∃ m, IsFirstClear new m ∧ m % 2 = 1 ∧ ∀ j, m ≤ j → bitAt new j = bitAt old j

/-- The counter means "locked": its run of set bits has even length. -/
def Locked (counter : Bytes) : Prop := ∃ m, IsFirstClear counter m ∧ m % 2 = 0

/-- One call of the interface: what was asked, what the outside world did, what was seen and what was answered. -/
structure Call where
  op : Op
  env : Env
  evs : List Ev
  out : R Bytes

/-- The token manager has room for its tokens and is set up for the context data of this device with nonces of 32 bytes; counters and types have
lengths the format can express. (The tag of the token configuration belongs to another user of the token manager.) -/
structure Cfg.WF (c : Cfg) : Prop where
  room : c.tok.dataLen + c.tok.nonceLen + c.tok.sigMax ≤ c.tok.bufLen
  small : c.tok.bufLen < 65536
  data : c.tok.dataLen = c.dataLength
  nonce : c.tok.nonceLen = 32
  oid : c.oid ≠ [] ∧ c.oid.length < 128
  counter : 0 < c.counterLen ∧ c.counterLen < 256
  tag : c.tok.tag = none

/-- Nonces, signatures and identifiers have the lengths they should have, and the data of a request is not longer than 2^31 bytes. -/
structure Call.WF (c : Cfg) (op : Op) (e : Env) : Prop where
  nonce : e.tok.rngOut.length = c.tok.nonceLen
  sig : ∀ m s, e.tok.sign m = some s → s.length ≤ c.tok.sigMax
  uuid : ∀ u, e.uuid = some u → u.length ≤ 16
  data : ∀ d, op = .apply d → d.length < 2 ^ 31

/-- A history, the latest call first, and the state it leads to. At the beginning there is no token. -/
inductive Hist (c : Cfg) : List Call → AuthToken.St → Prop
  | init {s} : s.tokenLen = 0 → s.buffer.length = c.tok.bufLen → Hist c [] s
  | call {past s op e s' evs out} : Hist c past s → Call.WF c op e → step c s e op = (s', evs, out) → Hist c (⟨op, e, evs, out⟩ :: past) s'

/-- The call made token `T`. -/
def Call.Issues (x : Call) (T : Bytes) : Prop := .issued T ∈ x.evs
/-- The call asked the security manager to unlock the device with data `d`. -/
def Call.Unlocks (x : Call) (d : Bytes) : Prop := ∃ ok, .unlock d ok ∈ x.evs
/-- The call unlocked the device, or asked to lock it. -/
def Call.Ends (x : Call) : Prop := (∃ d, .unlock d true ∈ x.evs) ∨ ∃ ok, .lock ok ∈ x.evs

/-- A token made for this device: the context data, the nonce, and the signature of the device over both. -/
def MadeFrom (c : Cfg) (e : Env) (counter T : Bytes) : Prop :=
  ∃ u sig, e.uuid = some u ∧ e.tok.sign (contextOf c.oid u counter ++ e.tok.rngOut) = some sig ∧
    T = contextOf c.oid u counter ++ e.tok.rngOut ++ sig

/-- `T` is the token made last in a history, by call `y`, and the device was neither unlocked nor locked since. -/
def LastToken (past : List Call) (y : Call) (T : Bytes) : Prop :=
  ∃ since before, past = since ++ y :: before ∧ y.Issues T ∧ ∀ z ∈ since, (∀ T', ¬ z.Issues T') ∧ ¬ z.Ends

/-- Call `y` asked for a token while the device was locked and made `T`, which carries the next counter value `ctr`. -/
def MakesToken (c : Cfg) (y : Call) (ctr T : Bytes) : Prop :=
  ∃ buf old, y.op = .getToken buf ∧ y.env.counter = some old ∧ Locked old ∧ NextOdd old ctr ∧ ctr.length = c.counterLen ∧ MadeFrom c y.env ctr T

/-- `d` carries token `T` behind its first two bytes and ends with a signature of the authority over everything before. -/
def Carries (c : Cfg) (T d : Bytes) : Prop :=
  ∃ len rest sig, d = len ++ T ++ rest ++ sig ∧ len.length = 2 ∧ 2 ≤ rest.length ∧ sig ≠ [] ∧ c.tok.sigOk c.tok.authHash (len ++ T ++ rest) sig = true

/-- The authority signs nothing but containers. -/
def Honest (c : Cfg) : Prop :=
  ∀ m s, c.tok.sigOk c.tok.authHash m s = true → ∃ T P, T.length < 65536 ∧ P.length < 65536 ∧ m = container T P

/-! ### Return of a device -/

/-- `enc` is the identifier `oid` with tag and length in one of the forms for the length. -/
def IsOid (enc oid : Bytes) : Prop :=
  (oid.length < 128 ∧ enc = [0x06, UInt8.ofNat oid.length] ++ oid) ∨
  ∃ k, 1 ≤ k ∧ k ≤ 4 ∧ oid.length < 256 ^ k ∧ enc = [0x06, UInt8.ofNat (0x80 + k)] ++ toBE k oid.length ++ oid

/-- The data that names this device: type, format 1, "TSTR", identifier, hash of its public key. -/
def rmaBody (enc uuid dice : Bytes) : Bytes := enc ++ [1, 0] ++ [0x54, 0x53, 0x54, 0x52] ++ pad16 uuid ++ dice

end Verif.Unlock
