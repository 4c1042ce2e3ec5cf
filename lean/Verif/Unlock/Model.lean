import Verif.AuthToken.Model
import Verif.Asn1.Model
import Verif.CommonMath.Model
/-! Unlocking a device: `core/system/device_unlock_token.c`, `core/system/secure_device_unlock_policy.c`, `core/rma/rma_unlock_token.c`,
`core/rma/secure_device_unlock_rma.c` and `core/rma/authorized_execution_rma.c`, on top of the tokens of `core/common/auth_token.c`.

Not modelled: null arguments, log entries, and the set-up functions (they store their arguments). `size_t` has 32 bits. -/
namespace Verif.Unlock
open Verif.AuthToken (SZ)

/-- The status codes a caller can tell apart. -/
inductive Err
  | badAuthData | invalidCounter | smallBuffer | noMemory | notLocked | counterExhausted | unsupported
  | asn1 (e : Asn1.Err) | auth (e : AuthToken.Err) | uuid | manager
  | badTokenData | deviceMismatch | engine | badSignature | noSignature | rma
  deriving DecidableEq, Repr

abbrev R := Res Err

/-- A little endian 16-bit read, `buffer_unaligned_read16` (buffer_util.c). -/
def rd16 (d : Bytes) (off : Nat) : R Nat := do
  let a ← rd d off
  let b ← rd d (off + 1)
  return a.toNat + 256 * b.toNat

/-- `device_unlock_token_parse_auth_data_field`, device_unlock_token.c:62-74: the offset behind the field. The field length goes through a
`uint16_t`. -/
def field (length off fieldLen : Nat) : R Nat :=
  if length < (off + fieldLen % 65536) % SZ then .err .badAuthData else .ok ((off + fieldLen % 65536) % SZ)

/-- The result of `device_unlock_token_parse_authorized_data`: where things are in the container. -/
structure Container where
  tokenOff : Nat
  tokenLen : Nat
  policyOff : Nat
  policyLen : Nat
  deriving DecidableEq, Repr

/-- `device_unlock_token_parse_authorized_data`, device_unlock_token.c:87-105. -/
def parseContainer (d : Bytes) : R Container := do
  let o1 ← field d.length 0 2
  let tl ← rd16 d 0
  let o2 ← field d.length o1 tl
  let o3 ← field d.length o2 2
  let pl ← rd16 d o2
  let _ ← field d.length o3 pl
  return ⟨o1, tl, o3, pl⟩

/-- The fields of a token: offset and length of the counter, offset of the nonce (device_unlock_token.c:31-44). -/
structure TokenFields where
  counterOff : Nat
  counterLen : Nat
  nonceOff : Nat
  deriving DecidableEq, Repr

/-- The second half of `device_unlock_token_parse_authorized_data_and_token`, device_unlock_token.c:131-154, for the token `t`: all accesses are
inside the token. A length that is no valid DER header (the only error `asn1_get_der_item_len` reports) and a length longer than the token, compared
as `size_t`, are refused. -/
def parseToken (t : Bytes) : R TokenFields := do
  match Asn1.itemLen 32 t with
  | .err _ => .err .badAuthData
  | .oob => .oob
  | .ok oidLen =>
    if t.length < oidLen then .err .badAuthData
    else
      let o1 ← field t.length 0 oidLen
      let o2 ← field t.length o1 2
      let o3 ← field t.length o2 16
      let o4 ← field t.length o3 1
      let cl ← rd t o3
      let o5 ← field t.length o4 cl.toNat
      let _ ← field t.length o5 32
      return ⟨o4, cl.toNat, o5⟩

/-- `device_unlock_token_parse_authorized_data_and_token`, device_unlock_token.c:118-155: the token and the fields in it. -/
def parseAll (d : Bytes) : R (Bytes × TokenFields) := do
  let c ← parseContainer d
  let t ← rdN d c.tokenOff c.tokenLen
  let f ← parseToken t
  return (t, f)

/-- `device_unlock_token_get_unlock_counter`, device_unlock_token.c:363-382: the bytes the returned pointer and length denote. -/
def getUnlockCounter (d : Bytes) : R Bytes := do
  let (t, f) ← parseAll d
  rdN t f.counterOff f.counterLen

/-- `device_unlock_token_get_nonce`, device_unlock_token.c:396-415. -/
def getNonce (d : Bytes) : R Bytes := do
  let (t, f) ← parseAll d
  rdN t f.nonceOff 32

/-- `device_unlock_token_get_unlock_policy`, device_unlock_token.c:428-447. -/
def getUnlockPolicy (d : Bytes) : R Bytes := do
  let c ← parseContainer d
  rdN d c.policyOff c.policyLen

/-- `struct device_unlock_token`, device_unlock_token.h:41-49; `tok` is the authorization token manager with the hash algorithm `auth_hash`. -/
structure Cfg where
  tok : AuthToken.Cfg
  oid : Bytes
  counterLen : Nat

/-- `data_length`, device_unlock_token.c:189 and device_unlock_token.h:33-35. -/
def Cfg.dataLength (c : Cfg) : Nat := 2 + c.oid.length + 2 + 16 + 1 + c.counterLen

/-- What the outside world does during one call. `counter` is what the security manager puts into the buffer for the unlock counter and `uuid` what the
device puts into the buffer for its identifier (`none`: failure); the security manager unlocks or locks the device or fails. -/
structure Env where
  tok : AuthToken.Env
  memory : Bool
  counter : Option Bytes
  uuid : Option Bytes
  unlockOk : Bool
  lockOk : Bool

/-- What a call does that can be seen from outside: a token was made (at some time), the security manager was asked to unlock the device with this data, or
to lock it; the flag tells whether it did. -/
inductive Ev
  | issued (token : Bytes)
  | unlock (data : Bytes) (done : Bool)
  | lock (done : Bool)
  deriving DecidableEq, Repr

/-- Building the context data of a token in the output buffer, device_unlock_token.c:265-286. -/
def tokenContext (c : Cfg) (uuid : Option Bytes) (counter : Bytes) (buf : Bytes) : R Bytes := do
  let (n, b) ← (match Asn1.encodeOid c.oid (buf.take c.dataLength) with
    | .ok x => .ok x
    | .err e => .err (.asn1 e)
    | .oob => .oob : R (Nat × Bytes))
  let b := b ++ buf.drop c.dataLength
  let b ← wrN b n [1, 0]
  let b ← wrN b (n + 2) (List.replicate 16 0)
  match uuid with
  | none => .err .uuid
  | some u =>
    let b ← wrN b (n + 2) u
    let b ← wrN b (n + 18) [UInt8.ofNat c.counterLen]
    wrN b (n + 19) (counter.take c.counterLen)

/-- `device_unlock_token_generate`, device_unlock_token.c:236-303. The result is the token as copied to the buffer. -/
def generate (c : Cfg) (s : AuthToken.St) (e : Env) (counter buf : Bytes) : AuthToken.St × List Ev × R Bytes :=
  if counter.length ≠ c.counterLen then (s, [], .err .invalidCounter)
  else if buf.length < c.dataLength then (s, [], .err .smallBuffer)
  else
    match tokenContext c e.uuid counter buf with
    | .err x => (s, [], .err x)
    | .oob => (s, [], .oob)
    | .ok b =>
      match AuthToken.newToken c.tok s e.tok (some (b.take c.dataLength)) with
      | (s', .error x) => (s', [], .err (.auth x))
      | (s', .ok t) =>
        if buf.length < t.length then (s', [.issued t], .err .smallBuffer)
        else (s', [.issued t], do
          let b ← wrN b 0 t
          return b.take t.length)

/-- `device_unlock_token_authenicate`, device_unlock_token.c:314-332. -/
def authenticate (c : Cfg) (s : AuthToken.St) (e : Env) (d : Bytes) : R Unit := do
  let p ← parseContainer d
  match AuthToken.verifyData c.tok s e.tok d 2 (2 + p.policyLen) with
  | .ok () => .ok ()
  | .error .overread => .oob
  | .error x => .err (.auth x)

/-- `secure_device_unlock_policy_get_unlock_token`, secure_device_unlock_policy.c:13-61. -/
def policyGetToken (c : Cfg) (s : AuthToken.St) (e : Env) (buf : Bytes) : AuthToken.St × List Ev × R Bytes :=
  if e.memory = false then (s, [], .err .noMemory)
  else match e.counter with
    | none => (s, [], .err .manager)
    | some ctr =>
      if CommonMath.numContiguousInArray ctr % 2 ≠ 0 then (s, [], .err .notLocked)
      else
        let r := CommonMath.setNextBitOddCount ctr
        if r.1 = .outOfRange then (s, [], .err .counterExhausted)
        else generate c s e r.2 buf

/-- `secure_device_unlock_policy_apply_unlock_policy`, secure_device_unlock_policy.c:63-94. The token manager cannot fail to invalidate
(auth_token.c:132-141). -/
def policyApply (c : Cfg) (s : AuthToken.St) (e : Env) (d : Bytes) : AuthToken.St × List Ev × R Bytes :=
  match authenticate c s e d with
  | .err x => (s, [], .err x)
  | .oob => (s, [], .oob)
  | .ok () =>
    if e.unlockOk then (AuthToken.invalidate s, [.unlock d true], .ok [])
    else (s, [.unlock d false], .err .manager)

/-- `secure_device_unlock_policy_clear_unlock_policy`, secure_device_unlock_policy.c:96-114. -/
def policyClear (s : AuthToken.St) (e : Env) : AuthToken.St × List Ev × R Bytes :=
  (AuthToken.invalidate s, [.lock e.lockOk], if e.lockOk then .ok [] else .err .manager)

/-- The three operations of the interface (secure_device_unlock.h). -/
inductive Op
  | getToken (buf : Bytes)
  | apply (data : Bytes)
  | clear
  deriving DecidableEq, Repr

/-- One call: the new state, what was seen from outside, and the answer. -/
def step (c : Cfg) (s : AuthToken.St) (e : Env) : Op → AuthToken.St × List Ev × R Bytes
  | .getToken buf => policyGetToken c s e buf
  | .apply d => policyApply c s e d
  | .clear => policyClear s e

/-! ### Return of a device (RMA) -/

/-- `struct rma_unlock_token` (rma_unlock_token.h): `sigOk` is the signature check with the key of the authority; `signed` tells which of the two set-up
functions was used (rma_unlock_token.c:185-249). -/
structure RmaCfg where
  oid : Bytes
  dice : Bytes
  hash : Nat
  sigOk : Nat → Bytes → Bytes → Bool
  signed : Bool

/-- What the outside world does: the device identifier, failures of hash or signature engine, and whether the transition works. -/
structure RmaEnv where
  uuid : Option Bytes
  engineFails : Bool
  rmaOk : Bool

/-- A little endian 32-bit read, `buffer_unaligned_read32` (buffer_util.c). -/
def rd32 (d : Bytes) (off : Nat) : R Nat := do
  let a ← rd16 d off
  let b ← rd16 d (off + 2)
  return a + 65536 * b

/-- `buffer_compare` of `n` bytes of the data with a stored value (buffer_util.c; rma_unlock_token.c:75, 109, 121). -/
def sameAs (d : Bytes) (off : Nat) (x : Bytes) : R Bool := do
  let y ← rdN d off x.length
  return decide (y = x)

/-- `rma_unlock_token_validate_token_data`, rma_unlock_token.c:39-130: the end of the token data. -/
def validateTokenData (c : RmaCfg) (e : RmaEnv) (d : Bytes) : R Nat := do
  match e.uuid with
  | none => .err .uuid
  | some u =>
    let uuid := u ++ List.replicate (16 - u.length) 0
    match Asn1.decodeOid 32 d with
    | .err _ => .err .badTokenData
    | .oob => .oob
    | .ok (off, len) =>
      if c.oid.length ≠ len then .err .deviceMismatch
      else
        let m ← sameAs d off c.oid
        if m = false then .err .deviceMismatch
        else
          let o := off + len
          if d.length < o + 2 then .err .badTokenData
          else
            let f ← rd16 d o
            if f ≠ 1 then .err .badTokenData
            else if d.length < o + 2 + 4 then .err .badTokenData
            else
              let g ← rd32 d (o + 2)
              if g ≠ 0x52545354 then .err .badTokenData
              else if d.length < o + 6 + 16 then .err .badTokenData
              else
                let m ← sameAs d (o + 6) uuid
                if m = false then .err .deviceMismatch
                else if d.length < o + 22 + c.dice.length then .err .badTokenData
                else
                  let m ← sameAs d (o + 22) c.dice
                  if m = false then .err .deviceMismatch
                  else return o + 22 + c.dice.length

/-- `rma_unlock_token_authenticate`, rma_unlock_token.c:132-147 with `signature_verification_verify_message`, signature_verification.c:27-52. -/
def rmaAuthenticateSigned (c : RmaCfg) (e : RmaEnv) (d : Bytes) : R Unit := do
  let n ← validateTokenData c e d
  if d.length - n = 0 then .err .noSignature
  else if e.engineFails then .err .engine
  else
    let m ← rdN d 0 n
    let s ← rdN d n (d.length - n)
    if c.sigOk c.hash m s then .ok () else .err .badSignature

/-- `rma_unlock_token_authenticate_no_signature`, rma_unlock_token.c:149-162. -/
def rmaAuthenticateUnsigned (c : RmaCfg) (e : RmaEnv) (d : Bytes) : R Unit := do
  let n ← validateTokenData c e d
  if n ≠ d.length then .err .badTokenData else .ok ()

/-- The `authenticate` function of the handler, rma_unlock_token.c:198, 240. -/
def rmaAuthenticate (c : RmaCfg) (e : RmaEnv) (d : Bytes) : R Unit :=
  if c.signed then rmaAuthenticateSigned c e d else rmaAuthenticateUnsigned c e d

/-- `secure_device_unlock_rma_apply_unlock_policy`, secure_device_unlock_rma.c:30-47, and `authorized_execution_rma_execute`,
authorized_execution_rma.c:11-45 (they differ in log entries only): whether the device was moved to the RMA state is the first component. -/
def rmaApply (c : RmaCfg) (e : RmaEnv) (d : Bytes) : Bool × R Unit :=
  match rmaAuthenticate c e d with
  | .ok () => (true, if e.rmaOk then .ok () else .err .rma)
  | r => (false, r)

/-- `authorized_execution_rma_validate_data`, authorized_execution_rma.c:47-58. -/
def rmaValidate (c : RmaCfg) (e : RmaEnv) (d : Bytes) : R Unit := rmaAuthenticate c e d

/-- `secure_device_unlock_rma_get_unlock_token`, secure_device_unlock_rma.c:11-28: the CSR of the device is the token. -/
def rmaGetToken (csr buf : Bytes) : R Bytes :=
  if buf.length < csr.length then .err .smallBuffer
  else do
    let b ← wrN buf 0 csr
    return b.take csr.length

/-- `secure_device_unlock_rma_clear_unlock_policy`, secure_device_unlock_rma.c:49-56. -/
def rmaClear : R Unit := .err .unsupported

end Verif.Unlock
