import Verif.CertBuild.Model
import Verif.Kdf.Model
import Verif.Base64.Model
/-!
Model of `core/riot/riot_core_common.c`: DICE layer 0, with the models of the certificate builder, the
key derivation and base64. HMAC, hash and ECC engine are parameters; every call can fail.

Null arguments are not modelled. A private key is a byte string; a failed key generation leaves the old
key in place. The length of an encoding is kept with it.
-/
namespace Verif.RiotCore
open Verif
open Verif.RiotDer Verif.CertBuild

/-- Signature hash and digest length for a key length: the switch in riot_core_common.c:389-414. -/
def params : Nat → Option (SigHash × Nat)
  | 32 => some (.sha256, 32)
  | 48 => some (.sha384, 48)
  | 66 => some (.sha512, 64)
  | _ => none

/-- The handler: key length, engines and extensions, riot_core_common.h:42-56. -/
structure Env where
  keyLen : Nat
  sig : SigHash
  digestLen : Nat
  hash : Bytes → Bytes
  /-- key, message -/
  hmac : Bytes → Bytes → Bytes
  /-- `generate_derived_key_pair` -/
  derive : Bytes → Option Bytes
  /-- `get_private_key_der` -/
  keyDer : Bytes → Bytes
  x : Engine
  devExt : List Builder
  aliasExt : List Builder

/-- What has lost its last reference without being released. -/
inductive Lost where
  | key (k : Bytes)
  | der (d : Bytes)
  | cert (c : Bytes)
deriving DecidableEq, Repr

/-- `struct riot_core_common_state`, riot_core_common.h:19-36. A key is there if its flag is set; a
certificate has its flag and its context. -/
structure St where
  cdi : Bytes
  name : Bytes
  devKey : Option Bytes
  devDer : Option Bytes
  devCtx : Option Bytes
  devCertValid : Bool
  aliasKey : Option Bytes
  aliasDer : Option Bytes
  aliasCtx : Option Bytes
  aliasCertValid : Bool
  lost : List Lost
deriving DecidableEq, Repr

/-- The cleared state, riot_core_common.c:387. -/
def St.initial : St := ⟨[], [], none, none, none, false, none, none, none, false, []⟩

/-- `riot_core_common_init_state`, riot_core_common.c:374-417. -/
def initState (keyLen : Nat) : Res Err (SigHash × Nat × St) :=
  match params keyLen with
  | some (s, n) => .ok (s, n, .initial)
  | none => .err (.code 20)

/-- Which calls fail. -/
structure Faults where
  /-- call on the hash engine for the CDI that fails: start, update, update, finish -/
  hash : Option Nat
  /-- HMAC of the FWID -/
  fwid : Bool
  /-- HMAC in a round of the derivation -/
  kdf : Nat → Bool
  derive : Bool
  der : Bool
  serial : Bool
  base64 : Bool
  /-- the certificate builder, after its check of the serial number -/
  cert : Bool

/-- Everything works. -/
def Faults.none : Faults := ⟨.none, false, fun _ => false, false, false, false, false, false⟩

/-- `RIOT_CORE_INVALID_ARGUMENT`. -/
def invalidArgument : Err := .code 21
/-- `RIOT_CORE_NO_DEVICE_ID`. -/
def noDeviceId : Err := .code 22
/-- `RIOT_CORE_NO_ALIAS_KEY`. -/
def noAliasKey : Err := .code 23
/-- An error of an engine. -/
def engineError : Err := .code 24

/-- `DEVICE_ID_KDF_LABEL`, riot_core_common.c:15. -/
def deviceLabel : Bytes := [0x44, 0x45, 0x56, 0x49, 0x43, 0x45, 0x20, 0x49, 0x44]
/-- `ALIAS_KDF_LABEL`, riot_core_common.c:20. -/
def aliasLabel : Bytes := [0x41, 0x4c, 0x49, 0x41, 0x53, 0x20, 0x4b, 0x45, 0x59]
/-- `DICE_KDF_CONTEXT`, riot_core_common.c:25. -/
def diceContext : Bytes := [0x44, 0x49, 0x43, 0x45]
/-- `RIOT_CORE_SERIAL_NUM_KDF_DATA`, riot_core.c:13-16. -/
def serialData : Bytes :=
  [0x00, 0x00, 0x00, 0x01, 0x53, 0x45, 0x52, 0x49, 0x41, 0x4c, 0x00, 0x52, 0x49, 0x4f, 0x54, 0x00, 0x00, 0x00, 0x40]

/-- Result, state and secrets left in local variables. -/
abbrev Result := Res Err Unit × St × List Bytes

/-- `cdi_kdf[0] &= 0x01` for a key length of 66, riot_core_common.c:131-135, 218-222. -/
def maskSeed (keyLen : Nat) (seed : Bytes) : Bytes :=
  if keyLen = 66 then writeAt seed 0 [seed.getD 0 0 &&& 0x01] else seed

/-- The text of a common name: base64 in a buffer of `BASE64_LENGTH (64)` bytes, up to the terminator
and at most 64 characters, riot_core_common.c:59-71, 244-254. -/
def commonName (digest : Bytes) : Option Bytes :=
  (Base64.encode digest 89).map fun out => (out.takeWhile (· ≠ 0)).take 64

/-- The outcome of a certificate that was to be created in a context: with an invalid serial number the
old context stays (x509_cert_build.c:668-673), after that it is gone. -/
def newCtx (serial : Bytes) (old : Option Bytes) (r : Out) : Option Bytes :=
  if serialOk serial = false then old
  else match r with
  | .ok c => some c.out
  | _ => none

/-- An overwritten context is lost, riot_core_common.c:73, 256. -/
def lostCtx (serial : Bytes) (old : Option Bytes) : List Lost :=
  if serialOk serial = false then [] else (old.map Lost.cert).toList

/-- The status of a certificate creation. -/
def statusOf : Out → Res Err Unit
  | .ok _ => .ok ()
  | .err e => .err e
  | .oob => .oob

/-- `riot_core_common_create_device_id_certificate`, riot_core_common.c:39-83, for the key `key` just
stored in the state. -/
def createDeviceCert (env : Env) (f : Faults) (key : Bytes) (st : St) : Res Err Unit × St :=
  let st := { st with lost := (st.devDer.map Lost.der).toList ++ st.lost }
  if f.der then (.err engineError, { st with devDer := none })
  else
    let der := env.keyDer key
    let st := { st with devDer := some der }
    if f.serial then (.err engineError, st)
    else
      let serial := env.hmac st.cdi serialData
      if f.base64 then (.err engineError, st)
      else match commonName (serial.take env.digestLen) with
      | none => (.err engineError, st)
      | some name =>
        let st := { st with name := name }
        let r := if serialOk (serial.take 8) = false then .err invalidSerial
          else if f.cert then .err engineError
          else (selfSigned env.x der env.sig (serial.take 8) name 1 env.devExt).1
        let st := { st with
          devCtx := newCtx (serial.take 8) st.devCtx r
          lost := lostCtx (serial.take 8) st.devCtx ++ st.lost }
        match r with
        | .ok _ => (.ok (), { st with devCertValid := true })
        | r => (statusOf r, st)

/-- `riot_core_common_generate_device_id`, riot_core_common.c:85-151. -/
def generateDeviceId (env : Env) (f : Faults) (cdi : Bytes) (st : St) : Result :=
  match cdi with
  | [] => (.err invalidArgument, st, [])
  | first :: _ =>
    match f.hash with
    | some 1 => (.err engineError, st, [[first]])
    | some _ => (.err engineError, st, [])
    | none =>
      let st := { st with cdi := env.hash cdi }
      match Kdf.counterMode (fun i m => if f.kdf i then none else some (env.hmac st.cdi m)) env.digestLen deviceLabel
          diceContext env.keyLen with
      | (.ok, seed) =>
        let seed := maskSeed env.keyLen seed
        match (if f.derive then none else env.derive seed) with
        | none => (.err engineError, st, [seed])
        | some key =>
          let st := { st with devKey := some key, lost := (st.devKey.map Lost.key).toList ++ st.lost }
          let (r, st) := createDeviceCert env f key st
          (r, st, [])
      | (_, seed) => (.err engineError, st, [seed])

/-- The certificate of the alias key, riot_core_common.c:231-266, for the key `key` just stored in the
state. A null encoding of the device key is refused, a null context dereferenced. -/
def createAliasCert (env : Env) (f : Faults) (fwidHmac key : Bytes) (st : St) : Res Err Unit × St :=
  let st := { st with lost := (st.aliasDer.map Lost.der).toList ++ st.lost }
  if f.der then (.err engineError, { st with aliasDer := none })
  else
    let der := env.keyDer key
    let st := { st with aliasDer := some der }
    if f.serial then (.err engineError, st)
    else
      let serial := env.hmac fwidHmac serialData
      if f.base64 then (.err engineError, st)
      else match commonName (serial.take env.digestLen) with
      | none => (.err engineError, st)
      | some name =>
        match st.devDer with
        | none => (.err invalidArgument, st)
        | some devDer =>
          let r := if serialOk (serial.take 8) = false then .err invalidSerial
            else if f.cert then .err engineError
            else match st.devCtx with
              | none => .oob
              | some ca => (caSigned env.x der (serial.take 8) name 0 devDer env.sig ca env.aliasExt).1
          let st := { st with
            aliasCtx := newCtx (serial.take 8) st.aliasCtx r
            lost := lostCtx (serial.take 8) st.aliasCtx ++ st.lost }
          match r with
          | .ok _ => (.ok (), { st with aliasCertValid := true })
          | r => (statusOf r, st)

/-- `riot_core_common_generate_alias_key`, riot_core_common.c:188-267. The local copies of secrets are
never cleared; the first bytes of the seed are overwritten with the serial number's HMAC if that is
computed, which is not modelled. -/
def generateAlias (env : Env) (f : Faults) (fwid : Bytes) (st : St) : Result :=
  if fwid = [] then (.err invalidArgument, st, [])
  else if st.devCertValid = false then (.err noDeviceId, st, [])
  else if f.fwid then (.err engineError, st, [])
  else
    let h := env.hmac st.cdi fwid
    match Kdf.counterMode (fun i m => if f.kdf i then none else some (env.hmac h m)) env.digestLen aliasLabel
        diceContext env.keyLen with
    | (.ok, seed) =>
      let seed := maskSeed env.keyLen seed
      match (if f.derive then none else env.derive seed) with
      | none => (.err engineError, st, [h, seed])
      | some key =>
        let st := { st with aliasKey := some key, lost := (st.aliasKey.map Lost.key).toList ++ st.lost }
        let (r, st) := createAliasCert env f h key st
        (r, st, [h])
    | (_, seed) => (.err engineError, st, [h, seed])

/-- A certificate handed out, x509_cert_build.c:940-967: a null context is dereferenced. -/
def certDer (ctx : Option Bytes) : Res Err Bytes :=
  match ctx with
  | some c => .ok c
  | none => .oob

/-- `riot_core_common_get_device_id_cert`, riot_core_common.c:171-186. -/
def getDeviceCert (st : St) : Res Err Bytes := if st.devCertValid then certDer st.devCtx else .err noDeviceId

/-- `riot_core_common_get_alias_key_cert`, riot_core_common.c:292-307. -/
def getAliasCert (st : St) : Res Err Bytes := if st.aliasCertValid then certDer st.aliasCtx else .err noAliasKey

/-- `riot_core_common_get_alias_key`, riot_core_common.c:269-290. -/
def getAliasKey (st : St) : Res Err Bytes :=
  match st.aliasDer with
  | some d => .ok d
  | none => .err noAliasKey

/-- `riot_core_common_get_device_id_csr`, riot_core_common.c:153-169. -/
def getCsr (env : Env) (eku : Option Bytes) (st : St) : Res Err Ctx :=
  match st.devDer with
  | none => .err noDeviceId
  | some der => (createCsr env.x der env.sig st.name 1 eku env.devExt).1

/-- `riot_core_common_release`, riot_core_common.c:428-458: the contents of the encodings when they are
freed, and the state. -/
def release (st : St) : List Bytes × St :=
  ((st.devDer.map fun d => List.replicate d.length (0 : UInt8)).toList ++ st.aliasDer.toList, .initial)

/-- Calls that change the state. -/
inductive Op where
  | device (f : Faults) (cdi : Bytes)
  | alias (f : Faults) (fwid : Bytes)

/-- One call. -/
def step (env : Env) (st : St) : Op → St
  | .device f cdi => (generateDeviceId env f cdi st).2.1
  | .alias f fwid => (generateAlias env f fwid st).2.1

end Verif.RiotCore
