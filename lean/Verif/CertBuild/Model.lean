import Verif.RiotDer.Lemmas
import Verif.RiotDer.Dec
/-!
Model of `core/asn1/x509_cert_build.c`: certificates and signing requests put together with the DER
builder.

Null pointers are not modelled (the argument checks at the top of each function), nor the contents of
a certificate context after a failure. The ECC and hash engines and the allocator are parameters. A
certificate type is not negative.
-/
namespace Verif.CertBuild
open Verif
open Verif.RiotDer

/-- `struct x509_extension`, filled by an extension builder. -/
structure Ext where
  critical : Bool
  oid : Bytes
  data : Bytes
deriving DecidableEq, Repr

/-- An entry of `extra_extensions`: null, or a builder and what its `build` function gives. -/
abbrev Builder := Option (Res Err Ext)

/-- Hash algorithms for signatures; the others are refused. -/
inductive SigHash where
  | sha256
  | sha384
  | sha512
  | other
deriving DecidableEq, Repr

/-- The `switch` on `sig_hash`, x509_cert_build.c:474-489, 651-666, 767-782, with the OIDs of
RiotX509Bldr.c:17-19. -/
def SigHash.oid : SigHash → Option (List Nat)
  | .sha256 => some [1, 2, 840, 10045, 4, 3, 2]
  | .sha384 => some [1, 2, 840, 10045, 4, 3, 3]
  | .sha512 => some [1, 2, 840, 10045, 4, 3, 4]
  | .other => none

/-- Status codes used here: `X509_ENGINE_UNSUPPORTED_SIG_HASH`. -/
def unsupportedSigHash : Err := .code 1
/-- `X509_ENGINE_INVALID_SERIAL_NUM`. -/
def invalidSerial : Err := .code 2
/-- `X509_ENGINE_NO_MEMORY`. -/
def noMemory : Err := .code 3
/-- `X509_ENGINE_CSR_FAILED`, `X509_ENGINE_SELF_SIGNED_FAILED`, `X509_ENGINE_CA_SIGNED_FAILED`. -/
def buildFailed : Err := .code 4
/-- An error of `ecc_der_decode_public_key_no_copy`. -/
def badKeyDer : Err := .code 5
/-- `X509_ENGINE_NOT_CA_CERT`. -/
def notCaCert : Err := .code 6

/-- `X509_CERT_CA_NO_PATHLEN`, x509.h:26. -/
def noPathLen : Nat := 17

/-- `x509_cert_build_add_subject_key_identifier_extension`, x509_cert_build.c:91-110. -/
def addSki (id : Bytes) : Ctx → Out := calls
  [startSequenceOrSet true, addOID [2, 5, 29, 14], startEnvelopingOctetString, addOctetString id, popNesting,
   popNesting]

/-- `x509_cert_build_add_authority_key_identifier_extension`, x509_cert_build.c:122-143. -/
def addAki (id : Bytes) : Ctx → Out := calls
  [startSequenceOrSet true, addOID [2, 5, 29, 35], startEnvelopingOctetString, startSequenceOrSet true,
   addAuthKeyBitString id, popNesting, popNesting, popNesting]

/-- `x509_cert_build_add_key_usage_extension`, x509_cert_build.c:153-183; the values are those of
RiotX509Bldr.h:28-29. -/
def addKeyUsage (type : Nat) : Ctx → Out := calls
  [startSequenceOrSet true, addOID [2, 5, 29, 15], addBoolean true, startEnvelopingOctetString,
   (if type ≠ 0 then addNamedBitString [0x04] 6 else addNamedBitString [0x88] 5), popNesting, popNesting]

/-- `x509_cert_build_add_extended_key_usage_extension`, x509_cert_build.c:195-219, not critical, as
called at line 367. -/
def addEku (oid : Bytes) : Ctx → Out := calls
  [startSequenceOrSet true, addOID [2, 5, 29, 37], startEnvelopingOctetString, startSequenceOrSet true,
   addEncodedOID oid, popNesting, popNesting, popNesting]

/-- The optional path length, x509_cert_build.c:242-244. -/
def pathLenCall (type : Nat) : List (Ctx → Out) :=
  if type < noPathLen then [addInteger (UInt32.ofNat (type - 1))] else []

/-- `x509_cert_build_add_basic_constraints_extension`, x509_cert_build.c:229-256. -/
def addConstraints (type : Nat) : Ctx → Out :=
  if type ≠ 0 then calls
    (startSequenceOrSet true :: addOID [2, 5, 29, 19] :: addBoolean true :: startEnvelopingOctetString ::
      startSequenceOrSet true :: addBoolean true :: (pathLenCall type ++ [popNesting, popNesting, popNesting]))
  else .ok

/-- The calls for an extension that has been built, x509_cert_build.c:283-289. -/
def addBuilt (e : Ext) : Ctx → Out := calls
  (startSequenceOrSet true :: addEncodedOID e.oid :: ((if e.critical then [addBoolean true] else []) ++
    [addOctetString e.data, popNesting]))

/-- `x509_cert_build_add_custom_extension`, x509_cert_build.c:266-300. -/
def addCustom (b : Builder) (c : Ctx) : Out :=
  match b with
  | none => .ok c
  | some r => r >>= fun e => addBuilt e c

/-- `x509_cert_build_add_x509_name`, x509_cert_build.c:310-330. -/
def addName (cn : Bytes) : Ctx → Out := calls
  [startSequenceOrSet true, startSequenceOrSet false, startSequenceOrSet true, addOID [2, 5, 4, 3],
   addUTF8String cn, popNesting, popNesting, popNesting]

/-- `x509_cert_build_build_csr_tbs_data`, x509_cert_build.c:347-388. -/
def csrTbs (subject pubKey : Bytes) (type : Nat) (eku : Option Bytes) (extra : List Builder) : Ctx → Out := calls
  (startSequenceOrSet true :: addInteger 0 :: addName subject :: addDER pubKey :: startExplicit 0 ::
    startSequenceOrSet true :: addOID [1, 2, 840, 113549, 1, 9, 14] :: startSequenceOrSet false ::
    startSequenceOrSet true :: addKeyUsage type :: ((eku.map addEku).toList ++
      (addConstraints type :: (extra.map addCustom ++
        [popNesting, popNesting, popNesting, popNesting, popNesting]))))

/-- `VALID_FROM`, x509_cert_build.c:23: "180101000000Z". -/
def validFrom : Bytes := [49, 56, 48, 49, 48, 49, 48, 48, 48, 48, 48, 48, 90]
/-- `VALID_TO`, x509_cert_build.c:24: "99991231235959Z". -/
def validTo : Bytes := [57, 57, 57, 57, 49, 50, 51, 49, 50, 51, 53, 57, 53, 57, 90]

/-- `x509_cert_build_build_certificate_tbs_data`, x509_cert_build.c:580-625. -/
def certTbs (issuer authKeyId subject subjectKeyId serial pubKey : Bytes) (sigOid : List Nat) (type : Nat)
    (extra : List Builder) : Ctx → Out := calls
  (startSequenceOrSet true :: addShortExplicitInteger 2 :: addIntegerFromArray serial ::
    startSequenceOrSet true :: addOID sigOid :: popNesting :: addName issuer ::
    startSequenceOrSet true :: addTime validFrom :: addTime validTo :: popNesting :: addName subject ::
    addDER pubKey :: startExplicit 3 :: startSequenceOrSet true :: addSki subjectKeyId :: addAki authKeyId ::
    addKeyUsage type :: addConstraints type :: (extra.map addCustom ++ [popNesting, popNesting, popNesting]))

/-- The calls after the signature has been made, x509_cert_build.c:420-425. -/
def wrapSigned (sigOid : List Nat) (sig : Bytes) : Ctx → Out := calls
  [tbsToCert, startSequenceOrSet true, addOID sigOid, popNesting, addBitString sig, popNesting]

/-- `x509_cert_build_sign_certificate`, x509_cert_build.c:404-436: the signature covers what has been
encoded so far. -/
def signCertificate (sign : Bytes → Except Nat Bytes) (sigOid : List Nat) (c : Ctx) : Out :=
  match sign c.out with
  | .error e => .err (.code e)
  | .ok sig => wrapSigned sigOid sig c

/-- The engines and the allocator. Keys are given by their DER encoding. -/
structure Engine where
  /-- `max_cert_length` -/
  maxCert : Nat
  /-- `ecc->init_key_pair` on a private key -/
  initKey : Bytes → Except Nat Unit
  /-- `ecc->get_public_key_der` for the key pair of a private key -/
  pubDer : Bytes → Except Nat Bytes
  /-- `ecc_der_decode_public_key_no_copy` -/
  decodePub : Bytes → Option Bytes
  /-- `hash->calculate_sha1` -/
  sha1 : Bytes → Except Nat Bytes
  /-- `ecdsa_sign_message` -/
  sign : SigHash → Bytes → Bytes → Except Nat Bytes
  /-- both allocations of `x509_cert_build_new_cert`, x509_cert_build.c:41-61, succeed (if only the
  first does, it is undone there) -/
  ctxMem : Bool
  /-- allocation in `DERDECGetSubjectName` -/
  malloc : Nat → Bool

/-- Things that have to be given back. -/
inductive Obj where
  /-- the key pair of the signing key -/
  | keyPair
  /-- the DER encoding of its public key -/
  | keyDer
  /-- the DER encoding of the subject's public key, if made here -/
  | subjectDer
  /-- the issuer name -/
  | issuer
  /-- the certificate context -/
  | cert
deriving DecidableEq, Repr

/-- -1 becomes the error of the function, x509_cert_build.c:511, 708, 714, 862, 868. -/
def mapErr : Out → Out
  | .err .der => .err buildFailed
  | r => r

/-- `x509_cert_build_check_serial_number`, x509_cert_build.c:546-559. -/
def serialOk (serial : Bytes) : Bool := serial.any (· ≠ 0)

/-- Build and sign in a new context: x509_cert_build.c:508-519, 704-716, 858-870. -/
def buildAndSign (e : Engine) (hash : SigHash) (priv : Bytes) (sigOid : List Nat) (tbs : Ctx → Out) : Out :=
  mapErr (tbs (init e.maxCert) >>= signCertificate (e.sign hash priv) sigOid)

/-- Result of a function and what is left allocated when it returns. -/
abbrev Result := Out × List Obj

/-- `err_free_cert` and below: the context is kept on success, x509_cert_build.c:718-728. -/
def finish (r : Out) (others : List Obj) : Result :=
  match r with
  | .ok c => (.ok c, .cert :: others)
  | r => (r, others)

/-- `x509_cert_build_create_csr`, x509_cert_build.c:438-536. The buffer of the context is handed to the
caller and the context freed; the buffer counts as `cert` here. -/
def createCsr (e : Engine) (priv : Bytes) (hash : SigHash) (name : Bytes) (type : Nat) (eku : Option Bytes)
    (extra : List Builder) : Result :=
  if type = 0 ∧ eku.isSome then (.err notCaCert, [])
  else match hash.oid with
  | none => (.err unsupportedSigHash, [])
  | some sigOid =>
    match e.initKey priv with
    | .error s => (.err (.code s), [])
    | .ok _ =>
      match e.pubDer priv with
      | .error s => (.err (.code s), [])
      | .ok keyDer =>
        if e.ctxMem then finish (buildAndSign e hash priv sigOid (csrTbs name keyDer type eku extra)) []
        else (.err noMemory, [])

/-- `x509_cert_build_create_self_signed_certificate`, x509_cert_build.c:627-731. A key that cannot be
decoded goes to `err_free_key`, past the release of its DER encoding (line 689). -/
def selfSigned (e : Engine) (priv : Bytes) (hash : SigHash) (serial name : Bytes) (type : Nat)
    (extra : List Builder) : Result :=
  match hash.oid with
  | none => (.err unsupportedSigHash, [])
  | some sigOid =>
    if serialOk serial = false then (.err invalidSerial, [])
    else match e.initKey priv with
    | .error s => (.err (.code s), [])
    | .ok _ =>
      match e.pubDer priv with
      | .error s => (.err (.code s), [])
      | .ok keyDer =>
        match e.decodePub keyDer with
        | none => (.err badKeyDer, [.keyDer])
        | some key =>
          match e.sha1 key with
          | .error s => (.err (.code s), [])
          | .ok digest =>
            if e.ctxMem then
              finish (buildAndSign e hash priv sigOid (certTbs name digest name digest serial keyDer sigOid type extra)) []
            else (.err noMemory, [])

/-- The subject's key, x509_cert_build.c:815-838: a public key encoding as it is, or else the public
key of a private key. Gives the DER encoding, the raw key and whether the encoding was made here. -/
def subjectKey (e : Engine) (key : Bytes) : Res Err (Bytes × Bytes × Bool) × List Obj :=
  match Dec.getPubKey key with
  | .oob => (.oob, [])
  | .ok (off, len) =>
    if off + len ≤ key.length then (.ok (key, window key off len, false), []) else (.oob, [])
  | .err _ =>
    match e.initKey key with
    | .error s => (.err (.code s), [])
    | .ok _ =>
      match e.pubDer key with
      | .error s => (.err (.code s), [])
      | .ok der =>
        match e.decodePub der with
        | none => (.err badKeyDer, [])
        | some raw => (.ok (der, raw, true), [])

/-- `x509_cert_build_create_ca_signed_certificate`, x509_cert_build.c:733-890. `ca` is the encoding
held by `ca_cert`. A signing key that cannot be decoded leaks its DER encoding (line 806). A length
of the subject's key beyond its encoding makes the hash read outside it (`subjectKey`). -/
def caSigned (e : Engine) (key serial name : Bytes) (type : Nat) (caPriv : Bytes) (hash : SigHash) (ca : Bytes)
    (extra : List Builder) : Result :=
  match hash.oid with
  | none => (.err unsupportedSigHash, [])
  | some sigOid =>
    if serialOk serial = false then (.err invalidSerial, [])
    else match e.initKey caPriv with
    | .error s => (.err (.code s), [])
    | .ok _ =>
      match e.pubDer caPriv with
      | .error s => (.err (.code s), [])
      | .ok authDer =>
        match e.decodePub authDer with
        | none => (.err badKeyDer, [.keyDer])
        | some authKey =>
          match e.sha1 authKey with
          | .error s => (.err (.code s), [])
          | .ok authDigest =>
            match subjectKey e key with
            | (.oob, l) => (.oob, l)
            | (.err s, l) => (.err s, l)
            | (.ok (subjDer, subjKey, _), _) =>
              match e.sha1 subjKey with
              | .error s => (.err (.code s), [])
              | .ok subjDigest =>
                match Dec.getSubjectName e.malloc ca with
                | .oob => (.oob, [])
                | .err _ => (.err buildFailed, [])
                | .ok issuer =>
                  if e.ctxMem then
                    finish (buildAndSign e hash caPriv sigOid
                      (certTbs issuer authDigest name subjDigest serial subjDer sigOid type extra)) []
                  else (.err noMemory, [])

/-- `x509_cert_build_load_certificate`, x509_cert_build.c:893-926: the stored encoding. -/
def loadCertificate (e : Engine) (der : Bytes) : Res Err Bytes :=
  if der.length > e.maxCert then .err (.code 7)
  else match Dec.verifyCert der with
    | .oob => .oob
    | .err _ => .err (.code 8)
    | .ok _ => if e.ctxMem then .ok der else .err noMemory

end Verif.CertBuild
