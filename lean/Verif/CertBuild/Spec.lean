import Verif.RiotDer.Spec
/-!
X.509 certificates and certification requests (RFC 5280, RFC 2986), as the structures a device issues
are meant to be. Only DER and numbers; nothing refers to the model.
-/
namespace Verif.CertBuild.Spec
open Verif
open Verif.RiotDer.Spec

/-- A name with a single common name. -/
def name (cn : Bytes) : Bytes := seq [set [seq [oid [2, 5, 4, 3], utf8 cn]]]

/-- AlgorithmIdentifier without parameters. -/
def algorithm (arcs : List Nat) : Bytes := seq [oid arcs]

/-- Extension ::= SEQUENCE { extnID, critical DEFAULT FALSE, extnValue OCTET STRING }. -/
def extension (id : Bytes) (critical : Bool) (value : Bytes) : Bytes :=
  seq ([id] ++ (if critical then [bool true] else []) ++ [octets value])

/-- Subject key identifier. -/
def subjectKeyId (digest : Bytes) : Bytes := extension (oid [2, 5, 29, 14]) false (octets digest)
/-- Authority key identifier with only `keyIdentifier [0]`. -/
def authorityKeyId (digest : Bytes) : Bytes := extension (oid [2, 5, 29, 35]) false (seq [tlv 0x80 digest])

/-- Key usage, critical: keyCertSign (bit 5) for a CA, digitalSignature and keyAgreement (bits 0 and
4) for an end entity. -/
def keyUsage (ca : Bool) : Bytes :=
  extension (oid [2, 5, 29, 15]) true (if ca then bits 2 [0x04] else bits 3 [0x88])

/-- Basic constraints of a CA, critical, with or without a path length. -/
def basicConstraints (pathLen : Option Nat) : Bytes :=
  extension (oid [2, 5, 29, 19]) true
    (seq ([bool true] ++ (match pathLen with | some n => [int n] | none => [])))

/-- Extended key usage with one purpose. -/
def extendedKeyUsage (purpose : Bytes) : Bytes :=
  extension (oid [2, 5, 29, 37]) false (seq [tlv 0x06 purpose])

/-- What a certificate is for: an end entity, or a CA with an optional path length. -/
inductive Role where
  | endEntity
  | ca (pathLen : Option Nat)
deriving DecidableEq, Repr

/-- Is it a CA? -/
def Role.isCa : Role → Bool
  | .endEntity => false
  | .ca _ => true

/-- Basic constraints are only there for a CA. -/
def Role.constraints : Role → List Bytes
  | .endEntity => []
  | .ca p => [basicConstraints p]

/-- A further extension: encoded OID, criticality and value. -/
structure Extra where
  oid : Bytes
  critical : Bool
  value : Bytes
deriving DecidableEq, Repr

/-- Its encoding. -/
def Extra.der (e : Extra) : Bytes := extension (tlv 0x06 e.oid) e.critical e.value

/-- Validity from 2018-01-01 on, without an end. -/
def validity : Bytes :=
  seq [tlv 0x17 [49, 56, 48, 49, 48, 49, 48, 48, 48, 48, 48, 48, 90],
       tlv 0x18 [57, 57, 57, 57, 49, 50, 51, 49, 50, 51, 53, 57, 53, 57, 90]]

/-- What a certificate says. -/
structure Fields where
  serial : Nat
  sigAlg : List Nat
  issuer : Bytes
  subject : Bytes
  publicKeyInfo : Bytes
  subjectKeyDigest : Bytes
  authorityKeyDigest : Bytes
  role : Role
  extras : List Extra

/-- TBSCertificate, version 3. -/
def tbs (f : Fields) : Bytes :=
  seq [explicit 0 [int 2], int f.serial, algorithm f.sigAlg, name f.issuer, validity, name f.subject,
    f.publicKeyInfo,
    explicit 3 [seq ([subjectKeyId f.subjectKeyDigest, authorityKeyId f.authorityKeyDigest,
      keyUsage f.role.isCa] ++ f.role.constraints ++ f.extras.map Extra.der)]]

/-- Certificate: what is signed, the algorithm, the signature. -/
def signed (tbs : Bytes) (sigAlg : List Nat) (sig : Bytes) : Bytes :=
  seq [tbs, algorithm sigAlg, bits 0 sig]

/-- CertificationRequestInfo with an extension request. -/
def requestInfo (subject publicKeyInfo : Bytes) (role : Role) (eku : Option Bytes) (extras : List Extra) : Bytes :=
  seq [int 0, name subject, publicKeyInfo,
    explicit 0 [seq [oid [1, 2, 840, 113549, 1, 9, 14],
      set [seq ([keyUsage role.isCa] ++ (eku.map extendedKeyUsage).toList ++ role.constraints ++
        extras.map Extra.der)]]]]

end Verif.CertBuild.Spec
