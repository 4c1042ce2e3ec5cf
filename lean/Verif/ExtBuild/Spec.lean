import Verif.RiotDer.Spec
/-!
The values of the certificate extensions a device adds: extended key usage (RFC 5280), the unique
device identifier and TCB information of the TCG DICE attestation architecture, and the DME structure.
Only DER; nothing refers to the model.
-/
namespace Verif.ExtBuild.Spec
open Verif
open Verif.RiotDer.Spec

/-- ExtKeyUsageSyntax: the purposes, as encoded OIDs. -/
def eku (purposes : List Bytes) : Bytes := seq (purposes.map (tlv 0x06))

/-- TcgUeid ::= SEQUENCE { ueid OCTET STRING }. -/
def ueid (id : Bytes) : Bytes := seq [octets id]

/-- A digest with the OID of its algorithm. -/
structure Digest where
  alg : List Nat
  value : Bytes
deriving DecidableEq, Repr

/-- id-sha1 of RFC 8017, 20 octets. -/
def sha1 : List Nat × Nat := ([1, 3, 14, 3, 2, 26], 20)

/-- The hash algorithms of NIST, 2.16.840.1.101.3.4.2.k: the SHA-2 hash of `bits` bits. -/
def sha2 (k bits : Nat) : List Nat × Nat := ([2, 16, 840, 1, 101, 3, 4, 2, k], bits / 8)

/-- FWID ::= SEQUENCE { hashAlg OBJECT IDENTIFIER, digest OCTET STRING }. -/
def Digest.der (d : Digest) : Bytes := seq [oid d.alg, octets d.value]

/-- IntegrityRegister. -/
structure Register where
  name : Option Bytes
  number : Option Nat
  digests : List Digest

/-- IntegrityRegister ::= SEQUENCE { registerName [0], registerNum [1], registerDigests [2] }, with
implicit tags. -/
def Register.der (r : Register) : Bytes :=
  seq ((r.name.map (tlv 0x80)).toList ++ (r.number.map fun n => tlv 0x81 (intContent n)).toList ++
    [tlv 0xa2 (r.digests.map Digest.der).flatten])

/-- DiceTcbInfo, the fields used. -/
structure TcbInfo where
  vendor : Option Bytes
  model : Option Bytes
  version : Bytes
  svn : Nat
  layer : Nat
  fwids : List Digest
  registers : List Register

/-- DiceTcbInfo ::= SEQUENCE { vendor [0], model [1], version [2], svn [3], layer [4], fwids [6],
integrityRegisters [10] }, with implicit tags; no registers, no list of registers. -/
def TcbInfo.der (t : TcbInfo) : Bytes :=
  seq ((t.vendor.map (tlv 0x80)).toList ++ (t.model.map (tlv 0x81)).toList ++
    [tlv 0x82 t.version, tlv 0x83 (intContent t.svn), tlv 0x84 (intContent t.layer),
     tlv 0xa6 (t.fwids.map Digest.der).flatten] ++
    (if t.registers = [] then [] else [tlv 0xaa (t.registers.map Register.der).flatten]))

/-- DME structure: key, type and data, signature algorithm, signature, and optionally the device type
`[0]` and a renewal counter `[1]`. -/
structure Dme where
  key : Bytes
  dataType : Bytes
  data : Bytes
  sigType : Bytes
  signature : Bytes
  device : Option Bytes
  counter : Option Bytes

/-- Its encoding, with implicit tags. -/
def Dme.der (d : Dme) : Bytes :=
  seq ([d.key, tlv 0x06 d.dataType, octets d.data, seq [tlv 0x06 d.sigType], bits 0 d.signature] ++
    (d.device.map (tlv 0x80)).toList ++ (d.counter.map fun c => tlv 0x81 (0 :: c)).toList)

end Verif.ExtBuild.Spec
