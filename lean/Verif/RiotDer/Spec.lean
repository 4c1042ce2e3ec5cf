import Verif.Common.Bytes
/-!
DER (ITU-T X.690), as far as the builder of `core/riot/reference/RiotDerEnc.c` needs it. Written from
the standard; nothing here refers to the model.
-/
namespace Verif.RiotDer.Spec
open Verif

/-- The shortest big-endian byte string for a number; nothing for 0. -/
def natBytes (n : Nat) : Bytes :=
  if n = 0 then [] else natBytes (n / 256) ++ [UInt8.ofNat (n % 256)]
termination_by n
decreasing_by omega

/-- Length octets in the definite form with the fewest octets (X.690 8.1.3, 10.1). -/
def lenOctets (n : Nat) : Bytes :=
  if n < 128 then [UInt8.ofNat n] else UInt8.ofNat (128 + (natBytes n).length) :: natBytes n

/-- Identifier, length and contents octets. -/
def tlv (tag : UInt8) (content : Bytes) : Bytes := tag :: (lenOctets content.length ++ content)

/-- Contents octets of a non-negative INTEGER: the shortest two's complement form (X.690 8.3). -/
def intContent (n : Nat) : Bytes :=
  if n = 0 then [0]
  else match natBytes n with
    | [] => [0]
    | b :: bs => if b < 128 then b :: bs else 0 :: b :: bs

/-- Octets of a subidentifier that are not the last: bit 8 set (X.690 8.19.2). -/
def subIdHigh (n : Nat) : Bytes :=
  if n = 0 then [] else subIdHigh (n / 128) ++ [UInt8.ofNat (128 + n % 128)]
termination_by n
decreasing_by omega

/-- A subidentifier: base 128, the fewest octets, bit 8 clear in the last one only. -/
def subId (n : Nat) : Bytes := subIdHigh (n / 128) ++ [UInt8.ofNat (n % 128)]

/-- Contents octets of an OBJECT IDENTIFIER: the first two arcs share a subidentifier
(X.690 8.19.4). -/
def oidContent : List Nat → Bytes
  | a :: b :: arcs => subId (40 * a + b) ++ (arcs.map subId).flatten
  | _ => []

/-- SEQUENCE. -/
def seq (parts : List Bytes) : Bytes := tlv 0x30 parts.flatten
/-- SET. -/
def set (parts : List Bytes) : Bytes := tlv 0x31 parts.flatten
/-- OBJECT IDENTIFIER. -/
def oid (arcs : List Nat) : Bytes := tlv 0x06 (oidContent arcs)
/-- INTEGER. -/
def int (n : Nat) : Bytes := tlv 0x02 (intContent n)
/-- BOOLEAN (X.690 11.1: TRUE is all ones). -/
def bool (b : Bool) : Bytes := tlv 0x01 [if b then 0xff else 0x00]
/-- OCTET STRING. -/
def octets (b : Bytes) : Bytes := tlv 0x04 b
/-- BIT STRING whose last octet has `unused` unused bits. -/
def bits (unused : UInt8) (b : Bytes) : Bytes := tlv 0x03 (unused :: b)
/-- UTF8String. -/
def utf8 (b : Bytes) : Bytes := tlv 0x0c b
/-- Context-specific constructed tag `[n]`. -/
def explicit (n : UInt8) (parts : List Bytes) : Bytes := tlv (0xa0 + n) parts.flatten

end Verif.RiotDer.Spec
