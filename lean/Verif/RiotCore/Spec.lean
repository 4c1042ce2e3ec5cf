import Verif.Kdf.Spec
import Verif.Base64.Props
/-!
The DICE layer 0 derivations of a device: what its keys, names and serial numbers are, as functions of
the compound device identifier (CDI) and the firmware identifier (FWID). `mac` is HMAC with a given
key; the derivation function is the one of NIST SP 800-108.
-/
namespace Verif.RiotCore.Spec
open Verif

/-- `n` bytes derived by counter mode with a label and a context; `h` is the length of the HMAC. -/
def Derived (mac : Bytes → Bytes) (h : Nat) (label context : Bytes) (n : Nat) (out : Bytes) : Prop :=
  out.length = n ∧ Kdf.Spec.IsPrefixOfBlocks (Kdf.Spec.K mac label context (n * 8)) h out

/-- Of 528 derived bits for a 521 bit key, the upper 7 are cleared. -/
def fitCurve (seed : Bytes) : Bytes :=
  match seed with
  | [] => []
  | b :: rest => if seed.length = 66 then (b &&& 1) :: rest else seed

/-- "DEVICE ID" -/
def deviceLabel : Bytes := [0x44, 0x45, 0x56, 0x49, 0x43, 0x45, 0x20, 0x49, 0x44]
/-- "ALIAS KEY" -/
def aliasLabel : Bytes := [0x41, 0x4c, 0x49, 0x41, 0x53, 0x20, 0x4b, 0x45, 0x59]
/-- "DICE" -/
def dice : Bytes := [0x44, 0x49, 0x43, 0x45]
/-- "SERIAL" -/
def serialLabel : Bytes := [0x53, 0x45, 0x52, 0x49, 0x41, 0x4c]
/-- "RIOT" -/
def riot : Bytes := [0x52, 0x49, 0x4f, 0x54]

/-- The first block of the derivation of a 64 bit serial number. -/
def identity (mac : Bytes → Bytes) : Bytes := Kdf.Spec.K mac serialLabel riot 64 1

/-- The serial number. -/
def serial (mac : Bytes → Bytes) : Nat := beNat ((identity mac).take 8)

/-- The common name: the base64 text of that block, at most 64 characters of it. -/
def IsName (mac : Bytes → Bytes) (name : Bytes) : Prop :=
  ∃ text, Base64.decode (text ++ [0]) = some (identity mac) ∧ name = text.take 64

end Verif.RiotCore.Spec
