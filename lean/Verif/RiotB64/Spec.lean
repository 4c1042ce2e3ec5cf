import Verif.Common.Bytes
/-!
Base64 of RFC 4648, section 4, independent of the code.
-/
namespace Verif.RiotB64.Spec
open Verif

/-- Table 1: the characters A-Z, a-z, 0-9, + and /. -/
def alphabet : Bytes := (List.range 26).map (fun i => UInt8.ofNat (0x41 + i)) ++ (List.range 26).map (fun i => UInt8.ofNat (0x61 + i)) ++
  (List.range 10).map (fun i => UInt8.ofNat (0x30 + i)) ++ [0x2b, 0x2f]

def char (v : Nat) : UInt8 := alphabet.getD v 0

/-- Four characters for 24 bits. -/
def group (a b c : UInt8) : Bytes :=
  let n := a.toNat * 65536 + b.toNat * 256 + c.toNat
  [char (n / 262144), char (n / 4096 % 64), char (n / 64 % 64), char (n % 64)]

/-- The encoding, padded with `=`. -/
def enc : Bytes → Bytes
  | [] => []
  | [a] => (group a 0 0).take 2 ++ [0x3d, 0x3d]
  | [a, b] => (group a b 0).take 3 ++ [0x3d]
  | a :: b :: c :: r => group a b c ++ enc r

end Verif.RiotB64.Spec
