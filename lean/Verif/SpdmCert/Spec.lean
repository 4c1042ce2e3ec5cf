import Verif.Pcr.Spec
/-!
Certificate chains of SPDM as a requester sees them (DSP0274: GET_DIGESTS, GET_CERTIFICATE, certificate
chain format).
-/
namespace Verif.SpdmCert.Spec
open Verif

/-- The certificates of a slot. -/
structure Chain where
  root : Option Bytes
  intermediate : Option Bytes
  deviceId : Bytes
  alias : Bytes
deriving DecidableEq

/-- The certificates in order. -/
def Chain.certs (c : Chain) : List Bytes := c.root.toList ++ c.intermediate.toList ++ [c.deviceId, c.alias]

/-- The certificate at the top. -/
def Chain.top (c : Chain) : Bytes := c.root.getD c.deviceId

/-- Number of bytes of the chain with a hash of `n` bytes. -/
def Chain.total (c : Chain) (n : Nat) : Nat := 4 + n + c.certs.flatten.length

/-- The chain: its length, two reserved bytes, the hash of the certificate at the top, the certificates. -/
def Chain.bytes (H : Pcr.Hash) (ty : Pcr.HashType) (c : Chain) : Bytes :=
  toLE 2 (c.total ty.len) ++ [0, 0] ++ H ty c.top ++ c.certs.flatten

/-- A GET_CERTIFICATE request. -/
def request (v slot : UInt8) (off len : Nat) : Bytes := [v, 0x82, slot, 0] ++ toLE 2 off ++ toLE 2 len

/-- A CERTIFICATE response: the portion and how much remains. -/
def parse : Bytes → Option (Bytes × Nat)
  | _ :: code :: _ :: _ :: p0 :: p1 :: r0 :: r1 :: rest =>
    if code = 2 ∧ rest.length = p0.toNat + 256 * p1.toNat then some (rest, r0.toNat + 256 * r1.toNat) else none
  | _ => none

/-- A requester reads a chain in portions of the given sizes, until nothing remains. -/
def fetch {σ : Type} (serve : σ → Bytes → σ × Option Bytes) (v slot : UInt8) : List Nat → Bytes → σ → Option Bytes
  | [], _, _ => none
  | l :: ls, acc, s =>
    match serve s (request v slot acc.length l) with
    | (_, none) => none
    | (s, some b) =>
      match parse b with
      | none => none
      | some (d, 0) => some (acc ++ d)
      | some (d, _) => fetch serve v slot ls (acc ++ d) s

end Verif.SpdmCert.Spec
