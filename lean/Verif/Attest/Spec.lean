import Verif.Attest.Model
/-! What a requester relies on. -/
namespace Verif.Attest

/-- The slot can be used: slot 0 ends with the alias certificate, slot 1 with the certificate of the auxiliary key; the device identity is there in both cases. -/
def Usable (c : Certs) (slot : Nat) : Prop :=
  (∃ d, c.devid = some d ∧ d ≠ []) ∧ ((slot = 0 ∧ ∃ a, c.alias = some a ∧ a ≠ []) ∨ (slot = 1 ∧ ∃ a, c.aux = some (some a)))

/-- The certificate chain of a slot, from the root. -/
def chain (c : Certs) (slot : Nat) : List Bytes :=
  c.root.toList ++ c.inter.toList ++ c.devid.toList ++ (if slot = 0 then c.alias.toList else (c.aux.getD none).toList)

/-- A response to a challenge: slot, mask, versions, two zero bytes, the nonce of the responder, number of measurements (at least 1), length of the value, the value. -/
def response (minV maxV : UInt8) (nonce : Bytes) (num : Nat) (pcr : Bytes) : Bytes :=
  [0, 1, minV, maxV, 0, 0] ++ nonce ++ [UInt8.ofNat (max num 1), UInt8.ofNat pcr.length] ++ pcr

/-- A sealing value of 64 bytes allows PCR `i` of the device: it is all zero, or it is the value of the PCR with zeros in front. -/
def Allows (dev : Device) (i : Nat) (s : Bytes) : Prop :=
  s = List.replicate 64 0 ∨ ∃ v len, dev.pcrLen i = some len ∧ dev.pcr i = .ok v ∧ s = List.replicate (64 - len) 0 ++ v

/-- The secret the seed of a request stands for. -/
inductive SeedIs (dev : Device) (r : Request) (secret : Bytes) : Prop
  | oaepSha1 (t : r.seedType = 0) (p : r.seedParam = 1) (h : dev.decrypt false r.seed = .ok secret)
  | oaepSha256 (t : r.seedType = 0) (p : r.seedParam = 2) (h : dev.decrypt true r.seed = .ok secret)
  | ecdhRaw (t : r.seedType = 1) (p : r.seedParam = 0) (h : dev.ecdh false r.seed = .ok secret)
  | ecdhSha256 (t : r.seedType = 1) (p : r.seedParam = 1) (h : dev.ecdh true r.seed = .ok secret)

end Verif.Attest
