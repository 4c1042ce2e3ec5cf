import Verif.Requester.Model
import Verif.Requester.VerdictSpec
/-! What it means that the requester has evidence for the measurements of a device. -/
namespace Verif.Requester

/-- The text in front of what a device with SPDM 1.2 signs, DSP0274 section "Signature generation": four times the version, zeroes, the purpose, 100 bytes in all. -/
def preamble (purpose : String) : Bytes :=
  ("dmtf-spdm-v1.2.*dmtf-spdm-v1.2.*dmtf-spdm-v1.2.*dmtf-spdm-v1.2.*".toList ++ List.replicate (36 - purpose.length) '\x00' ++ purpose.toList).map
    fun c => UInt8.ofNat c.toNat

/-- What a device with SPDM 1.`minor` signs for a transcript. -/
def toSign (H : Bytes → Bytes) (minor : Nat) (purpose : String) (x : Bytes) : Bytes :=
  if minor = 2 then H (preamble purpose ++ H x) else H x

/-- A GET_MEASUREMENTS request with signature. -/
def getMeasurements (minor slot op : Nat) (raw : Bool) (nonce : Bytes) : Bytes :=
  [UInt8.ofNat (16 + minor), 0xe0, if raw ∧ minor = 2 then 3 else 1, UInt8.ofNat op] ++ nonce ++ if minor = 0 then [] else [UInt8.ofNat slot]

/-- A CHALLENGE request for all measurements. -/
def challengeMsg (minor slot : Nat) (nonce : Bytes) : Bytes := [UInt8.ofNat (16 + minor), 0x83, UInt8.ofNat slot, 0xff] ++ nonce

/-- The values in `count` measurement blocks from an offset on. A block has an index, a specification, a size, a type (bit 7: raw), the size of the value, the value. -/
inductive Values (op : Nat) (raw : Bool) (b : Bytes) : Nat → Nat → Bytes → Prop
  | none (off : Nat) : Values op raw b 0 off []
  | block {count off size : Nat} {rest : Bytes} (hi : op = 255 ∨ (b.getD off 0).toNat = op) (ht : raw = decide (128 ≤ (b.getD (off + 4) 0).toNat))
      (hs : size = (b.getD (off + 5) 0).toNat + 256 * (b.getD (off + 6) 0).toNat) (hr : Values op raw b count (off + 7 + size) rest) :
      Values op raw b (count + 1) off ((b.drop (off + 7)).take size ++ rest)

/-- A number of three bytes. -/
def three (b : Bytes) (i : Nat) : Nat := (b.getD i 0).toNat + 256 * (b.getD (i + 1) 0).toNat + 65536 * (b.getD (i + 2) 0).toNat

/-- A number of two bytes. -/
def two (b : Bytes) (i : Nat) : Nat := (b.getD i 0).toNat + 256 * (b.getD (i + 1) 0).toNat

/-- The length of the signed part of a MEASUREMENTS response: header, record, nonce, opaque data. -/
def signedPart (b : Bytes) : Nat := 42 + three b 5 + two b (40 + three b 5)

/-- The length of the signed part of a CHALLENGE_AUTH response for hashes of `h` bytes. -/
def signedPartChallenge (h : Nat) (b : Bytes) : Nat := 38 + 2 * h + two b (36 + 2 * h)

/-- What the device has last said about having certificates. -/
def hasCerts : List Ev → Option Bool
  | [] => none
  | .caps c :: _ => some c
  | _ :: rest => hasCerts rest

/-- Key `k` has signed the transcript `x`; the signature is in `rsp` from offset `n` on. -/
def SignedBy (env : Env) (th minor : Nat) (purpose : String) (k : Key) (x rsp : Bytes) (n : Nat) : Prop :=
  ∃ l, env.sigOk k (toSign (env.hash th) minor purpose x) ((rsp.drop n).take l) ((rsp.drop (n + l)).take l) = true

/-- What is recorded is what the device answered: the value is in the response; if there is a signature, it is by the key that is held for the device, and what is signed
ends with our request, with the nonce drawn just before, and the response. Without signature, the device has just said that it has no certificates. (For the number of
blocks, operation 0, nothing is said.) -/
def Evidence (env : Env) (c : Component) (key : Option Key) : Ev → List Ev → Prop
  | .meas op raw sig rsp v, old => op = 0 ∨ (Values op raw rsp (rsp.getD 4 0).toNat 8 v ∧ (op = 255 ∨ rsp.getD 4 0 = 1) ∧
      match sig with
      | none => hasCerts old = some false
      | some (k, x) => key = some k ∧ ∃ minor nonce before rest, minor ≤ 2 ∧ old = .nonce nonce :: rest ∧ hasCerts rest = some true ∧
          x = before ++ getMeasurements minor c.slot op raw nonce ++ rsp.take (signedPart rsp) ∧
          SignedBy env c.thash minor "responder-measurements signing" k x rsp (signedPart rsp))
  | .summary sig rsp v, old => ∃ h k x minor nonce before rest, h = hashLen c.thash ∧ sig = some (k, x) ∧ key = some k ∧ minor ≤ 2 ∧ old = .nonce nonce :: rest ∧
      v = (rsp.drop (36 + h)).take h ∧ x = before ++ challengeMsg minor c.slot nonce ++ rsp.take (signedPartChallenge h rsp) ∧
      SignedBy env c.thash minor "responder-challenge_auth signing" k x rsp (signedPartChallenge h rsp)
  | _, _ => True

/-- All that is recorded is evidence. -/
def Sound (env : Env) (c : Component) (key : Option Key) : List Ev → Prop
  | [] => True
  | e :: old => Evidence env c key e old ∧ Sound env c key old

/-- A digest is allowed for version set `vs`. -/
def Allowed (l : List DigestEntry) (vs type : Nat) (d : Bytes) : Prop := ∃ e ∈ l, (e.vs = 0 ∨ e.vs = vs) ∧ e.digests.type = type ∧ d ∈ e.digests.list

/-- There is a record of measurement `op` with value `v`. -/
def Recorded (tr : List Ev) (op : Nat) (raw : Bool) (v : Bytes) : Prop := ∃ sig rsp, .meas op raw sig rsp v ∈ tr

/-- A rule of the CFM is met for the version set `vs`: it says nothing about it, or there is a measurement that meets it. A digest and a measurement are compared over the
shorter one. For rules on data see `data_ok_last`. -/
def Met (H : Nat → Bytes → Bytes) (tr : List Ev) (vs : Nat) : Item → Prop
  | .digest id l => (∀ e ∈ l, e.vs ≠ 0 ∧ e.vs ≠ vs) ∨ ∃ v type d, Recorded tr id false v ∧ Allowed l vs type d ∧ (v <+: d ∨ d <+: v)
  | .data id l => (∀ c ∈ l, applicable c vs = []) ∨ ∃ v, Recorded tr id true v ∧ ∃ w, (w = 0 ∨ w = vs) ∧ verifyDataBlock l v w = (.ok (), vs)
  | .aggregated type ids l => (∀ e ∈ l, e.vs ≠ 0 ∧ e.vs ≠ vs) ∨
      ∃ vals : List Bytes, vals.length = ids.length ∧ (∀ p ∈ ids.zip vals, Recorded tr p.1 false p.2) ∧ Allowed l vs type (H type vals.flatten)

/-- The rule on all measurements together is met: by the summary in a challenge response, or by the digest of all measurements. -/
def MetPmr (H : Nat → Bytes → Bytes) (tr : List Ev) (p : Digests) : Prop :=
  (∃ sig rsp v, .summary sig rsp v ∈ tr ∧ v ∈ p.list) ∨ ∃ v, Recorded tr 255 false v ∧ H p.type v ∈ p.list

/-- What a component asks for is met; there is at least one measurement. -/
def MetAll (H : Nat → Bytes → Bytes) (tr : List Ev) (c : Component) : Prop := match c.pmr0 with
  | some p => MetPmr H tr p
  | none => ∃ vs, vs ≠ 0 ∧ (∃ op raw v, Recorded tr op raw v) ∧ ∀ i ∈ c.items, Met H tr vs i

end Verif.Requester
