import Verif.Requester.FlowProps
/-! Runs of the attestation: the theorems of `FlowProps` are about something, and what does not hold. -/
namespace Verif.Requester

/-- A hash for the examples. -/
def h32 (x : Bytes) : Bytes := (x ++ List.replicate 32 0).take 32

/-- A VERSION response. -/
def msgVersion (minor : Nat) : Reply := .msg [0x10, 0x04, 0, 0, 0, 1, 0, UInt8.ofNat (16 + minor)] 8
/-- A CAPABILITIES response. -/
def msgCaps (minor flags : Nat) : Reply :=
  .msg ([UInt8.ofNat (16 + minor), 0x61, 0, 0, 0, 0, 0, 0, UInt8.ofNat flags, 0, 0, 0] ++ List.replicate 8 0) (if minor < 2 then 12 else 20)
/-- An ALGORITHMS response. -/
def msgAlgorithms (minor : Nat) (cert : Bool) : Reply :=
  .msg ([UInt8.ofNat (16 + minor), 0x63, 0, 0, 36, 0, 1, 0, 2, 0, 0, 0] ++ (if cert then [0x10, 0, 0, 0, 1, 0, 0, 0] else List.replicate 8 0) ++ List.replicate 16 0) 36
/-- A DIGESTS response. -/
def msgDigests (minor : Nat) (d : Bytes) : Reply := .msg ([UInt8.ofNat (16 + minor), 0x01, 0, 1] ++ d) 36
/-- A CERTIFICATE response. -/
def msgCertificate (minor : Nat) (d : Bytes) : Reply := .msg ([UInt8.ofNat (16 + minor), 0x02, 0, 0, UInt8.ofNat d.length, 0, 0, 0] ++ d) (8 + d.length)
/-- A MEASUREMENTS response. -/
def msgMeasurement (minor id type : Nat) (v : Bytes) (sig : Bool) : Reply :=
  .msg ([UInt8.ofNat (16 + minor), 0x60, 0, 0, 1, UInt8.ofNat (7 + v.length), 0, 0, UInt8.ofNat id, 1, UInt8.ofNat (3 + v.length), 0,
    UInt8.ofNat type, UInt8.ofNat v.length, 0] ++ v ++
    List.replicate 34 0 ++ if sig then List.replicate 64 7 else []) (49 + v.length + if sig then 64 else 0)

/-- The header of a certificate chain. -/
def headerC : Bytes := [52, 0] ++ List.replicate 34 0
/-- A root certificate. -/
def rootC : Bytes := [1, 1, 1, 1, 1, 1, 1, 1]
/-- A leaf certificate. -/
def leafC : Bytes := [2, 2, 2, 2, 2, 2, 2, 2]
/-- The answers to the first three requests. -/
def begin (minor flags : Nat) : List Reply := [msgVersion minor, msgCaps minor flags, msgAlgorithms minor (decide (flags / 2 % 2 = 1))]
/-- The answers with certificates. -/
def certs (m : Nat) : List Reply := [msgDigests m (h32 (headerC ++ rootC ++ leafC)), msgCertificate m headerC, msgCertificate m (rootC.take 7), msgCertificate m [1],
  msgCertificate m (leafC.take 7), msgCertificate m [2]]

/-- Surroundings without failures. -/
def env0 (l : List Reply) (sigOk : Bool) : Env :=
  { n := 200, fault := fun _ => false, reply := fun i => l.getD i .timeout, nonce := fun _ => List.replicate 32 5, hash := fun _ => h32, builtIn := fun _ => true,
    sigOk := fun _ _ _ _ => sigOk, certOk := fun _ => true, rootOk := fun _ => true, caOk := fun _ => true, auth := fun _ _ => true,
    keyOf := fun c => some ⟨true, c⟩, derLen := fun _ => some 8, localRoot := none, maxLen := 100, retries := 0, fixed := fun a b _ => [UInt8.ofNat b, UInt8.ofNat a] }

/-- The state at the begin. -/
def start : St := { dev := fun _ => .ready }
/-- A component without measurements. -/
def compEmpty : Component := { slot := 0, thash := 1, mhash := 1, spdm := true, root := some ⟨1, [h32 rootC]⟩, pmr0 := none, items := [] }
/-- A component with a digest and data. -/
def compM : Component := { compEmpty with items := [.digest 1 [⟨1, ⟨1, [List.replicate 32 9]⟩⟩], .data 2 [⟨.eq, true, none, [⟨1, [7]⟩]⟩]] }

/-- What is seen from outside. -/
structure Seen where
  ok : Bool
  dev : DevState
  succ : Nat
  key : Option (Nat × Key)
  deriving DecidableEq, Repr

/-- What is seen of device 3. -/
def seen (r : Except Err (Option Component) × St) : Seen := ⟨r.1.toOption.isSome, r.2.dev 3, r.2.succ 3, r.2.alias⟩

/-- The measurements that were taken, and whether they are signed. -/
def kinds (l : List Ev) : List (Nat × Bool) := l.filterMap fun
  | .meas op _ sig _ _ => some (op, sig.isSome)
  | _ => none

/-- The key of the leaf certificate. -/
def leafKey : Option (Nat × Key) := some (3, ⟨true, leafC⟩)

/-- The answers with the two measurements. -/
def both : List Reply := [msgMeasurement 1 1 1 (List.replicate 32 9) true, msgMeasurement 1 2 0x80 [7] true]

/-- A device with SPDM 1.1, certificates and signed measurements. -/
def good : Env := env0 (begin 1 18 ++ certs 1 ++ both) true

set_option maxRecDepth 100000 in
/-- `attestation_evidence`, `all_signed_partial`: a device is accepted with two signed measurements. -/
example : seen (attestDevice good 3 [some compM] start) = ⟨true, .authenticated, 1, leafKey⟩ ∧
    kinds (attestDevice good 3 [some compM] start).2.trace = [(2, true), (1, true)] ∧ Ev.caps false ∉ (attestDevice good 3 [some compM] start).2.trace :=
  ⟨by decide_cbv, by decide_cbv, by decide_cbv⟩

set_option maxRecDepth 100000 in
/-- `keys_vouched_partial`: a history after which there is a key. -/
example : start.alias = none ∧ (history good [(3, [some compM])] start).alias = leafKey := by decide_cbv

set_option maxRecDepth 100000 in
/-- `signed_values_partial`: the values of a response lie in its signed part. -/
example : Values 2 true (([0x11, 0x60, 0, 0, 1, 8, 0, 0, 2, 1, 4, 0, 0x80, 1, 0, 7] ++ List.replicate 98 0 : Bytes).take 50) 1 8 [7] :=
  signed_values_partial (off := 8) (v := [7]) (n := 50) (.block (off := 8) (rest := []) (size := 1) (.inr rfl) rfl rfl (.none _)) (by decide) (by decide)

set_option maxRecDepth 100000 in
/-- `failure_not_accepted_partial`, `others_untouched`: bad signatures, and a device that was ready is not accepted. -/
example : seen (attestDevice { good with sigOk := fun _ _ _ _ => false } 3 [some compM] start) = ⟨false, .mismatch, 0, leafKey⟩ := by decide_cbv

set_option maxRecDepth 100000 in
/-- `not_attestable_stays`: also if it would have been accepted. -/
example : seen (attestDevice good 3 [some compM] { start with dev := fun _ => .notAttestable }) = ⟨false, .notAttestable, 0, none⟩ := by decide_cbv

set_option maxRecDepth 100000 in
/-- Without any rule in the CFM nothing is accepted. -/
example : seen (attestDevice good 3 [some compEmpty] start) = ⟨false, .mismatch, 0, leafKey⟩ := by decide +kernel

/-- A device with SPDM 1.2 that says at the second CAPABILITIES that it has no certificates, and at the others that it has. -/
def downgrade : Env := env0 (begin 2 18 ++ certs 2 ++ begin 2 8 ++ [msgMeasurement 2 1 1 (List.replicate 32 9) false] ++ begin 2 18 ++ [msgMeasurement 2 2 0x80 [7] true]) true

set_option maxRecDepth 100000 in
/-- AUTHENTICATED does not mean that the measurements are signed: the first one here is not. -/
theorem downgrade_accepted : seen (attestDevice downgrade 3 [some compM] start) = ⟨true, .authenticated, 1, leafKey⟩ ∧
    kinds (attestDevice downgrade 3 [some compM] start).2.trace = [(2, true), (1, false)] := ⟨by decide_cbv, by decide_cbv⟩

/-- A value of 50 bytes. -/
def longValue : Bytes := List.replicate 27 0 ++ List.replicate 23 7

/-- A MEASUREMENTS response with one block behind a record of length 0. The last 23 bytes of the value are the first of the signature. -/
def outside : Bytes := [0x11, 0x60, 0, 0, 1, 0, 0, 0, 2, 1, 53, 0, 0x80, 50, 0] ++ List.replicate 27 0 ++ List.replicate 64 7

/-- A component with one rule on data. -/
def compLong : Component := { compEmpty with items := [.data 2 [⟨.eq, true, none, [⟨1, longValue⟩]⟩]] }

set_option maxRecDepth 100000 in
/-- An accepted value need not lie in what was signed. -/
theorem value_outside_accepted : seen (attestDevice (env0 (begin 1 18 ++ certs 1 ++ [.msg outside 106]) true) 3 [some compLong] start) =
      ⟨true, .authenticated, 1, leafKey⟩ ∧ Values 2 true outside 1 8 longValue ∧ signedPart outside = 42 ∧ 42 < 8 + 7 + longValue.length :=
  ⟨by decide_cbv, .block (rest := []) (size := 50) (.inr rfl) rfl rfl (.none _), by decide, by decide⟩

/-- The same component with another root. -/
def compOther : Component := { compM with root := some ⟨1, [[9]]⟩ }

/-- Answers for two attestations. -/
def twice : Env := env0 (begin 1 18 ++ certs 1 ++ both ++ begin 1 18 ++ [msgDigests 1 (h32 (headerC ++ rootC ++ leafC))] ++ both) true

set_option maxRecDepth 100000 in
/-- The key need not be vouched for by the component that is accepted: with other rules on the root, the device is accepted if the key is there from before, and only then. -/
theorem root_rule_skipped : seen (attestDevice twice 3 [some compOther] (history twice [(3, [some compM])] start)) = ⟨true, .authenticated, 2, leafKey⟩ ∧
    seen (attestDevice twice 3 [some compOther] start) = ⟨false, .untrusted, 0, none⟩ := ⟨by decide_cbv, by decide +kernel⟩

/-- A device that supports challenges, with a CHALLENGE_AUTH response. -/
def challenged : Env := env0 (begin 1 22 ++ certs 1 ++ [.msg ([0x11, 3, 0, 1] ++ h32 (headerC ++ rootC ++ leafC) ++ List.replicate 66 0 ++ List.replicate 64 7) 166]) false

set_option maxRecDepth 100000 in
/-- A failed attestation need not end the acceptance of a device: with a bad signature of a challenge it stays AUTHENTICATED and the success is counted. -/
theorem bad_signature_stays_authenticated : seen (attestDevice challenged 3 [some compM] { start with dev := fun _ => .authenticated }) =
    ⟨false, .authenticated, 1, leafKey⟩ := by decide_cbv

end Verif.Requester
