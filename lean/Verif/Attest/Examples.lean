import Verif.Attest.Props
import Verif.Attest.Challenge
import Verif.Attest.Unseal
/-! Concrete cases, and the two ways in which a certificate that is read is not the one of the digests. -/
namespace Verif.Attest

namespace Example

/-- A full chain. -/
def full : Certs := { root := some [1], inter := some [2], devid := some [3], alias := some [4], aux := some (some [5]) }

example : (getCertificate full full 0 2).toOption = some (some [3]) ∧ (getCertificate full full 1 3).toOption = some (some [5]) ∧ (getCertificate full full 0 4).toOption = none := by decide
example : full.inter ≠ none → full.root ≠ none := by decide
example : chain full 1 = [[1], [2], [3], [5]] := by decide

/-- The digests are the certificates themselves. -/
example : (getDigests (fun _ d => .ok d) full 0 128).toOption = some ([1, 2, 3, 4], 4) := by decide

/-- An intermediate CA certificate without a root certificate: three digests are given, but reading certificates gives four, and neither the first nor the second one is the one of the digests. -/
def noRoot : Certs := { full with root := none }

theorem no_root_mismatch : (getDigests (fun _ d => .ok d) noRoot 0 128).toOption = some ([2, 3, 4], 3) ∧
    (List.range 5).map (fun n => (getCertificate noRoot noRoot 0 n).toOption) = [some (some [3]), some (some [2]), some (some [3]), some (some [4]), none] := by decide

/-- The CA certificates are removed by another task between the two reads of the pointers: success, with a null pointer as the certificate. -/
theorem removed_chain_null : (getCertificate full { full with root := none, inter := none } 0 0).toOption = some none := by decide

/-- Engines that do not fail. The signature of a digest is the byte 7 and the first byte of the digest. -/
def engines : Crypto where
  sha256 d := [UInt8.ofNat d.length]
  sign d _ := .ok [7, d.getD 0 0]
  pcrNum := 0
  pcr := .ok (List.replicate 32 9)
  nonce := .ok (List.replicate 32 8)
  start := none
  update1 := none
  update2 := none
  initKey := none
  finish := none
  minVersion := 1
  maxVersion := 1

def work : Work := { buf := List.replicate 100 0, hash := none, lock := false, keysLock := false }

/-- A challenge is answered: 72 bytes, then the signature over 34 + 72 bytes. -/
example : ((challenge engines work).1.toOption, (challenge engines work).2.buf.drop 72) = (some 74, [7, 106] ++ List.replicate 26 0) := by decide +kernel
example : ∀ m, engines.pcr = .ok m → m.length ≤ 64 := by intro m h; injection h with h; subst h; decide

/-- A device with one PCR of 32 bytes. -/
def device : Device where
  decrypt _ s := .ok s
  ecdh _ s := .ok s
  kdf s l := .ok (s ++ [if l = "signing key" then 1 else 2])
  hmac k d := .ok (k ++ [UInt8.ofNat d.length])
  pcrLen i := if i = 0 then some 32 else none
  pcr i := if i = 0 then .ok (List.replicate 32 9) else .error 1

example : PcrsFit device where
  len := by intro i l h; simp only [device] at h; split at h <;> cases h; omega
  value := by
    intro i l v h h2
    simp only [device] at h h2
    split at h
    · rw [if_pos (by assumption)] at h2; injection h2 with h2; injection h with h; subst h h2; rfl
    · cases h
  missing := by
    intro i v h h2
    simp only [device] at h h2
    split at h
    · cases h
    · rw [if_neg (by assumption)] at h2; cases h2

def request (pcr : UInt8) : Request :=
  { keyType := 32, seed := [5], seedType := 1, seedParam := 0, hmac := [5, 1, 129], hmacType := 1, cipher := [6],
    sealing := [List.replicate 32 0 ++ List.replicate 32 pcr, List.replicate 64 0], keyRoom := 32 }

/-- The key is given for the value of the PCR only. -/
example : (unsealKey device (request 9)).toOption = some [5, 2] ∧ (unsealKey device (request 8)).toOption = none := by decide +kernel

end Example

end Verif.Attest
