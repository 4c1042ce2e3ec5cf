import Verif.Protocol.Lemmas
/-! No handler touches memory it must not touch, and every response is made of known bytes. -/
namespace Verif.Protocol
open Spec

theorem J.bindQ {D : Nat → Prop} {l : Nat} {m : M α} {f : α → M β} {Q}
    (hm : J D l m fun a D' l' => J D' l' (f a) Q) : J D l (m >>= f) Q :=
  J.bind hm fun _ _ _ h => h

/-- Outcome of a handler: nothing to send, or a response of known bytes within the limit (the
smallest limit cannot be below the fixed responses of up to 37 bytes). -/
def Sent (env : Env) : Unit → (Nat → Prop) → Nat → Prop := fun _ D l =>
  l = 0 ∨ (5 ≤ l ∧ l ≤ max env.maxResp 37 ∧ ∀ j, j < l → D j)

theorem room_eq {env : Env} (he : Faithful env) (h1 : 12 ≤ env.maxResp) (h2 : env.maxResp ≤ 4096) {n : Nat} (hn : n ≤ 12) :
    room env n = env.maxResp - n := by
  have := he.size
  unfold room
  rw [Nat.mod_eq_of_lt (a := n) (by omega)]
  rw [show env.maxResp + env.size - n = env.maxResp - n + env.size by omega, Nat.add_mod_right, Nat.mod_eq_of_lt (by omega)]

theorem roomS_eq {env : Env} (he : Faithful env) (h1 : 12 ≤ env.maxResp) (h2 : env.maxResp ≤ 4096) {n : Nat} (hn : n ≤ 12) (h0 : 0 < n) :
    (room env n + 1) % env.size = env.maxResp - (n - 1) := by
  have := he.size
  rw [room_eq he h1 h2 hn, Nat.mod_eq_of_lt (by omega)]
  omega

theorem restLen_eq {env : Env} (he : Faithful env) {l n : Nat} (hl : n ≤ l) (hc : l ≤ 4096) :
    restLen env l n = l - n := by
  have := he.size
  unfold restLen
  rw [Nat.mod_eq_of_lt (a := n) (by omega)]
  rw [show l + env.size - n = l - n + env.size by omega, Nat.add_mod_right, Nat.mod_eq_of_lt (by omega)]

theorem J.setKeyAlg {D : Nat → Prop} {l a : Nat} {Q} (h : Q () D l) : J D l (Protocol.setKeyAlg a) Q := by
  intro s hk hl; exact ⟨D, hk, hl ▸ h⟩

theorem J.getKeyAlg {D : Nat → Prop} {l : Nat} {Q} (h : ∀ a, Q a D l) : J D l Protocol.getKeyAlg Q := by
  intro s hk hl; exact ⟨D, hk, hl ▸ h _⟩

/-- One step of symbolic execution. -/
macro "jstep" : tactic => `(tactic| first
  | apply J.bindQ | apply J.pure | apply J.fail | apply J.rcErr | apply J.u8 | apply J.u16 | apply J.u32
  | apply J.bytes | apply J.len | apply J.setLen | apply J.put8 | apply J.put16 | apply J.put32 | apply J.put
  | apply J.callAt (by assumption) | apply J.call (by assumption) | apply J.unlessErr | apply J.done | apply J.value | apply J.strLen
  | apply J.ite | apply J.releasing | apply J.setKeyAlg | apply J.getKeyAlg | split | intro _)

theorem versionField_length (s : Option Bytes) : (versionField s).length = 32 := by
  cases s <;> simp [versionField]

macro "jleaf" : tactic => `(tactic| (
  (try simp only [versionField_length, Sent, Answer, le_length, List.length_replicate, Bool.or_eq_false_iff, bne_eq_false_iff_eq, decide_eq_false_iff_not, beq_eq_false_iff_ne, ne_eq] at *) <;>
  first | omega | grind))

theorem certLen_le {env : Env} (he : Faithful env) (h1 : 12 ≤ env.maxResp) (h2 : env.maxResp ≤ 4096) (n off k : Nat) :
    certLen env n off k ≤ env.maxResp - 7 ∧ (off < n → certLen env n off k ≤ n - off) ∧ (¬ off < n → certLen env n off k = 0) := by
  unfold certLen
  rw [room_eq he h1 h2 (by decide), Nat.mod_eq_of_lt (a := env.maxResp - 7) (by omega)]
  by_cases h : off < n
  · simp only [if_pos h]
    by_cases hk : k = 0 ∨ k > env.maxResp - 7
    · rw [if_pos hk]
      have := Nat.mod_le (min (env.maxResp - 7) (n - off)) 65536
      omega
    · rw [if_neg hk]
      have := Nat.mod_le (min k (n - off)) 65536
      omega
  · simp only [if_neg h]; simp

attribute [local irreducible] u8 u16 u32 bytes put put8 put16 put32 call callAt setLen Protocol.len fail rcErr done value unlessErr setKeyAlg getKeyAlg strLen releasing

section
variable {env : Env} (he : Faithful env) (h1 : 12 ≤ env.maxResp) (h2 : env.maxResp ≤ 4096) {l : Nat} (hl : 5 ≤ l) (hc : l ≤ 4096)
include he h1 h2 hl hc

theorem safe_getFwVersion : J (fun j => j < l) l (getFwVersion env) (Sent env) := by
  have hcap := he.cap
  have hsz := he.size
  unfold getFwVersion 
  try simp (disch := omega) only [room_eq he h1 h2, Nat.mod_eq_of_lt, restLen_eq he]
  repeat' jstep
  all_goals jleaf

theorem safe_getDigests : J (fun j => j < l) l (getDigests env) (Sent env) := by
  have hcap := he.cap
  have hsz := he.size
  unfold getDigests digestsSession digestsTail
  try simp (disch := omega) only [room_eq he h1 h2, Nat.mod_eq_of_lt, restLen_eq he]
  repeat' jstep
  all_goals jleaf

theorem safe_getCertificate : J (fun j => j < l) l (getCertificate env) (Sent env) := by
  have hcap := he.cap
  have hcl := certLen_le he h1 h2
  unfold getCertificate certCopy
  repeat' jstep
  all_goals (try simp only [Sent, Answer, List.length_take, List.length_drop, Bool.or_eq_false_iff, bne_eq_false_iff_eq, decide_eq_false_iff_not] at *)
  all_goals try omega
  all_goals first | grind | (rename_i off _ r _ _ _ _; have := hcl r.data.length; grind)

theorem safe_getChallenge : J (fun j => j < l) l (getChallenge env) (Sent env) := by
  have hcap := he.cap
  have hsz := he.size
  unfold getChallenge challengeSession
  try simp (disch := omega) only [room_eq he h1 h2, Nat.mod_eq_of_lt, restLen_eq he]
  repeat' jstep
  all_goals jleaf

theorem safe_exportCsr : J (fun j => j < l) l (exportCsr env) (Sent env) := by
  have hcap := he.cap
  have hsz := he.size
  unfold exportCsr 
  try simp (disch := omega) only [room_eq he h1 h2, Nat.mod_eq_of_lt, restLen_eq he]
  repeat' jstep
  all_goals jleaf

theorem safe_importCert (il : ItemLen) : J (fun j => j < l) l (importCert il env) (Sent env) := by
  have hcap := he.cap
  have hsz := he.size
  unfold importCert 
  try simp (disch := omega) only [room_eq he h1 h2, Nat.mod_eq_of_lt, restLen_eq he]
  repeat' jstep
  all_goals jleaf

theorem safe_getCertState : J (fun j => j < l) l (getCertState env) (Sent env) := by
  have hcap := he.cap
  have hsz := he.size
  unfold getCertState 
  try simp (disch := omega) only [room_eq he h1 h2, Nat.mod_eq_of_lt, restLen_eq he]
  repeat' jstep
  all_goals jleaf

theorem safe_getCapabilities : J (fun j => j < l) l (getCapabilities env) (Sent env) := by
  have hcap := he.cap
  have hsz := he.size
  unfold getCapabilities 
  try simp (disch := omega) only [room_eq he h1 h2, Nat.mod_eq_of_lt, restLen_eq he]
  repeat' jstep
  all_goals jleaf

theorem safe_getDeviceInfo : J (fun j => j < l) l (getDeviceInfo env) (Sent env) := by
  have hcap := he.cap
  have hsz := he.size
  unfold getDeviceInfo 
  try simp (disch := omega) only [room_eq he h1 h2, Nat.mod_eq_of_lt, restLen_eq he]
  repeat' jstep
  all_goals jleaf

theorem safe_getDeviceId : J (fun j => j < l) l (getDeviceId env) (Sent env) := by
  have hcap := he.cap
  have hsz := he.size
  unfold getDeviceId 
  try simp (disch := omega) only [room_eq he h1 h2, Nat.mod_eq_of_lt, restLen_eq he]
  repeat' jstep
  all_goals jleaf

theorem safe_resetCounter : J (fun j => j < l) l (resetCounter env) (Sent env) := by
  have hcap := he.cap
  have hsz := he.size
  unfold resetCounter 
  try simp (disch := omega) only [room_eq he h1 h2, Nat.mod_eq_of_lt, restLen_eq he]
  repeat' jstep
  all_goals jleaf

theorem safe_fwInit : J (fun j => j < l) l (fwInit env) (Sent env) := by
  have hcap := he.cap
  have hsz := he.size
  unfold fwInit 
  try simp (disch := omega) only [room_eq he h1 h2, Nat.mod_eq_of_lt, restLen_eq he]
  repeat' jstep
  all_goals jleaf

theorem safe_fwUpdate : J (fun j => j < l) l (fwUpdate env) (Sent env) := by
  have hcap := he.cap
  have hsz := he.size
  unfold fwUpdate 
  try simp (disch := omega) only [room_eq he h1 h2, Nat.mod_eq_of_lt, restLen_eq he]
  repeat' jstep
  all_goals jleaf

theorem safe_fwComplete : J (fun j => j < l) l (fwComplete env) (Sent env) := by
  have hcap := he.cap
  have hsz := he.size
  unfold fwComplete 
  try simp (disch := omega) only [room_eq he h1 h2, Nat.mod_eq_of_lt, restLen_eq he]
  repeat' jstep
  all_goals jleaf

theorem safe_logInfo : J (fun j => j < l) l (logInfo env) (Sent env) := by
  have hcap := he.cap
  have hsz := he.size
  unfold logInfo 
  try simp (disch := omega) only [room_eq he h1 h2, Nat.mod_eq_of_lt, restLen_eq he]
  repeat' jstep
  all_goals jleaf

theorem safe_logRead : J (fun j => j < l) l (logRead env) (Sent env) := by
  have hcap := he.cap
  have hsz := he.size
  unfold logRead 
  try simp (disch := omega) only [room_eq he h1 h2, Nat.mod_eq_of_lt, restLen_eq he]
  repeat' jstep
  all_goals jleaf

theorem safe_logClear : J (fun j => j < l) l (logClear env) (Sent env) := by
  have hcap := he.cap
  have hsz := he.size
  unfold logClear 
  try simp (disch := omega) only [room_eq he h1 h2, Nat.mod_eq_of_lt, restLen_eq he]
  repeat' jstep
  all_goals jleaf

theorem safe_pfmId : J (fun j => j < l) l (pfmId env) (Sent env) := by
  have hcap := he.cap
  have hsz := he.size
  unfold pfmId optionalByte getManifest idResponse idVersion idPlatform
  try simp (disch := omega) only [room_eq he h1 h2, Nat.mod_eq_of_lt, restLen_eq he]
  repeat' jstep
  all_goals jleaf

theorem safe_pfmInit : J (fun j => j < l) l (pfmInit env) (Sent env) := by
  have hcap := he.cap
  have hsz := he.size
  unfold pfmInit pfmPort
  try simp (disch := omega) only [room_eq he h1 h2, Nat.mod_eq_of_lt, restLen_eq he]
  repeat' jstep
  all_goals jleaf

theorem safe_pfmUpdate : J (fun j => j < l) l (pfmUpdate env) (Sent env) := by
  have hcap := he.cap
  have hsz := he.size
  unfold pfmUpdate pfmPort
  try simp (disch := omega) only [room_eq he h1 h2, Nat.mod_eq_of_lt, restLen_eq he]
  repeat' jstep
  all_goals jleaf

theorem safe_pfmComplete : J (fun j => j < l) l (pfmComplete env) (Sent env) := by
  have hcap := he.cap
  have hsz := he.size
  unfold pfmComplete pfmPort
  try simp (disch := omega) only [room_eq he h1 h2, Nat.mod_eq_of_lt, restLen_eq he]
  repeat' jstep
  all_goals jleaf

theorem safe_manifestInit (k : Kind) : J (fun j => j < l) l (manifestInit env k) (Sent env) := by
  have hcap := he.cap
  have hsz := he.size
  unfold manifestInit 
  try simp (disch := omega) only [room_eq he h1 h2, Nat.mod_eq_of_lt, restLen_eq he]
  repeat' jstep
  all_goals jleaf

theorem safe_manifestUpdate (k : Kind) : J (fun j => j < l) l (manifestUpdate env k) (Sent env) := by
  have hcap := he.cap
  have hsz := he.size
  unfold manifestUpdate 
  try simp (disch := omega) only [room_eq he h1 h2, Nat.mod_eq_of_lt, restLen_eq he]
  repeat' jstep
  all_goals jleaf

theorem safe_cfmComplete : J (fun j => j < l) l (cfmComplete env) (Sent env) := by
  have hcap := he.cap
  have hsz := he.size
  unfold cfmComplete manifestComplete
  try simp (disch := omega) only [room_eq he h1 h2, Nat.mod_eq_of_lt, restLen_eq he]
  repeat' jstep
  all_goals jleaf

theorem safe_pcdComplete : J (fun j => j < l) l (pcdComplete env) (Sent env) := by
  have hcap := he.cap
  have hsz := he.size
  unfold pcdComplete manifestComplete
  try simp (disch := omega) only [room_eq he h1 h2, Nat.mod_eq_of_lt, restLen_eq he]
  repeat' jstep
  all_goals jleaf

theorem safe_cfmId : J (fun j => j < l) l (cfmId env) (Sent env) := by
  have hcap := he.cap
  have hsz := he.size
  unfold cfmId optionalByte getManifest idResponse idVersion idPlatform
  try simp (disch := omega) only [room_eq he h1 h2, Nat.mod_eq_of_lt, restLen_eq he]
  repeat' jstep
  all_goals jleaf

theorem safe_cfmComponents : J (fun j => j < l) l (cfmComponents env) (Sent env) := by
  have hcap := he.cap
  have hsz := he.size
  unfold cfmComponents getManifest componentList noList
  try simp (disch := omega) only [room_eq he h1 h2, Nat.mod_eq_of_lt, restLen_eq he]
  repeat' jstep
  all_goals jleaf

theorem safe_pcdId : J (fun j => j < l) l (pcdId env) (Sent env) := by
  have hcap := he.cap
  have hsz := he.size
  unfold pcdId optionalByte getManifest idResponse idVersion idPlatform
  try simp (disch := omega) only [room_eq he h1 h2, Nat.mod_eq_of_lt, restLen_eq he]
  repeat' jstep
  all_goals jleaf

theorem safe_pcdComponents : J (fun j => j < l) l (pcdComponents env) (Sent env) := by
  have hcap := he.cap
  have hsz := he.size
  unfold pcdComponents getManifest componentList noList
  try simp (disch := omega) only [room_eq he h1 h2, Nat.mod_eq_of_lt, restLen_eq he]
  repeat' jstep
  all_goals jleaf

theorem safe_pcdInstances : J (fun j => j < l) l (pcdInstances env) (Sent env) := by
  have hcap := he.cap
  have hsz := he.size
  unfold pcdInstances 
  try simp (disch := omega) only [room_eq he h1 h2, Nat.mod_eq_of_lt, restLen_eq he]
  repeat' jstep
  all_goals jleaf

theorem safe_hostState : J (fun j => j < l) l (hostState env) (Sent env) := by
  have hcap := he.cap
  have hsz := he.size
  unfold hostState 
  try simp (disch := omega) only [room_eq he h1 h2, Nat.mod_eq_of_lt, restLen_eq he]
  repeat' jstep
  all_goals jleaf

theorem safe_recPrepare : J (fun j => j < l) l (recPrepare env) (Sent env) := by
  have hcap := he.cap
  have hsz := he.size
  unfold recPrepare recPort
  try simp (disch := omega) only [room_eq he h1 h2, Nat.mod_eq_of_lt, restLen_eq he]
  repeat' jstep
  all_goals jleaf

theorem safe_recUpdate : J (fun j => j < l) l (recUpdate env) (Sent env) := by
  have hcap := he.cap
  have hsz := he.size
  unfold recUpdate recPort
  try simp (disch := omega) only [room_eq he h1 h2, Nat.mod_eq_of_lt, restLen_eq he]
  repeat' jstep
  all_goals jleaf

theorem safe_recActivate : J (fun j => j < l) l (recActivate env) (Sent env) := by
  have hcap := he.cap
  have hsz := he.size
  unfold recActivate recPort
  try simp (disch := omega) only [room_eq he h1 h2, Nat.mod_eq_of_lt, restLen_eq he]
  repeat' jstep
  all_goals jleaf

theorem safe_recVersion : J (fun j => j < l) l (recVersion env) (Sent env) := by
  have hcap := he.cap
  have hsz := he.size
  unfold recVersion optionalByte recVersionOf
  try simp (disch := omega) only [room_eq he h1 h2, Nat.mod_eq_of_lt, restLen_eq he]
  repeat' jstep
  all_goals jleaf

theorem safe_unsealResult : J (fun j => j < l) l (unsealResult env) (Sent env) := by
  have hcap := he.cap
  have hsz := he.size
  unfold unsealResult 
  try simp (disch := omega) only [room_eq he h1 h2, Nat.mod_eq_of_lt, restLen_eq he]
  repeat' jstep
  all_goals jleaf

theorem safe_resetConfig : J (fun j => j < l) l (resetConfig env) (Sent env) := by
  have hcap := he.cap
  have hsz := he.size
  unfold resetConfig resetToken
  try simp (disch := omega) only [room_eq he h1 h2, Nat.mod_eq_of_lt, restLen_eq he]
  repeat' jstep
  all_goals jleaf

theorem safe_attData : J (fun j => j < l) l (attData env) (Sent env) := by
  have hcap := he.cap
  have hsz := he.size
  unfold attData 
  try simp (disch := omega) only [room_eq he h1 h2, Nat.mod_eq_of_lt, restLen_eq he]
  repeat' jstep
  all_goals jleaf

theorem safe_attSummary : J (fun j => j < l) l (attSummary env) (Sent env) := by
  have hcap := he.cap
  have hsz := he.size
  unfold attSummary 
  try simp (disch := omega) only [room_eq he h1 h2, Nat.mod_eq_of_lt, restLen_eq he]
  repeat' jstep
  all_goals jleaf

theorem safe_sessionSync : J (fun j => j < l) l (sessionSync env) (Sent env) := by
  have hcap := he.cap
  have hsz := he.size
  unfold sessionSync 
  try simp (disch := omega) only [room_eq he h1 h2, Nat.mod_eq_of_lt, restLen_eq he]
  repeat' jstep
  all_goals jleaf

theorem safe_getHostFlash : J (fun j => j < l) l (getHostFlash env) (Sent env) := by
  have hcap := he.cap
  have hsz := he.size
  unfold getHostFlash 
  try simp (disch := omega) only [room_eq he h1 h2, Nat.mod_eq_of_lt, restLen_eq he]
  repeat' jstep
  all_goals jleaf

theorem safe_setHostFlash : J (fun j => j < l) l (setHostFlash env) (Sent env) := by
  have hcap := he.cap
  have hsz := he.size
  unfold setHostFlash 
  try simp (disch := omega) only [room_eq he h1 h2, Nat.mod_eq_of_lt, restLen_eq he]
  repeat' jstep
  all_goals jleaf

theorem safe_updateStatus : J (fun j => j < l) l (updateStatus env) (Sent env) := by
  have hcap := he.cap
  have hsz := he.size
  unfold updateStatus statusOf statusPort nextVerification
  try simp (disch := omega) only [room_eq he h1 h2, Nat.mod_eq_of_lt, restLen_eq he]
  repeat' jstep
  all_goals jleaf

theorem safe_extStatus : J (fun j => j < l) l (extStatus env) (Sent env) := by
  have hcap := he.cap
  have hsz := he.size
  unfold extStatus extStatusOf extStatusErr
  try simp (disch := omega) only [room_eq he h1 h2, Nat.mod_eq_of_lt, restLen_eq he]
  repeat' jstep
  all_goals jleaf

theorem safe_forceAttestation : J (fun j => j < l) l (forceAttestation env) (Sent env) := by
  have hcap := he.cap
  have hsz := he.size
  have hrl := restLen_eq he hl hc
  unfold forceAttestation
  repeat' jstep
  all_goals (try simp only [hrl] at *)
  all_goals jleaf

theorem safe_forceInfo : J (fun j => j < l) l (forceInfo env) (Sent env) := by
  have hcap := he.cap
  have hsz := he.size
  unfold forceInfo 
  try simp (disch := omega) only [room_eq he h1 h2, Nat.mod_eq_of_lt, restLen_eq he]
  repeat' jstep
  all_goals jleaf

theorem safe_heapStats : J (fun j => j < l) l (heapStats env) (Sent env) := by
  have hcap := he.cap
  have hsz := he.size
  unfold heapStats 
  try simp (disch := omega) only [room_eq he h1 h2, Nat.mod_eq_of_lt, restLen_eq he]
  repeat' jstep
  all_goals jleaf

theorem safe_stackStats : J (fun j => j < l) l (stackStats env) (Sent env) := by
  have hcap := he.cap
  have hsz := he.size
  unfold stackStats 
  try simp (disch := omega) only [room_eq he h1 h2, Nat.mod_eq_of_lt, restLen_eq he]
  repeat' jstep
  all_goals jleaf

theorem safe_debugState : J (fun j => j < l) l (debugState env) (Sent env) := by
  have hcap := he.cap
  have hsz := he.size
  unfold debugState 
  try simp (disch := omega) only [room_eq he h1 h2, Nat.mod_eq_of_lt, restLen_eq he]
  repeat' jstep
  all_goals jleaf

theorem safe_debugFill : J (fun j => j < l) l (debugFill env) (Sent env) := by
  have hcap := he.cap
  have hsz := he.size
  unfold debugFill 
  try simp (disch := omega) only [room_eq he h1 h2, Nat.mod_eq_of_lt, restLen_eq he]
  repeat' jstep
  all_goals jleaf

end
end Verif.Protocol
