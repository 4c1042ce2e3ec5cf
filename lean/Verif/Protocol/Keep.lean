import Verif.Protocol.Effects
/-! Handlers leave the header and the command of the message alone. -/
namespace Verif.Protocol
open Spec

/-- A computation that does not change the first bytes of the message (with the exception of `x`). -/
def Keeps (x : Nat) (m : M α) : Prop := ∀ s j, j < 5 → j ≠ x → (m s).2.mem j = s.mem j

section
variable {x : Nat}
theorem Keeps.of {m : M α} (h : ∀ s, (m s).2.mem = s.mem) : Keeps x m := fun s j _ _ => by rw [h]

theorem Keeps.bind {m : M α} {f : α → M β} (hm : Keeps x m) (hf : ∀ a, Keeps x (f a)) : Keeps x (m >>= f) := by
  intro s j hj hx
  have h1 := hm s j hj hx
  rcases he : m s with ⟨r | r, t⟩
  · rw [bind_err he]
    rw [he] at h1; exact h1
  · rw [bind_run he]
    rw [he] at h1
    rw [hf r t j hj hx, h1]

theorem Keeps.pure {a : α} : Keeps x (Pure.pure a) := .of fun _ => rfl
theorem Keeps.fail {e : Err} : Keeps x (Protocol.fail e : M α) := .of fun _ => rfl
theorem Keeps.rcErr {e : Rc} : Keeps x (Protocol.rcErr e : M α) := .of fun _ => rfl
theorem Keeps.len : Keeps x Protocol.len := .of fun _ => rfl
theorem Keeps.setLen {n : Nat} : Keeps x (Protocol.setLen n) := .of fun _ => rfl
theorem Keeps.setKeyAlg {n : Nat} : Keeps x (Protocol.setKeyAlg n) := .of fun _ => rfl
theorem Keeps.getKeyAlg : Keeps x Protocol.getKeyAlg := .of fun _ => rfl
theorem Keeps.u8 {env : Env} {i : Nat} : Keeps x (Protocol.u8 env i) := .of fun s => by
  unfold Protocol.u8; split
  · rfl
  · split <;> rfl
theorem Keeps.u16 {env : Env} {i : Nat} : Keeps x (Protocol.u16 env i) :=
  .bind .u8 fun _ => .bind .u8 fun _ => .pure
theorem Keeps.u32 {env : Env} {i : Nat} : Keeps x (Protocol.u32 env i) :=
  .bind .u16 fun _ => .bind .u16 fun _ => .pure
theorem Keeps.bytes {env : Env} : ∀ {n i : Nat}, Keeps x (Protocol.bytes env i n)
  | 0, _ => .pure
  | _ + 1, _ => .bind .u8 fun _ => .bind .bytes fun _ => .pure
theorem Keeps.put {env : Env} {i : Nat} {d : Bytes} (h : 5 ≤ i) : Keeps x (Protocol.put env i d) := fun s j hj _ => by
  unfold Protocol.put; split
  · rfl
  · show upd s.mem i d j = _
    unfold upd; rw [if_neg (by omega)]
theorem Keeps.putx {env : Env} {d : Bytes} (h : d.length = 1) : Keeps x (Protocol.put env x d) := fun s j hj hx => by
  unfold Protocol.put; split
  · rfl
  · show upd s.mem x d j = _
    unfold upd; rw [if_neg (by omega)]
theorem Keeps.put8 {env : Env} {i v : Nat} (h : 5 ≤ i) : Keeps x (Protocol.put8 env i v) := .put h
theorem Keeps.put8x {env : Env} {v : Nat} : Keeps x (Protocol.put8 env x v) := .putx rfl
theorem Keeps.put16 {env : Env} {i v : Nat} (h : 5 ≤ i) : Keeps x (Protocol.put16 env i v) := .put h
theorem Keeps.put32 {env : Env} {i v : Nat} (h : 5 ≤ i) : Keeps x (Protocol.put32 env i v) := .put h
theorem Keeps.call {env : Env} {c : Call} : Keeps x (Protocol.call env c) := .of fun _ => rfl
theorem Keeps.callAt {env : Env} {i : Nat} {c : Call} (h : 5 ≤ i) : Keeps x (Protocol.callAt env i c) :=
  .bind .call fun _ => .bind (.put h) fun _ => .pure
theorem Keeps.unlessErr {c : Bool} {e : Err} : Keeps x (Protocol.unlessErr c e) := by
  cases c
  · exact .pure
  · exact .fail
theorem Keeps.done {r : Reply} : Keeps x (Protocol.done r) := by
  unfold Protocol.done; split
  · exact .pure
  · exact .rcErr
theorem Keeps.value {r : Reply} : Keeps x (Protocol.value r) := by
  unfold Protocol.value; split
  · exact .pure
  · exact .rcErr
theorem Keeps.strLen {d : Bytes} : Keeps x (Protocol.strLen d) := .of fun s => by
  unfold Protocol.strLen; split <;> rfl
theorem Keeps.ite {c : Prop} [Decidable c] {m n : M α} (hm : Keeps x m) (hn : Keeps x n) : Keeps x (if c then m else n) := by
  split <;> assumption
theorem Keeps.releasing {env : Env} {k : Kind} {b : Bool} {m : M Unit} (hm : Keeps x m) : Keeps x (Protocol.releasing env k b m) := by
  intro s j hj hx
  have h := hm s j hj hx
  unfold Protocol.releasing
  revert h
  rcases m s with ⟨r | r, t⟩ <;> intro h <;> simp only at h ⊢
  · cases b
    · exact h
    · cases r <;> exact h
  · cases b <;> exact h
theorem Keeps.strcmpAt {env : Env} : ∀ {i : Nat} {id : Bytes}, Keeps x (Protocol.strcmpAt env i id)
  | _, [] => .bind .u8 fun _ => .pure
  | _, _ :: _ => .bind .u8 fun _ => .ite .strcmpAt .pure
theorem Keeps.findFw {env : Env} {i : Nat} : ∀ {ids : List Bytes}, Keeps x (Protocol.findFw env i ids)
  | [] => .pure
  | _ :: _ => .bind .strcmpAt fun _ => .ite .pure .findFw
end

/-- One step towards `Keeps`. -/
macro "kstep" : tactic => `(tactic| first
  | exact Keeps.pure | exact Keeps.fail | exact Keeps.rcErr | exact Keeps.len | exact Keeps.setLen | exact Keeps.setKeyAlg
  | exact Keeps.getKeyAlg | exact Keeps.u8 | exact Keeps.u16 | exact Keeps.u32 | exact Keeps.bytes | exact Keeps.put (by decide)
  | exact Keeps.put8 (by decide) | exact Keeps.put16 (by decide) | exact Keeps.put32 (by decide) | exact Keeps.call | exact Keeps.callAt (by decide)
  | exact Keeps.unlessErr | exact Keeps.done | exact Keeps.value | exact Keeps.strLen | exact Keeps.findFw | exact Keeps.put8x
  | apply Keeps.bind | apply Keeps.ite | apply Keeps.releasing | split | intro _)

section
attribute [local irreducible] Keeps u8 u16 u32 bytes put put8 put16 put32 call callAt setLen Protocol.len fail rcErr done value unlessErr setKeyAlg getKeyAlg strLen releasing findFw

theorem keeps_exchangeKeys {env : Env} : Keeps 3 (exchangeKeys env) := by
  unfold exchangeKeys hmacAt keysDone clearCrypt
  repeat' kstep

theorem keeps_getFwVersion {env : Env} : Keeps 5 (getFwVersion env) := by
  unfold getFwVersion 
  repeat' kstep

theorem keeps_getDigests {env : Env} : Keeps 5 (getDigests env) := by
  unfold getDigests digestsSession digestsTail
  repeat' kstep

theorem keeps_getCertificate {env : Env} : Keeps 5 (getCertificate env) := by
  unfold getCertificate certCopy
  repeat' kstep

theorem keeps_getChallenge {env : Env} : Keeps 5 (getChallenge env) := by
  unfold getChallenge challengeSession
  repeat' kstep

theorem keeps_exportCsr {env : Env} : Keeps 5 (exportCsr env) := by
  unfold exportCsr 
  repeat' kstep

theorem keeps_importCert {il : ItemLen} {env : Env} : Keeps 5 (importCert il env) := by
  unfold importCert 
  repeat' kstep

theorem keeps_getCertState {env : Env} : Keeps 5 (getCertState env) := by
  unfold getCertState 
  repeat' kstep

theorem keeps_getCapabilities {env : Env} : Keeps 5 (getCapabilities env) := by
  unfold getCapabilities 
  repeat' kstep

theorem keeps_getDeviceInfo {env : Env} : Keeps 5 (getDeviceInfo env) := by
  unfold getDeviceInfo 
  repeat' kstep

theorem keeps_getDeviceId {env : Env} : Keeps 5 (getDeviceId env) := by
  unfold getDeviceId 
  repeat' kstep

theorem keeps_resetCounter {env : Env} : Keeps 5 (resetCounter env) := by
  unfold resetCounter 
  repeat' kstep

theorem keeps_fwInit {env : Env} : Keeps 5 (fwInit env) := by
  unfold fwInit 
  repeat' kstep

theorem keeps_fwUpdate {env : Env} : Keeps 5 (fwUpdate env) := by
  unfold fwUpdate 
  repeat' kstep

theorem keeps_fwComplete {env : Env} : Keeps 5 (fwComplete env) := by
  unfold fwComplete 
  repeat' kstep

theorem keeps_logInfo {env : Env} : Keeps 5 (logInfo env) := by
  unfold logInfo 
  repeat' kstep

theorem keeps_logRead {env : Env} : Keeps 5 (logRead env) := by
  unfold logRead 
  repeat' kstep

theorem keeps_logClear {env : Env} : Keeps 5 (logClear env) := by
  unfold logClear 
  repeat' kstep

theorem keeps_pfmId {env : Env} : Keeps 5 (pfmId env) := by
  unfold pfmId optionalByte getManifest idResponse idVersion idPlatform
  repeat' kstep

theorem keeps_pfmFw {env : Env} : Keeps 5 (pfmFw env) := by
  unfold pfmFw fwLength getManifest fwList fwArg noList
  repeat' kstep

theorem keeps_pfmInit {env : Env} : Keeps 5 (pfmInit env) := by
  unfold pfmInit pfmPort
  repeat' kstep

theorem keeps_pfmUpdate {env : Env} : Keeps 5 (pfmUpdate env) := by
  unfold pfmUpdate pfmPort
  repeat' kstep

theorem keeps_pfmComplete {env : Env} : Keeps 5 (pfmComplete env) := by
  unfold pfmComplete pfmPort
  repeat' kstep

theorem keeps_manifestInit {env : Env} {k : Kind} : Keeps 5 (manifestInit env k) := by
  unfold manifestInit 
  repeat' kstep

theorem keeps_manifestUpdate {env : Env} {k : Kind} : Keeps 5 (manifestUpdate env k) := by
  unfold manifestUpdate 
  repeat' kstep

theorem keeps_cfmComplete {env : Env} : Keeps 5 (cfmComplete env) := by
  unfold cfmComplete manifestComplete
  repeat' kstep

theorem keeps_pcdComplete {env : Env} : Keeps 5 (pcdComplete env) := by
  unfold pcdComplete manifestComplete
  repeat' kstep

theorem keeps_cfmId {env : Env} : Keeps 5 (cfmId env) := by
  unfold cfmId optionalByte getManifest idResponse idVersion idPlatform
  repeat' kstep

theorem keeps_cfmComponents {env : Env} : Keeps 5 (cfmComponents env) := by
  unfold cfmComponents getManifest componentList noList
  repeat' kstep

theorem keeps_pcdId {env : Env} : Keeps 5 (pcdId env) := by
  unfold pcdId optionalByte getManifest idResponse idVersion idPlatform
  repeat' kstep

theorem keeps_pcdComponents {env : Env} : Keeps 5 (pcdComponents env) := by
  unfold pcdComponents getManifest componentList noList
  repeat' kstep

theorem keeps_pcdInstances {env : Env} : Keeps 5 (pcdInstances env) := by
  unfold pcdInstances 
  repeat' kstep

theorem keeps_hostState {env : Env} : Keeps 5 (hostState env) := by
  unfold hostState 
  repeat' kstep

theorem keeps_recVersion {env : Env} : Keeps 5 (recVersion env) := by
  unfold recVersion optionalByte recVersionOf
  repeat' kstep

theorem keeps_recPrepare {env : Env} : Keeps 5 (recPrepare env) := by
  unfold recPrepare recPort
  repeat' kstep

theorem keeps_recUpdate {env : Env} : Keeps 5 (recUpdate env) := by
  unfold recUpdate recPort
  repeat' kstep

theorem keeps_recActivate {env : Env} : Keeps 5 (recActivate env) := by
  unfold recActivate recPort
  repeat' kstep

theorem keeps_unsealMessage {env : Env} : Keeps 5 (unsealMessage env) := by
  unfold unsealMessage unsealTail
  repeat' kstep

theorem keeps_unsealResult {env : Env} : Keeps 5 (unsealResult env) := by
  unfold unsealResult 
  repeat' kstep

theorem keeps_resetConfig {env : Env} : Keeps 5 (resetConfig env) := by
  unfold resetConfig resetToken
  repeat' kstep

theorem keeps_attData {env : Env} : Keeps 5 (attData env) := by
  unfold attData 
  repeat' kstep

theorem keeps_attSummary {env : Env} : Keeps 5 (attSummary env) := by
  unfold attSummary 
  repeat' kstep

theorem keeps_sessionSync {env : Env} : Keeps 5 (sessionSync env) := by
  unfold sessionSync 
  repeat' kstep

theorem keeps_getHostFlash {env : Env} : Keeps 5 (getHostFlash env) := by
  unfold getHostFlash 
  repeat' kstep

theorem keeps_setHostFlash {env : Env} : Keeps 5 (setHostFlash env) := by
  unfold setHostFlash 
  repeat' kstep

theorem keeps_updateStatus {env : Env} : Keeps 5 (updateStatus env) := by
  unfold updateStatus statusOf statusPort nextVerification
  repeat' kstep

theorem keeps_extStatus {env : Env} : Keeps 5 (extStatus env) := by
  unfold extStatus extStatusOf extStatusErr
  repeat' kstep

theorem keeps_forceAttestation {env : Env} : Keeps 5 (forceAttestation env) := by
  unfold forceAttestation 
  repeat' kstep

theorem keeps_forceInfo {env : Env} : Keeps 5 (forceInfo env) := by
  unfold forceInfo 
  repeat' kstep

theorem keeps_heapStats {env : Env} : Keeps 5 (heapStats env) := by
  unfold heapStats 
  repeat' kstep

theorem keeps_stackStats {env : Env} : Keeps 5 (stackStats env) := by
  unfold stackStats 
  repeat' kstep

theorem keeps_debugState {env : Env} : Keeps 5 (debugState env) := by
  unfold debugState 
  repeat' kstep

theorem keeps_debugFill {env : Env} : Keeps 5 (debugFill env) := by
  unfold debugFill 
  repeat' kstep

attribute [local irreducible] getFwVersion getDigests getCertificate getChallenge exportCsr importCert getCertState getCapabilities getDeviceInfo getDeviceId resetCounter fwInit fwUpdate fwComplete logInfo logRead logClear pfmId pfmFw pfmInit pfmUpdate pfmComplete manifestInit manifestUpdate cfmComplete pcdComplete cfmId cfmComponents pcdId pcdComponents pcdInstances hostState recVersion recPrepare recUpdate recActivate unsealMessage unsealResult resetConfig attData attSummary sessionSync getHostFlash setHostFlash updateStatus extStatus forceAttestation forceInfo heapStats stackStats debugState debugFill

theorem keeps_handler {il : ItemLen} {env : Env} {cmd : Nat} (h : cmd ≠ 0x84) : Keeps 5 (handler il env cmd) := by
  unfold handler
  split
  all_goals first
    | contradiction
    | exact keeps_getFwVersion
    | exact keeps_getDigests
    | exact keeps_getCertificate
    | exact keeps_getChallenge
    | exact keeps_exportCsr
    | exact keeps_importCert
    | exact keeps_getCertState
    | exact keeps_getCapabilities
    | exact keeps_getDeviceInfo
    | exact keeps_getDeviceId
    | exact keeps_resetCounter
    | exact keeps_fwInit
    | exact keeps_fwUpdate
    | exact keeps_fwComplete
    | exact keeps_logInfo
    | exact keeps_logRead
    | exact keeps_logClear
    | exact keeps_pfmId
    | exact keeps_pfmFw
    | exact keeps_pfmInit
    | exact keeps_pfmUpdate
    | exact keeps_pfmComplete
    | exact keeps_manifestInit
    | exact keeps_manifestUpdate
    | exact keeps_cfmComplete
    | exact keeps_pcdComplete
    | exact keeps_cfmId
    | exact keeps_cfmComponents
    | exact keeps_pcdId
    | exact keeps_pcdComponents
    | exact keeps_pcdInstances
    | exact keeps_hostState
    | exact keeps_recVersion
    | exact keeps_recPrepare
    | exact keeps_recUpdate
    | exact keeps_recActivate
    | exact keeps_unsealMessage
    | exact keeps_unsealResult
    | exact keeps_resetConfig
    | exact keeps_attData
    | exact keeps_attSummary
    | exact keeps_sessionSync
    | exact keeps_getHostFlash
    | exact keeps_setHostFlash
    | exact keeps_updateStatus
    | exact keeps_extStatus
    | exact keeps_forceAttestation
    | exact keeps_forceInfo
    | exact keeps_heapStats
    | exact keeps_stackStats
    | exact keeps_debugState
    | exact keeps_debugFill
    | exact Keeps.fail
end

end Verif.Protocol
