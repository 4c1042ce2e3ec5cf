import Verif.Protocol.Exact
/-! The handlers give exactly the answers of the specification: manifests, hosts, recovery images,
sessions, attestation. -/
namespace Verif.Protocol
open Spec

section
variable {env : Env} (he : Faithful env) (h12 : 12 ≤ env.maxResp) (hm : env.maxResp ≤ 4096) {msg : Bytes}
  (hl : 5 ≤ msg.length) (hc : msg.length ≤ 4096) {mem : Nat → Option UInt8} (hv : ∀ i, 0 ≤ i → i < msg.length → mem i = msg[i]?)
  {ka : Nat} {cs : List Call} (il : ItemLen)
include he h12 hm hl hc hv

omit he h12 hm hl hc hv in
theorem stringz_eq {d : Bytes} (h : (0 : UInt8) ∈ d) : stringz d = d.take ((string d).length + 1) := by
  unfold stringz string
  induction d with
  | nil => cases h
  | cons a t ih =>
    by_cases ha : a = 0
    · simp [ha]
    · have ht : (0 : UInt8) ∈ t := by
        rcases List.mem_cons.1 h with h | h
        · exact absurd h.symm ha
        · exact h
      have := ih ht
      simp only [List.takeWhile_cons, ha, ne_eq, not_false_eq_true, decide_true, if_true, List.cons_append, List.length_cons, List.take_succ_cons]
      rw [this]

omit hl hc hv in
theorem id_response {k : Kind} {id : Nat} {present : Bool} {l : Nat} (hcap : env.cap = 4096) (hid : id ≤ 1) :
    AV mem l cs ka (idResponse env k id present) (idAnswer env cs k (id == 1) present) := by
  unfold idResponse
  rcases (show id = 0 ∨ id = 1 by omega) with rfl | rfl
  · rw [if_pos rfl]
    unfold idVersion
    rcases present with _ | _
    · simp only [idAnswer, Bool.false_eq_true, if_false, show (0 == 1) = false from rfl]
      repeat' astep
      refine AV.some (by simp [le_length]) ?_
      atleaf
    · simp only [idAnswer, if_true, show (0 == 1) = false from rfl]
      repeat' astep
      refine AV.some (by simp [le_length]) ?_
      atleaf
  · rw [if_neg (by decide)]
    unfold idPlatform
    rw [roomS_eq he h12 hm (by decide) (by decide)]
    rcases present with _ | _
    · simp only [idAnswer, Bool.false_eq_true, if_false, show (1 == 1) = true from rfl]
      refine AV.put8B (by omega) <| AV.putB (by simp; omega) ?_
      refine AV.some (by simp) ?_
      atleaf
    · simp only [idAnswer, if_true, show (1 == 1) = true from rfl]
      repeat' astep
      have h1 : (0 : UInt8) ∈ (env.reply cs (.platformId k (env.maxResp - 6))).data := ha.2 _ h0
      generalize env.reply cs (.platformId k (env.maxResp - 6)) = r at h1 ⊢
      unfold AV
      rw [bind_run (m := strLen r.data) (x := (r.data.takeWhile (· ≠ 0)).length + 1) (t := ⟨upd (upd mem 6 r.data) 5 (le 1 1), l, .platformId k (env.maxResp - 6) :: cs, ka⟩)
        (by unfold strLen; rw [if_pos h1])]
      refine AV.some (by simp [stringz, string]; omega) ?_
      refine At.cons At.upd (At.skip (by simp [le_length]) ?_)
      have hs : stringz r.data = r.data.take ((string r.data).length + 1) := stringz_eq h1
      rw [hs]
      exact At.upd.take

omit hl hc hv in
theorem manifest_response {k : Kind} {id region : Nat} {l : Nat} (hcap : env.cap = 4096) (hid : id ≤ 1) (hr : region ≤ 1) (hk : env.has (mgrPart k) = true) :
    AV mem l cs ka (do
      let p ← getManifest env k (region == 1)
      releasing env k true (idResponse env k id p)) (manifestIdAnswer env cs k region id) := by
  unfold manifestIdAnswer getManifest
  rw [if_pos hk]
  refine AV.passB (by omega) ?_
  repeat' astep
  exact id_response he h12 hm hcap hid

omit he h12 hm hl hc hv in
/-- Reading a byte that has just been stored. -/
theorem AV.u8S {i l : Nat} {b : UInt8} {f : Nat → M Unit} {o : Ans} (hb : mem i = Option.some b) (hc : i < env.cap)
    (h : AV mem l cs ka (f b.toNat) o) : AV mem l cs ka (u8 env i >>= f) o := by
  unfold AV
  rw [bind_run (m := u8 env i) (x := b.toNat) (t := ⟨mem, l, cs, ka⟩) (by unfold u8; rw [if_neg (by omega)]; simp only [hb])]
  exact h

omit he h12 hm hl hc in
/-- A zero stored behind the request, for an optional last byte. -/
theorem behind {i : Nat} (hi : i = msg.length) : (∀ j, 0 ≤ j → j < (msg ++ [0]).length → upd mem i [0] j = (msg ++ [0])[j]?) := by
  subst hi
  intro j _ hj
  rw [List.length_append] at hj
  unfold upd
  by_cases h : j < msg.length
  · rw [if_neg (by omega), List.getElem?_append_left h]; exact hv j (by omega) h
  · rw [if_pos (by simp at hj ⊢; omega), List.getElem?_append_right (by omega)]

omit he h12 hm hl hc hv in
theorem byte_append {i : Nat} (hi : i < msg.length) : byte (msg ++ [0]) i = byte msg i := by
  unfold byte; rw [List.getD_eq_getElem?_getD, List.getD_eq_getElem?_getD, List.getElem?_append_left hi]
omit he h12 hm hl hc hv in
theorem byte_last {i : Nat} (hi : i = msg.length) : byte (msg ++ [0]) i = 0 := by
  subst hi; unfold byte; simp

theorem exact_pfmId (h : byte msg 4 = 0x59) : AV mem msg.length cs ka (pfmId env) (answer env cs il msg) := by
  have hcap := he.cap
  simp only [answer, h]
  unfold pfmId optionalByte
  refine AV.lenB ?_
  by_cases h7 : msg.length = 7
  · rw [if_pos h7, if_pos h7]
    refine AV.passB (by omega) ?_
    refine AV.putB (by simp; omega) ?_
    have hv' := behind hv h7.symm
    have hl' : (msg ++ [0]).length = 8 := by simp [h7]
    refine AV.u8B hv' (by omega) (by omega) (by omega) <| AV.u8B hv' (by omega) (by omega) (by omega) ?_
    rw [byte_append (show 5 < msg.length by omega), byte_last h7.symm]
    refine AV.unlessB (by simp) fun hp => ?_
    rcases hk : env.has (.pfmMgr (byte msg 5)) with _ | _
    · simp only [Bool.false_eq_true, if_false]
      unfold manifestIdAnswer
      rw [if_neg (by simp [mgrPart, hk])]
      exact id_response he h12 hm hcap (by omega)
    · simp only [if_true]
      refine AV.u8B hv' (by omega) (by omega) (by omega) ?_
      rw [byte_append (show 6 < msg.length by omega)]
      by_cases hr : byte msg 6 ≤ 1
      · refine AV.noB (by simp; omega) ?_
        exact manifest_response he h12 hm hcap (by omega) hr hk
      · unfold manifestIdAnswer refuse
        rw [if_pos (by simpa [mgrPart] using hk), if_pos (by omega), show decide (byte msg 6 > 1) = true by simp; omega]
        rfl
  · rw [if_neg h7, if_neg h7]
    by_cases h8 : msg.length = 8
    rotate_left
    · unfold refuse
      rw [if_pos ⟨h7, h8⟩, show (msg.length != 7 + 1) = true by simpa using h8]
      rfl
    refine AV.passB (by omega) ?_
    refine AV.noB (by simpa using h8) ?_
    refine AV.u8B hv (by omega) (by omega) (by omega) <| AV.u8B hv (by omega) (by omega) (by omega) ?_
    refine AV.unlessB (by simp) fun hp => ?_
    rcases hk : env.has (.pfmMgr (byte msg 5)) with _ | _
    · simp only [Bool.false_eq_true, if_false]
      unfold manifestIdAnswer
      rw [if_neg (by simp [mgrPart, hk])]
      exact id_response he h12 hm hcap (by omega)
    · simp only [if_true]
      refine AV.u8B hv (by omega) (by omega) (by omega) ?_
      by_cases hr : byte msg 6 ≤ 1
      · refine AV.noB (by simp; omega) ?_
        exact manifest_response he h12 hm hcap (by omega) hr hk
      · unfold manifestIdAnswer refuse
        rw [if_pos (by simpa [mgrPart] using hk), if_pos (by omega), show decide (byte msg 6 > 1) = true by simp; omega]
        rfl

theorem exact_cfmId (h : byte msg 4 = 0x5E) : AV mem msg.length cs ka (cfmId env) (answer env cs il msg) := by
  have hcap := he.cap
  simp only [answer, h]
  unfold cfmId optionalByte
  refine AV.lenB ?_
  by_cases h7 : msg.length = 6
  · rw [if_pos h7, if_pos h7]
    refine AV.passB (by omega) ?_
    refine AV.putB (by simp; omega) ?_
    have hv' := behind hv h7.symm
    have hl' : (msg ++ [0]).length = 7 := by simp [h7]
    refine AV.u8B hv' (by omega) (by omega) (by omega) ?_
    rw [byte_last h7.symm]
    refine AV.unlessB (by simp) fun hp => ?_
    rcases hk : env.has .cfmMgr with _ | _
    · simp only [Bool.false_eq_true, if_false]
      unfold manifestIdAnswer
      rw [if_neg (by simp [mgrPart, hk])]
      exact id_response he h12 hm hcap (by omega)
    · simp only [if_true]
      refine AV.u8B hv' (by omega) (by omega) (by omega) ?_
      rw [byte_append (show 5 < msg.length by omega)]
      by_cases hr : byte msg 5 ≤ 1
      · refine AV.noB (by simp; omega) ?_
        exact manifest_response he h12 hm hcap (by omega) hr hk
      · unfold manifestIdAnswer refuse
        rw [if_pos (by simpa [mgrPart] using hk), if_pos (by omega), show decide (byte msg 5 > 1) = true by simp; omega]
        rfl
  · rw [if_neg h7, if_neg h7]
    by_cases h8 : msg.length = 7
    rotate_left
    · unfold refuse
      rw [if_pos ⟨h7, h8⟩, show (msg.length != 6 + 1) = true by simpa using h8]
      rfl
    refine AV.passB (by omega) ?_
    refine AV.noB (by simpa using h8) ?_
    refine AV.u8B hv (by omega) (by omega) (by omega) ?_
    refine AV.unlessB (by simp) fun hp => ?_
    rcases hk : env.has .cfmMgr with _ | _
    · simp only [Bool.false_eq_true, if_false]
      unfold manifestIdAnswer
      rw [if_neg (by simp [mgrPart, hk])]
      exact id_response he h12 hm hcap (by omega)
    · simp only [if_true]
      refine AV.u8B hv (by omega) (by omega) (by omega) ?_
      by_cases hr : byte msg 5 ≤ 1
      · refine AV.noB (by simp; omega) ?_
        exact manifest_response he h12 hm hcap (by omega) hr hk
      · unfold manifestIdAnswer refuse
        rw [if_pos (by simpa [mgrPart] using hk), if_pos (by omega), show decide (byte msg 5 > 1) = true by simp; omega]
        rfl

theorem exact_pcdId (h : byte msg 4 = 0x62) : AV mem msg.length cs ka (pcdId env) (answer env cs il msg) := by
  have hcap := he.cap
  simp only [answer, h]
  unfold pcdId optionalByte
  refine AV.lenB ?_
  by_cases h7 : msg.length = 5
  · rw [if_pos h7, if_pos h7]
    refine AV.passB (by omega) ?_
    refine AV.putB (by simp; omega) ?_
    have hv' := behind hv h7.symm
    have hl' : (msg ++ [0]).length = 6 := by simp [h7]
    refine AV.u8B hv' (by omega) (by omega) (by omega) ?_
    rw [byte_last h7.symm]
    refine AV.unlessB (by simp) fun hp => ?_
    rcases hk : env.has .pcdMgr with _ | _
    · simp only [Bool.false_eq_true, if_false]
      unfold manifestIdAnswer
      rw [if_neg (by simp [mgrPart, hk])]
      exact id_response he h12 hm hcap (by omega)
    · simp only [if_true]
      exact manifest_response (region := 0) he h12 hm hcap (by omega) (by omega) hk
  · rw [if_neg h7, if_neg h7]
    by_cases h8 : msg.length = 6
    rotate_left
    · unfold refuse
      rw [if_pos ⟨h7, h8⟩, show (msg.length != 5 + 1) = true by simpa using h8]
      rfl
    refine AV.passB (by omega) ?_
    refine AV.noB (by simpa using h8) ?_
    refine AV.u8B hv (by omega) (by omega) (by omega) ?_
    refine AV.unlessB (by simp) fun hp => ?_
    rcases hk : env.has .pcdMgr with _ | _
    · simp only [Bool.false_eq_true, if_false]
      unfold manifestIdAnswer
      rw [if_neg (by simp [mgrPart, hk])]
      exact id_response he h12 hm hcap (by omega)
    · simp only [if_true]
      exact manifest_response (region := 0) he h12 hm hcap (by omega) (by omega) hk

theorem exact_pfmInit (h : byte msg 4 = 0x5B) : AV mem msg.length cs ka (pfmInit env) (answer env cs il msg) := by
  have hcap := he.cap
  simp only [answer, h]
  unfold pfmInit
  unfold work onPort pfmPort
  repeat' astep

theorem exact_pfmComplete (h : byte msg 4 = 0x5D) : AV mem msg.length cs ka (pfmComplete env) (answer env cs il msg) := by
  have hcap := he.cap
  simp only [answer, h]
  unfold pfmComplete
  unfold work onPort pfmPort
  repeat' astep

theorem exact_pfmUpdate (h : byte msg 4 = 0x5C) : AV mem msg.length cs ka (pfmUpdate env) (answer env cs il msg) := by
  have hcap := he.cap
  simp only [answer, h]
  unfold pfmUpdate
  unfold work onPort pfmPort
  repeat' astep
  rw [slice_rest]
  repeat' astep

theorem exact_cfmInit (h : byte msg 4 = 0x5F) : AV mem msg.length cs ka (manifestInit env .cfm) (answer env cs il msg) := by
  have hcap := he.cap
  simp only [answer, h]
  unfold manifestInit
  simp only [cmdPart]
  unfold work
  repeat' astep

theorem exact_cfmUpdate (h : byte msg 4 = 0x60) : AV mem msg.length cs ka (manifestUpdate env .cfm) (answer env cs il msg) := by
  have hcap := he.cap
  simp only [answer, h]
  unfold manifestUpdate
  simp only [cmdPart]
  unfold work
  repeat' astep
  rw [slice_rest]
  repeat' astep

theorem exact_pcdInit (h : byte msg 4 = 0x63) : AV mem msg.length cs ka (manifestInit env .pcd) (answer env cs il msg) := by
  have hcap := he.cap
  simp only [answer, h]
  unfold manifestInit
  simp only [cmdPart]
  unfold work
  repeat' astep

theorem exact_pcdUpdate (h : byte msg 4 = 0x64) : AV mem msg.length cs ka (manifestUpdate env .pcd) (answer env cs il msg) := by
  have hcap := he.cap
  simp only [answer, h]
  unfold manifestUpdate
  simp only [cmdPart]
  unfold work
  repeat' astep
  rw [slice_rest]
  repeat' astep

theorem exact_cfmComplete (h : byte msg 4 = 0x61) : AV mem msg.length cs ka (cfmComplete env) (answer env cs il msg) := by
  have hcap := he.cap
  simp only [answer, h]
  unfold cfmComplete manifestComplete
  unfold work
  simp only [if_true, Bool.true_and, cmdPart]
  repeat' astep

theorem exact_pcdComplete (h : byte msg 4 = 0x65) : AV mem msg.length cs ka (pcdComplete env) (answer env cs il msg) := by
  have hcap := he.cap
  simp only [answer, h]
  unfold pcdComplete manifestComplete work
  simp only [cmdPart]
  refine AV.lenB <| AV.unlessB (by simp) fun _ => ?_
  by_cases h6 : msg.length = 6
  · rw [show (msg.length == 6) = true by simpa using h6, if_neg (show ¬ msg.length = 5 by omega)]
    simp only [if_true, Bool.true_and]
    refine AV.lenB <| AV.noB (by simpa using h6) ?_
    repeat' astep
  · rw [show (msg.length == 6) = false by simpa using h6, if_pos (show msg.length = 5 by omega)]
    simp only [Bool.false_eq_true, if_false, Bool.false_and]
    refine AV.lenB <| AV.noB rfl ?_
    repeat' astep

omit hl hc hv in
theorem no_list {l : Nat} (hcap : env.cap = 4096) : AV mem l cs ka (noList env) (data (0 :: le 4 0)) := by
  unfold noList
  repeat' astep
  refine AV.some (by simp [le_length]) ?_
  atleaf

omit hl hc hv in
theorem component_list {k : Kind} {off l : Nat} {pending : Bool} (hcap : env.cap = 4096) :
    AV mem l (.manifest k pending :: cs) ka
      (if ((env.reply cs (.manifest k pending)).val != 0) = true then componentList env k off else noList env)
      (if (env.reply cs (.manifest k pending)).val ≠ 0 then do
        ended (env.reply (.manifest k pending :: cs) (.manifestId k))
        let _ ← given (env.reply (.manifestId k :: .manifest k pending :: cs) (.components k off (env.maxResp - 10)))
        data (1 :: le 4 (env.reply (.manifest k pending :: cs) (.manifestId k)).val ++
          (env.reply (.manifestId k :: .manifest k pending :: cs) (.components k off (env.maxResp - 10))).data)
      else data (0 :: le 4 0)) := by
  refine AV.ite (by simp) (fun _ => ?_) fun _ => no_list he h12 hm hcap
  unfold componentList
  rw [room_eq he h12 hm (by decide)]
  repeat' astep
  have h1 := ha.2 _ h0
  refine AV.some (by simp only [List.length_append, List.length_cons, le_length]; omega) ?_
  atleaf

theorem exact_cfmComponents (h : byte msg 4 = 0x8D) : AV mem msg.length cs ka (cfmComponents env) (answer env cs il msg) := by
  have hcap := he.cap
  simp only [answer, h]
  unfold cfmComponents
  unfold listAnswer getManifest
  repeat' astep
  refine AV.ite (by simp [mgrPart]) (fun hk => ?_) fun hk => no_list he h12 hm hcap
  repeat' astep
  exact component_list he h12 hm hcap

theorem exact_pcdComponents (h : byte msg 4 = 0x8C) : AV mem msg.length cs ka (pcdComponents env) (answer env cs il msg) := by
  have hcap := he.cap
  simp only [answer, h]
  unfold pcdComponents
  unfold listAnswer getManifest
  repeat' astep
  refine AV.ite (by simp [mgrPart]) (fun hk => ?_) fun hk => no_list he h12 hm hcap
  refine AV.passB (by omega) ?_
  repeat' astep
  exact component_list he h12 hm hcap

theorem exact_pcdInstances (h : byte msg 4 = 0x8F) : AV mem msg.length cs ka (pcdInstances env) (answer env cs il msg) := by
  have hcap := he.cap
  simp only [answer, h]
  unfold pcdInstances
  rw [room_eq he h12 hm (by decide)]
  repeat' astep
  have h1 := ha.2 _ h0
  refine AV.some (by simp only [List.length_append, le_length]; omega) ?_
  atleaf

end

end Verif.Protocol
