import Verif.Protocol.Exact2
/-! The handlers give exactly the answers of the specification: supported firmware, hosts, recovery
images, sessions, attestation, diagnosis; then all together. -/
namespace Verif.Protocol
open Spec

theorem strcmp_run {env : Env} {msg : Bytes} {s : St} {a : Nat} (hv : ∀ i, a ≤ i → i < msg.length → s.mem i = msg[i]?)
    (hc : msg.length ≤ env.cap) : ∀ (id : Bytes) (i : Nat), a ≤ i → (0 : UInt8) ∈ msg.drop i → (0 : UInt8) ∉ id →
    strcmpAt env i id s = (.ok (decide (string (msg.drop i) = id)), s)
  | [], i, ha, h0, _ => by
    have hi : i < msg.length := by
      rcases Nat.lt_or_ge i msg.length with h | h
      · exact h
      · rw [List.drop_of_length_le h] at h0; cases h0
    unfold strcmpAt
    rw [bind_run (u8_run hv ha hi (by omega)), List.drop_eq_getElem_cons hi, byte_eq hi]
    unfold string
    show (Except.ok (msg[i].toNat == 0), s) = _
    congr 2
    rw [List.takeWhile_cons]
    by_cases h : msg[i] = 0
    · simp [h]
    · have : msg[i].toNat ≠ 0 := fun h' => h (UInt8.toNat_inj.1 h')
      rw [if_pos (by simpa using h)]
      simp [this]
  | k :: ks, i, ha, h0, hid => by
    have hi : i < msg.length := by
      rcases Nat.lt_or_ge i msg.length with h | h
      · exact h
      · rw [List.drop_of_length_le h] at h0; cases h0
    have hk : k ≠ 0 := fun h => hid (by rw [h]; exact List.mem_cons_self)
    unfold strcmpAt
    rw [bind_run (u8_run hv ha hi (by omega)), List.drop_eq_getElem_cons hi, byte_eq hi]
    by_cases h : msg[i].toNat = k.toNat
    · have he : msg[i] = k := UInt8.toNat_inj.1 h
      rw [if_pos h, strcmp_run hv hc ks (i + 1) (by omega)
        (by rw [List.drop_eq_getElem_cons hi, he] at h0
            rcases List.mem_cons.1 h0 with h' | h'
            · exact absurd h'.symm hk
            · exact h')
        (fun h' => hid (List.mem_cons_of_mem _ h'))]
      congr 2
      unfold string
      rw [List.takeWhile_cons, he]
      simp [hk]
    · rw [if_neg h]
      show (Except.ok false, s) = _
      congr 2
      have he : msg[i] ≠ k := fun h' => h (by rw [h'])
      unfold string
      rw [List.takeWhile_cons]
      by_cases hz : msg[i] = 0
      · simp [hz]
      · simp [hz, he]

theorem find_run {env : Env} {msg : Bytes} {s : St} {a i : Nat} (hv : ∀ i, a ≤ i → i < msg.length → s.mem i = msg[i]?)
    (hc : msg.length ≤ env.cap) (ha : a ≤ i) (h0 : (0 : UInt8) ∈ msg.drop i) : ∀ ids : List Bytes, (∀ id ∈ ids, (0 : UInt8) ∉ id) →
    findFw env i ids s = (.ok (if string (msg.drop i) ∈ ids then .known (string (msg.drop i)) else .unknown), s)
  | [], _ => rfl
  | id :: ids, h => by
    unfold findFw
    rw [bind_run (strcmp_run hv hc id i ha h0 (h id List.mem_cons_self))]
    by_cases he : string (msg.drop i) = id
    · rw [decide_eq_true he, if_pos rfl, if_pos (by rw [he]; exact List.mem_cons_self), he]; rfl
    · rw [decide_eq_false he, if_neg (by decide), find_run hv hc ha h0 ids fun x hx => h x (List.mem_cons_of_mem _ hx)]
      simp only [List.mem_cons, he, false_or]

theorem At.drop {mem : Nat → Option UInt8} {i k : Nat} {d : Bytes} (h : At mem i d) : At mem (i + k) (d.drop k) := by
  intro j hj
  rw [List.length_drop] at hj
  rw [List.getElem?_drop, Nat.add_assoc]
  exact h _ (by omega)

theorem At.byte {mem : Nat → Option UInt8} {msg : Bytes} (hv : ∀ i, 0 ≤ i → i < msg.length → mem i = msg[i]?) {i : Nat} {b : UInt8}
    (hi : i < msg.length) (hb : Spec.byte msg i = b.toNat) : At mem i [b] := by
  intro j hj
  obtain rfl : j = 0 := by simp at hj; exact hj
  rw [Nat.add_zero, hv i (by omega) hi, List.getElem?_eq_getElem hi]
  rw [byte_eq hi] at hb
  rw [UInt8.toNat_inj.1 hb]; rfl

theorem AV.doneL {mem : Nat → Option UInt8} {l ka : Nat} {cs : List Call} {r : Reply} {d : Bytes}
    (h : r.rc = .ok 0 → l = 5 + d.length ∧ At mem 5 d) : AV mem l cs ka (done r) (ended r >>= fun _ => data d) := by
  unfold ended done
  by_cases h0 : r.rc = .ok 0
  · rw [if_pos h0, h0]; exact AV.pure (h h0).1 (h h0).2
  · rw [if_neg h0]
    split
    · contradiction
    · rfl

theorem le4_zero {v : Nat} (h : v % 2 ^ 32 = 0) : le 4 v = le 4 0 := by
  simp only [le]
  rw [show v % 256 = 0 % 256 by omega, show v / 256 % 256 = 0 / 256 % 256 by omega, show v / 256 / 256 % 256 = 0 / 256 / 256 % 256 by omega,
    show v / 256 / 256 / 256 % 256 = 0 / 256 / 256 / 256 % 256 by omega]

section
variable {env : Env} (he : Faithful env) (h12 : 12 ≤ env.maxResp) (hm : env.maxResp ≤ 4096) {msg : Bytes}
  (hl : 5 ≤ msg.length) (hc : msg.length ≤ 4096) {mem : Nat → Option UInt8} (hv : ∀ i, 0 ≤ i → i < msg.length → mem i = msg[i]?)
  {ka : Nat} {cs : List Call} (il : ItemLen)
include he h12 hm hl hc hv

theorem fw_list (ht : Terminated msg) (h : byte msg 4 = 0x5A) (h11 : 11 ≤ msg.length) (hn : ¬ (11 < msg.length ∧ msg.length ≠ 12 + byte msg 11))
    {port region : Nat} :
    AV mem msg.length cs ka (fwList env msg.length port (dword msg 7) (region == 1)) (do
      ended (env.reply cs (.manifestId (.pfm port)))
      let _ ← given (env.reply (.manifestId (.pfm port) :: cs)
        (.versions port (namedFw env port region msg) (dword msg 7) (env.maxResp - 10)))
      data (1 :: le 4 (env.reply cs (.manifestId (.pfm port))).val ++
        (env.reply (.manifestId (.pfm port) :: cs)
          (.versions port (namedFw env port region msg) (dword msg 7) (env.maxResp - 10))).data)) := by
  have hcap := he.cap
  unfold fwList
  rw [room_eq he h12 hm (by decide)]
  repeat' astep
  have hv' : ∀ i, 10 ≤ i → i < msg.length →
      upd (upd mem 5 (le 1 1)) 6 (le 4 (env.reply cs (.manifestId (.pfm port))).val) i = msg[i]? := by
    intro i h1 h2
    unfold upd
    rw [le_length, le_length, if_neg (by omega), if_neg (by omega)]
    exact hv i (by omega) h2
  have hat1 : At (upd (upd mem 5 (le 1 1)) 6 (le 4 (env.reply cs (.manifestId (.pfm port))).val)) 5
      (1 :: le 4 (env.reply cs (.manifestId (.pfm port))).val) := by atleaf
  generalize upd (upd mem 5 (le 1 1)) 6 (le 4 (env.reply cs (.manifestId (.pfm port))).val) = mem' at hv' hat1 ⊢
  have harg : fwArg env msg.length (env.fwIds port (region == 1)) ⟨mem', msg.length, .manifestId (.pfm port) :: cs, ka⟩ =
      (.ok (namedFw env port region msg), ⟨mem', msg.length, .manifestId (.pfm port) :: cs, ka⟩) := by
    unfold fwArg namedFw
    by_cases h12 : msg.length ≤ 12
    · rw [if_pos h12]
      by_cases h' : msg.length > 11
      · rw [if_pos h', bind_run (u8_run (s := ⟨mem', msg.length, .manifestId (.pfm port) :: cs, ka⟩) hv' (by omega) (by omega) (by omega)),
          if_neg (show ¬ byte msg 11 ≠ 0 by omega)]
        rfl
      · rw [if_neg h']; rfl
    · rw [if_neg h12, if_pos (by omega), bind_run (u8_run (s := ⟨mem', msg.length, .manifestId (.pfm port) :: cs, ka⟩) hv' (by omega) (by omega) (by omega)),
        if_pos (show byte msg 11 ≠ 0 by omega)]
      exact find_run (s := ⟨mem', msg.length, .manifestId (.pfm port) :: cs, ka⟩) hv' (by omega) (by omega) (ht h (by omega)) _ (he.ids port _)
  unfold AV
  rw [bind_run harg]
  show AV mem' msg.length (.manifestId (.pfm port) :: cs) ka _ _
  repeat' astep
  have h1 := ha.2 _ h0
  refine AV.some (by simp only [List.length_append, List.length_cons, le_length]; omega) ?_
  refine At.append (At.skip (by simp [le_length]) hat1) ?_
  exact At.upd

theorem exact_pfmFw (ht : Terminated msg) (h : byte msg 4 = 0x5A) : AV mem msg.length cs ka (pfmFw env) (answer env cs il msg) := by
  have hcap := he.cap
  simp only [answer, h]
  unfold pfmFw
  unfold listAnswer getManifest fwLength
  refine AV.lenB ?_
  by_cases h11 : msg.length < 11
  · rw [if_pos h11]
    unfold refuse
    rw [if_pos h11]
    rfl
  refine AV.passB h11 ?_
  rw [if_neg h11]
  have key : ∀ (hn : ¬ (11 < msg.length ∧ msg.length ≠ 12 + byte msg 11)),
      AV mem msg.length cs ka (do
        let port ← u8 env 5
        unlessErr (decide (port ≥ 2)) .outOfRange
        let off ← u32 env 7
        if env.has (.pfmMgr port) then do
          let region ← u8 env 6
          unlessErr (decide (region > 1)) .outOfRange
          let p ← (do
            let r ← call env (.manifest (.pfm port) (region == 1))
            pure (r.val != 0))
          releasing env (.pfm port) true
            (if p then fwList env msg.length port off (region == 1) else noList env)
        else noList env) (do
        refuse (2 ≤ byte msg 5) .outOfRange
        listAnswer env cs (.pfm (byte msg 5)) (byte msg 6)
          (.versions (byte msg 5) (namedFw env (byte msg 5) (byte msg 6) msg) (dword msg 7) (env.maxResp - 10))) := by
    intro hn
    unfold listAnswer
    repeat' astep
    refine AV.ite (by simp [mgrPart]) (fun hk => ?_) fun hk => no_list he h12 hm hcap
    repeat' astep
    refine AV.ite (by simp) (fun _ => ?_) fun _ => no_list he h12 hm hcap
    exact fw_list he h12 hm hl hc hv ht h (by omega) hn
  unfold listAnswer at key
  by_cases h12' : msg.length > 11
  · rw [if_pos h12', M.assoc]
    refine AV.u8B hv (by omega) (by omega) (by omega) ?_
    refine AV.unlessB (p := 11 < msg.length ∧ msg.length ≠ 12 + byte msg 11) (by simp; omega) fun hn => ?_
    exact key hn
  · rw [if_neg h12']
    refine AV.pureB ?_
    refine AV.passB (by omega) ?_
    exact key (by omega)

theorem exact_hostState (h : byte msg 4 = 0x40) : AV mem msg.length cs ka (hostState env) (answer env cs il msg) := by
  have hcap := he.cap
  simp only [answer, h]
  unfold hostState
  unfold hostAnswer onPort
  repeat' astep
  generalize env.reply cs (.inReset (byte msg 5)) = r
  rcases hr : r.rc with (_ | _ | v) | _ | _ | _ | _ | _ | _ | _ <;> simp only
  all_goals repeat' astep
  · refine AV.some rfl ?_
    atleaf
  generalize env.reply (.inReset (byte msg 5) :: cs) (.heldInReset (byte msg 5)) = r
  rcases hr : r.rc with (_ | _ | v) | _ | _ | _ | _ | _ | _ | _ <;> simp only
  all_goals repeat' astep
  · refine AV.some rfl ?_
    atleaf
  · refine AV.some rfl ?_
    atleaf

theorem exact_getHostFlash (h : byte msg 4 = 0x41) : AV mem msg.length cs ka (getHostFlash env) (answer env cs il msg) := by
  have hcap := he.cap
  simp only [answer, h]
  unfold getHostFlash
  unfold onPort
  repeat' astep
  refine AV.some rfl ?_
  show At _ 5 (le 1 _ ++ (le 1 _ ++ (le 1 _ ++ le 1 _)))
  atleaf

theorem exact_setHostFlash (h : byte msg 4 = 0x42) : AV mem msg.length cs ka (setHostFlash env) (answer env cs il msg) := by
  have hcap := he.cap
  simp only [answer, h]
  unfold setHostFlash
  unfold work
  refine AV.lenB <| AV.unlessB (by simp) fun _ => AV.u8B hv (by omega) (by omega) (by omega) ?_
  refine AV.unlessB (by simp) fun _ => AV.u8B hv (by omega) (by omega) (by omega) ?_
  have hch : ∀ k v, choice k v = !(decide (v > k) && v != 255) := by
    intro k v
    unfold choice
    rw [Bool.eq_iff_iff]; simp
  simp only [hch]
  by_cases h1 : (decide (byte msg 6 > 1) && byte msg 6 != 255) = true
  · rw [h1]; unfold refuse; rw [if_pos (.inl rfl)]; rfl
  rw [Bool.not_eq_true] at h1
  refine AV.noB h1 <| AV.u8B hv (by omega) (by omega) (by omega) ?_
  by_cases h2 : (decide (byte msg 7 > 1) && byte msg 7 != 255) = true
  · rw [h2]; unfold refuse; rw [if_pos (.inr (.inl rfl))]; rfl
  rw [Bool.not_eq_true] at h2
  refine AV.noB h2 <| AV.u8B hv (by omega) (by omega) (by omega) ?_
  refine AV.unlessB (by rw [h1, h2]; simp) fun _ => ?_
  repeat' astep

theorem exact_recPrepare (h : byte msg 4 = 0x72) : AV mem msg.length cs ka (recPrepare env) (answer env cs il msg) := by
  have hcap := he.cap
  simp only [answer, h]
  unfold recPrepare
  unfold work onPort recPort
  repeat' astep

theorem exact_recActivate (h : byte msg 4 = 0x74) : AV mem msg.length cs ka (recActivate env) (answer env cs il msg) := by
  have hcap := he.cap
  simp only [answer, h]
  unfold recActivate
  unfold work onPort recPort
  repeat' astep

theorem exact_recUpdate (h : byte msg 4 = 0x73) : AV mem msg.length cs ka (recUpdate env) (answer env cs il msg) := by
  have hcap := he.cap
  simp only [answer, h]
  unfold recUpdate
  unfold work onPort recPort
  repeat' astep
  rw [slice_rest]
  repeat' astep

omit hl hc hv in
theorem rec_version {p l : Nat} (hcap : env.cap = 4096) : AV mem l cs ka (do
      put env 5 (List.replicate 32 0)
      let r ← call env (.recImage p)
      if r.val ≠ 0 then recVersionOf env p else setLen 37) (recAnswer env cs p) := by
  unfold recVersionOf recAnswer
  refine AV.putB (by rw [List.length_replicate]; omega) ?_
  refine AV.callB ?_
  refine AV.ite Iff.rfl (fun _ => ?_) fun _ => AV.some (by rw [List.length_replicate]) At.upd
  repeat' astep
  have h1 : (env.reply (.recImage p :: cs) (.recVersion p 32)).data.length ≤ 32 := ha
  generalize env.reply (.recImage p :: cs) (.recVersion p 32) = r at h1 ⊢
  refine AV.some (by rw [List.length_append, List.length_replicate]; omega) ?_
  refine At.append At.upd (At.skip (by omega) ?_)
  have := (At.upd (mem := mem) (i := 5) (d := List.replicate 32 (0 : UInt8))).drop (k := r.data.length)
  rwa [List.drop_replicate] at this

theorem exact_recVersion (h : byte msg 4 = 0x75) : AV mem msg.length cs ka (recVersion env) (answer env cs il msg) := by
  have hcap := he.cap
  simp only [answer, h]
  unfold recVersion
  unfold onPort optionalByte
  refine AV.lenB ?_
  by_cases h6 : msg.length = 6
  · rw [if_pos h6]
    refine AV.passB (by omega) ?_
    refine AV.putB (by simp; omega) ?_
    have hv' := behind hv h6.symm
    have hl' : (msg ++ [0]).length = 7 := by simp [h6]
    refine AV.u8B hv' (by omega) (by omega) (by omega) ?_
    rw [byte_append (show 5 < msg.length by omega)]
    refine AV.unlessB (by simp; omega) fun _ => AV.unlessB (by simp) fun _ => ?_
    exact rec_version he h12 hm hcap
  · rw [if_neg h6]
    refine AV.unlessB (by simp; omega) fun _ => ?_
    refine AV.u8B hv (by omega) (by omega) (by omega) ?_
    refine AV.unlessB (by simp; omega) fun _ => AV.unlessB (by simp) fun _ => ?_
    exact rec_version he h12 hm hcap

theorem exact_unsealResult (h : byte msg 4 = 0x8A) : AV mem msg.length cs ka (unsealResult env) (answer env cs il msg) := by
  have hcap := he.cap
  simp only [answer, h]
  unfold unsealResult
  rw [roomS_eq he h12 hm (by decide) (by decide), show env.maxResp - (12 - 1) = env.maxResp - 11 from rfl]
  unfold unsealAnswer
  repeat' astep
  refine AV.ite Iff.rfl (fun hz => ?_) fun _ => ?_
  · repeat' astep
    have hle : le 4 (env.reply cs (.unsealResult (env.maxResp - 11))).val = le 4 0 := le4_zero hz
    rw [← hle]
    refine AV.some (by simp only [List.length_append, le_length]; omega) ?_
    atleaf
  · refine AV.some (by rw [le_length]) ?_
    atleaf

theorem exact_resetConfig (h : byte msg 4 = 0x6A) : AV mem msg.length cs ka (resetConfig env) (answer env cs il msg) := by
  have hcap := he.cap
  simp only [answer, h]
  unfold resetConfig
  refine AV.lenB <| AV.unlessB (by simp) fun _ => ?_
  have key : ∀ tok, AV mem msg.length cs ka (do
      let t ← u8 env 5
      let r ← call env (.authorize t tok)
      match r.rc with
      | .ok 0 =>
        if r.val ≠ 0 then do
          let r ← call env .execute
          done r
          setLen 0
        else fail .unsupportedOperation
      | .challenge => do
        unlessErr (decide (r.data.length > room env 5)) .bufTooSmall
        put env 5 r.data
        setLen (r.data.length + 5)
      | .unsupportedOp => fail .unsupportedIndex
      | rc => rcErr rc) (resetAnswer env cs (.authorize (byte msg 5) tok)) := by
    intro tok
    unfold resetAnswer work
    rw [room_eq he h12 hm (by decide)]
    repeat' astep
    simp only []
    generalize env.reply cs (.authorize (byte msg 5) tok) = r
    rcases hr : r.rc with (_ | v) | _ | _ | _ | _ | _ | _ | _ <;> simp only
    all_goals repeat' astep
    · refine AV.ite Iff.rfl (fun _ => ?_) fun _ => ?_
      all_goals repeat' astep
    · refine AV.putB (by omega) ?_
      exact AV.some (by omega) At.upd
  unfold resetToken
  by_cases h6 : msg.length = 6
  · rw [if_pos h6, if_pos h6]
    exact AV.pureB (key none)
  · rw [if_neg h6, if_neg h6, M.assoc]
    refine AV.bytesB hv (by omega) (by omega) ?_
    rw [slice_rest]
    exact AV.pureB (key _)

theorem exact_attData (h : byte msg 4 = 0x52) : AV mem msg.length cs ka (attData env) (answer env cs il msg) := by
  have hcap := he.cap
  simp only [answer, h]
  unfold attData
  rw [room_eq he h12 hm (by decide)]
  unfold deliver
  repeat' astep
  have h1 := ha.2 _ h0
  exact AV.some (by omega) At.upd

theorem exact_attSummary (h : byte msg 4 = 0x53) : AV mem msg.length cs ka (attSummary env) (answer env cs il msg) := by
  have hcap := he.cap
  simp only [answer, h]
  unfold attSummary
  repeat' astep
  generalize env.reply cs (.component (dword msg 5) (byte msg 9)) = r
  rcases hr : r.rc with v | _ | _ | _ | _ | _ | _ | _ <;> simp only
  all_goals repeat' astep
  have h1 := ha
  simp only [Answer] at h1
  refine AV.some (by simp only [List.length_append, le_length]; omega) ?_
  atleaf

theorem exact_sessionSync (h : byte msg 4 = 0x85) : AV mem msg.length cs ka (sessionSync env) (answer env cs il msg) := by
  have hcap := he.cap
  simp only [answer, h]
  unfold sessionSync
  rw [room_eq he h12 hm (by decide)]
  unfold deliver
  repeat' astep
  have h1 := ha.2 _ h0
  exact AV.some (by omega) At.upd

theorem exact_exchangeKeys (hr : ¬ Ragged msg) (h : byte msg 4 = 0x84) : AV mem msg.length cs ka (exchangeKeys env) (answer env cs il msg) := by
  have hcap := he.cap
  simp only [answer, h]
  unfold exchangeKeys
  rw [room_eq he h12 hm (by decide)]
  unfold keyAnswer clearCrypt keysDone hmacAt
  refine AV.unlessB (by simp) fun _ => AV.lenB <| AV.unlessB (by simp; omega) fun h7 => AV.u8B hv (by omega) (by omega) (by omega) ?_
  refine AV.ite Iff.rfl (fun ht => ?_) fun h0 => ?_
  · refine AV.bytesB hv (by omega) (by omega) ?_
    rw [slice_rest]
    repeat' astep
    refine AV.some (by simp only [List.length_cons]; omega) ?_
    exact At.cons (At.skip (by simp) (At.byte hv (by omega) ht)) At.upd
  refine AV.ite Iff.rfl (fun h1 => ?_) fun h1 => ?_
  · have h8 : 8 ≤ msg.length := by
      rcases Nat.lt_or_ge msg.length 8 with h8 | h8
      · exact absurd (.inr ⟨h, by omega, h1⟩) hr
      · exact h8
    rw [restLen_eq he h8 hc]
    repeat' astep
    by_cases h40 : msg.length = 40
    · rw [if_pos (by omega), if_pos h40]
      refine AV.bytesB hv (by omega) (by omega) ?_
      rw [show slice msg 8 32 = msg.drop 8 by rw [← slice_rest, h40]]
      repeat' astep
      exact AV.some rfl (At.byte hv (by omega) h1)
    · rw [if_neg (by omega), if_neg h40]
      repeat' astep
      exact AV.some rfl (At.byte hv (by omega) h1)
  refine AV.ite Iff.rfl (fun h2 => ?_) fun h2 => AV.fail
  rw [restLen_eq he (by omega) hc]
  refine AV.unlessB (by simp) fun _ => ?_
  have key : ∀ d : Bytes, AV mem msg.length cs ka
      (do let r ← call env (.resetSession env.eid (some d))
          done r
          (do let h ← u8 env 3
              put8 env 3 (h - h / 32 % 2 * 32))
          setLen 6)
      (do ended (env.reply cs (.resetSession env.eid (some d)))
          data [2]) := by
    intro d
    refine AV.callB <| AV.doneB fun _ => ?_
    rw [M.assoc]
    refine AV.u8B hv (by omega) (by omega) (by omega) <| AV.put8B (by omega) ?_
    exact AV.some rfl (At.skip (by simp [le_length]) (At.byte hv (by omega) h2))
  by_cases h38 : msg.length = 38
  · rw [if_pos (by omega), if_pos h38]
    refine AV.bytesB hv (by omega) (by omega) ?_
    rw [show slice msg 6 32 = msg.drop 6 by rw [← slice_rest, h38]]
    exact key _
  · rw [if_neg (by omega), if_neg h38]
    exact AV.pureB (key _)

omit hl hc hv in
theorem status_of {t : Task} {l : Nat} (hcap : env.cap = 4096) : AV mem l cs ka (statusOf env t) (progress env cs t) := by
  unfold statusOf progress
  repeat' astep
  refine AV.some (by rw [le_length]) ?_
  atleaf

theorem status_port {part : Nat → Part} {f : Nat → M Unit} {o : Ans} (h7 : 7 ≤ msg.length)
    (h : AV mem msg.length cs ka (f (byte msg 6)) o) :
    AV mem msg.length cs ka (statusPort env part f) (onPort env (byte msg 6) (part (byte msg 6)) o) := by
  have hcap := he.cap
  unfold statusPort onPort
  repeat' astep
  exact h

theorem exact_updateStatus (h : byte msg 4 = 0x68) : AV mem msg.length cs ka (updateStatus env) (answer env cs il msg) := by
  have hcap := he.cap
  simp only [answer, h]
  unfold updateStatus
  refine AV.lenB <| AV.unlessB (by simp) fun h7 => AV.u8B hv (by omega) (by omega) (by omega) ?_
  rcases (show byte msg 5 = 0 ∨ byte msg 5 = 1 ∨ byte msg 5 = 2 ∨ byte msg 5 = 3 ∨ byte msg 5 = 4 ∨ byte msg 5 = 5 ∨ byte msg 5 = 6 ∨
    byte msg 5 = 7 ∨ 8 ≤ byte msg 5 by omega) with hb | hb | hb | hb | hb | hb | hb | hb | hb
  · simp only [hb, reduceIte]
    exact status_of he h12 hm hcap
  · simp only [hb, reduceIte, Nat.reduceEqDiff]
    exact status_port he h12 hm hl hc hv (by omega) (status_of he h12 hm hcap)
  · simp only [hb, reduceIte, Nat.reduceEqDiff]
    exact AV.unlessB (by simp) fun _ => status_of he h12 hm hcap
  · simp only [hb, reduceIte, Nat.reduceEqDiff]
    exact AV.unlessB (by simp) fun _ => status_of he h12 hm hcap
  · simp only [hb, reduceIte, Nat.reduceEqDiff]
    refine status_port he h12 hm hl hc hv (by omega) ?_
    unfold nextVerification
    repeat' astep
    refine AV.some (by rw [le_length]) ?_
    atleaf
  · simp only [hb, reduceIte, Nat.reduceEqDiff]
    exact status_port he h12 hm hl hc hv (by omega) (status_of he h12 hm hcap)
  · simp only [hb, reduceIte, Nat.reduceEqDiff]
    exact status_of he h12 hm hcap
  · simp only [hb, reduceIte, Nat.reduceEqDiff]
    exact status_port he h12 hm hl hc hv (by omega) (status_of he h12 hm hcap)
  · rw [if_neg (by omega), if_neg (by omega), if_neg (by omega), if_neg (by omega), if_neg (by omega), if_neg (by omega),
      if_neg (by omega), if_neg (by omega)]
    split <;> first | omega | exact AV.fail

omit hl hc hv in
theorem ext_status {t : Task} {l : Nat} (hcap : env.cap = 4096) : AV mem l cs ka (extStatusOf env t) (progress2 env cs t) := by
  unfold extStatusOf progress2
  repeat' astep
  refine AV.some (by simp [le_length]) ?_
  atleaf

theorem exact_extStatus (h : byte msg 4 = 0x8E) : AV mem msg.length cs ka (extStatus env) (answer env cs il msg) := by
  have hcap := he.cap
  simp only [answer, h]
  unfold extStatus
  repeat' astep
  refine AV.ite Iff.rfl (fun _ => ext_status he h12 hm hcap) fun _ => ?_
  refine AV.ite Iff.rfl (fun _ => ?_) fun _ => AV.fail
  unfold extStatusErr
  repeat' astep
  by_cases hp : byte msg 6 > 1
  · rw [if_pos hp]
    unfold refuse
    rw [if_pos hp]
    repeat' astep
  rw [if_neg hp]
  refine AV.passB hp ?_
  by_cases hk : (env.has (.recMgr (byte msg 6)) && env.has (.recCmd (byte msg 6))) = true
  · rw [if_pos hk]
    rw [Bool.and_eq_true] at hk
    refine AV.passB (by simp [hk.1, hk.2]) ?_
    exact ext_status he h12 hm hcap
  · rw [if_neg hk]
    unfold refuse
    rw [if_pos (by simp only [Bool.and_eq_true] at hk; rcases h1 : env.has (.recMgr (byte msg 6)) <;> simp_all)]
    repeat' astep

theorem exact_forceAttestation (h : byte msg 4 = 0x90) : AV mem msg.length cs ka (forceAttestation env) (answer env cs il msg) := by
  have hcap := he.cap
  simp only [answer, h]
  unfold forceAttestation
  refine AV.unlessB (by simp) fun _ => AV.lenB ?_
  rw [restLen_eq he hl hc]
  refine AV.unlessB (by simp; omega) fun _ => AV.u8B hv (by omega) (by omega) (by omega) ?_
  refine AV.unlessB (by simp) fun _ => ?_
  refine AV.unlessB (by unfold forceLen; simp; omega) fun _ => ?_
  refine AV.bytesB hv (by omega) (by omega) ?_
  rw [slice_rest]
  repeat' astep
  exact AV.pure rfl At.nil

theorem exact_forceInfo (h : byte msg 4 = 0x91) : AV mem msg.length cs ka (forceInfo env) (answer env cs il msg) := by
  have hcap := he.cap
  simp only [answer, h]
  unfold forceInfo
  repeat' astep
  refine AV.some (by simp [le_length]) ?_
  atleaf

theorem exact_heapStats (h : byte msg 4 = 0xD0) : AV mem msg.length cs ka (heapStats env) (answer env cs il msg) := by
  have hcap := he.cap
  simp only [answer, h]
  unfold heapStats
  refine AV.lenB <| AV.unlessB (by simp) fun _ => AV.setLenB ?_
  refine AV.callAtA he (fun r hr => by simp only [Answer] at hr; omega) fun ha => ?_
  refine AV.doneL fun h0 => ?_
  have h1 := ha.2 _ h0
  exact ⟨by omega, At.upd⟩

theorem exact_stackStats (h : byte msg 4 = 0xD1) : AV mem msg.length cs ka (stackStats env) (answer env cs il msg) := by
  have hcap := he.cap
  simp only [answer, h]
  unfold stackStats
  rw [room_eq he h12 hm (by decide)]
  unfold deliver
  repeat' astep
  have h1 := ha.2 _ h0
  exact AV.some (by omega) At.upd

theorem exact_debugState (h : byte msg 4 = 0xF1) : AV mem msg.length cs ka (debugState env) (answer env cs il msg) := by
  have hcap := he.cap
  simp only [answer, h]
  unfold debugState
  repeat' astep
  refine AV.some (by simp [le_length]) ?_
  atleaf

theorem exact_debugFill (h : byte msg 4 = 0xF2) : AV mem msg.length cs ka (debugFill env) (answer env cs il msg) := by
  have hcap := he.cap
  simp only [answer, h]
  unfold debugFill
  unfold work
  repeat' astep

theorem exact_unsealMessage (hr : ¬ Ragged msg) (h : byte msg 4 = 0x89) : AV mem msg.length cs ka (unsealMessage env) (answer env cs il msg) := by
  have hcap := he.cap
  have hne : 9 + word msg 7 + 2 + word msg (9 + word msg 7) + 1 ≠ msg.length := fun h' => hr (.inl ⟨h, h'⟩)
  simp only [answer, h]
  unfold unsealMessage unsealTail work
  refine AV.lenB ?_
  have bad : ∀ {p : Prop} [Decidable p] {f : Unit → M Unit}, sealed msg = false → ¬ p →
      AV mem msg.length cs ka (unlessErr true .badLength >>= f)
        (if sealed msg = true then do ended (env.reply cs (.unsealStart msg)); finished
        else if p then .error .outOfRange else .error .badLength) := by
    intro p _ f hs hp
    rw [hs, if_neg (by decide), if_neg hp]; rfl
  by_cases h10 : msg.length < 10
  · rw [decide_eq_true h10]
    exact bad (by simp only [Spec.sealed]; rw [decide_eq_false (by omega)]; rfl) (by omega)
  rw [decide_eq_false h10]
  refine AV.noB rfl <| AV.u8B hv (by omega) (by omega) (by omega) ?_
  have range : ∀ {f : Unit → M Unit}, sealed msg = false →
      (10 ≤ msg.length ∧ (byte msg 5 / 4 % 8 ≠ 0 ∨ 1 < byte msg 5 % 4 ∨ byte msg 5 % 4 = 0 ∧ 2 < byte msg 6 % 8)) →
      AV mem msg.length cs ka (unlessErr true .outOfRange >>= f)
        (if sealed msg = true then do ended (env.reply cs (.unsealStart msg)); finished
        else if 10 ≤ msg.length ∧ (byte msg 5 / 4 % 8 ≠ 0 ∨ 1 < byte msg 5 % 4 ∨ byte msg 5 % 4 = 0 ∧ 2 < byte msg 6 % 8) then
          .error .outOfRange else .error .badLength) := by
    intro f hs hp
    rw [hs, if_neg (by decide), if_pos hp]; rfl
  by_cases h5 : byte msg 5 / 4 % 8 ≠ 0 ∨ byte msg 5 % 4 > 1
  · rw [show (byte msg 5 / 4 % 8 != 0 || decide (byte msg 5 % 4 > 1)) = true by simpa using h5]
    refine range ?_ (by omega)
    rw [← Bool.not_eq_true]
    simp only [Spec.sealed, Bool.and_eq_true, decide_eq_true_eq, beq_iff_eq]
    omega
  refine AV.noB (by simp; omega) <| AV.u8B hv (by omega) (by omega) (by omega) ?_
  by_cases h6 : byte msg 5 % 4 = 0 ∧ byte msg 6 % 8 > 2
  · rw [show (byte msg 5 % 4 == 0 && decide (byte msg 6 % 8 > 2)) = true by simpa using h6]
    refine range ?_ (by omega)
    rw [← Bool.not_eq_true]
    simp only [Spec.sealed, Bool.and_eq_true, decide_eq_true_eq, beq_iff_eq, Bool.not_eq_true', Bool.and_eq_false_iff,
      decide_eq_false_iff_not, beq_eq_false_iff_ne]
    omega
  refine AV.noB (by simp; omega) <| AV.u16B hv (by omega) (by omega) (by omega) ?_
  have sealedT : sealed msg = true → word msg 7 ≠ 0 ∧ word msg (9 + word msg 7) ≠ 0 ∧
      word msg (11 + word msg 7 + word msg (9 + word msg 7)) = 32 ∧
      9 + word msg 7 + 2 + word msg (9 + word msg 7) + 2 + 32 + 320 = msg.length := by
    simp only [Spec.sealed, Bool.and_eq_true, decide_eq_true_eq, beq_iff_eq]
    omega
  have no : ∀ {f : Unit → M Unit}, sealed msg = false →
      AV mem msg.length cs ka (unlessErr true .badLength >>= f)
        (if sealed msg = true then do ended (env.reply cs (.unsealStart msg)); finished
        else if 10 ≤ msg.length ∧ (byte msg 5 / 4 % 8 ≠ 0 ∨ 1 < byte msg 5 % 4 ∨ byte msg 5 % 4 = 0 ∧ 2 < byte msg 6 % 8) then
          .error .outOfRange else .error .badLength) := fun hs => bad hs (by omega)
  have notSealed : ∀ {q : Prop}, q → (sealed msg = true → ¬ q) → sealed msg = false := by
    intro q hq h'
    rcases hs : sealed msg
    · rfl
    · exact absurd hq (h' hs)
  by_cases h7 : word msg 7 = 0 ∨ 9 + word msg 7 ≥ msg.length
  · rw [show (word msg 7 == 0 || decide (9 + word msg 7 ≥ msg.length)) = true by simpa using h7]
    exact no (notSealed h7 fun hs => by have := sealedT hs; omega)
  refine AV.noB (by simp; omega) ?_
  by_cases h8 : 9 + word msg 7 + 3 ≥ msg.length
  · rw [decide_eq_true h8]
    exact no (notSealed h8 fun hs => by have := sealedT hs; omega)
  refine AV.noB (by simp; omega) <| AV.u16B hv (by omega) (by omega) (by omega) ?_
  by_cases h9 : word msg (9 + word msg 7) = 0 ∨ 9 + word msg 7 + 2 + word msg (9 + word msg 7) ≥ msg.length
  · rw [show (word msg (9 + word msg 7) == 0 || decide (9 + word msg 7 + 2 + word msg (9 + word msg 7) ≥ msg.length)) = true by simpa using h9]
    exact no (notSealed h9 fun hs => by have := sealedT hs; omega)
  refine AV.noB (by simp; omega) ?_
  refine AV.noB (by simp; omega) <| AV.u16B hv (by omega) (by omega) (by omega) ?_
  rw [show 9 + word msg 7 + 2 + word msg (9 + word msg 7) = 11 + word msg 7 + word msg (9 + word msg 7) by omega] at *
  by_cases h10 : word msg (11 + word msg 7 + word msg (9 + word msg 7)) ≠ 32 ∨
      11 + word msg 7 + word msg (9 + word msg 7) + 2 + word msg (11 + word msg 7 + word msg (9 + word msg 7)) ≥ msg.length
  · rw [show (word msg (11 + word msg 7 + word msg (9 + word msg 7)) != 32 ||
      decide (11 + word msg 7 + word msg (9 + word msg 7) + 2 + word msg (11 + word msg 7 + word msg (9 + word msg 7)) ≥ msg.length)) = true by simpa using h10]
    exact no (notSealed h10 fun hs => by have := sealedT hs; omega)
  refine AV.noB (by simp; omega) ?_
  by_cases h11 : 11 + word msg 7 + word msg (9 + word msg 7) + 2 + word msg (11 + word msg 7 + word msg (9 + word msg 7)) + 320 = msg.length
  rotate_left
  · rw [show (11 + word msg 7 + word msg (9 + word msg 7) + 2 + word msg (11 + word msg 7 + word msg (9 + word msg 7)) + 320 != msg.length) = true by simpa using h11]
    exact no (notSealed h11 fun hs => by have := sealedT hs; omega)
  refine AV.noB (by simp; omega) ?_
  have hs : sealed msg = true := by
    simp only [Spec.sealed, Bool.and_eq_true, decide_eq_true_eq, Bool.not_eq_true', beq_iff_eq, Bool.and_eq_false_iff, beq_eq_false_iff_ne, decide_eq_false_iff_not]
    refine ⟨⟨⟨⟨⟨⟨⟨?_, ?_⟩, ?_⟩, ?_⟩, ?_⟩, ?_⟩, ?_⟩, ?_⟩ <;> omega
  rw [if_pos hs]
  refine AV.bytesB hv (by omega) (by omega) ?_
  rw [show slice msg 0 msg.length = msg by simp [slice]]
  repeat' astep

end

attribute [local irreducible] getFwVersion getDigests getCertificate getChallenge exportCsr importCert getCertState getCapabilities getDeviceInfo getDeviceId resetCounter fwInit fwUpdate fwComplete logInfo logRead logClear pfmId pfmFw pfmInit pfmUpdate pfmComplete manifestInit manifestUpdate cfmComplete pcdComplete cfmId cfmComponents pcdId pcdComponents pcdInstances hostState recVersion recPrepare recUpdate recActivate unsealMessage unsealResult resetConfig attData attSummary sessionSync getHostFlash setHostFlash updateStatus extStatus forceAttestation forceInfo heapStats stackStats debugState debugFill exchangeKeys

section
variable {env : Env} (he : Faithful env) (h12 : 12 ≤ env.maxResp) (hm : env.maxResp ≤ 4096) {msg : Bytes}
  (hl : 5 ≤ msg.length) (hc : msg.length ≤ 4096) {mem : Nat → Option UInt8} (hv : ∀ i, 0 ≤ i → i < msg.length → mem i = msg[i]?)
  {ka : Nat} {cs : List Call} (il : ItemLen)
include he h12 hm hl hc hv

theorem exact_handler (hr : ¬ Ragged msg) (ht : Terminated msg) :
    AV mem msg.length cs ka (handler il env (byte msg 4)) (answer env cs il msg) := by
  unfold handler
  split
  · rename_i h; exact exact_getFwVersion he h12 hm hl hc hv il h
  · rename_i h; exact exact_getDigests he h12 hm hl hc hv il h
  · rename_i h; exact exact_getCertificate he h12 hm hl hc hv il h
  · rename_i h; exact exact_getChallenge he h12 hm hl hc hv il h
  · rename_i h; exact exact_logInfo he h12 hm hl hc hv il h
  · rename_i h; exact exact_logRead he h12 hm hl hc hv il h
  · rename_i h; exact exact_logClear he h12 hm hl hc hv il h
  · rename_i h; exact exact_pfmId he h12 hm hl hc hv il h
  · rename_i h; exact exact_pfmFw he h12 hm hl hc hv il ht h
  · rename_i h; exact exact_pfmInit he h12 hm hl hc hv il h
  · rename_i h; exact exact_pfmUpdate he h12 hm hl hc hv il h
  · rename_i h; exact exact_pfmComplete he h12 hm hl hc hv il h
  · rename_i h; exact exact_cfmId he h12 hm hl hc hv il h
  · rename_i h; exact exact_cfmInit he h12 hm hl hc hv il h
  · rename_i h; exact exact_cfmUpdate he h12 hm hl hc hv il h
  · rename_i h; exact exact_cfmComplete he h12 hm hl hc hv il h
  · rename_i h; exact exact_pcdId he h12 hm hl hc hv il h
  · rename_i h; exact exact_pcdInit he h12 hm hl hc hv il h
  · rename_i h; exact exact_pcdUpdate he h12 hm hl hc hv il h
  · rename_i h; exact exact_pcdComplete he h12 hm hl hc hv il h
  · rename_i h; exact exact_pcdComponents he h12 hm hl hc hv il h
  · rename_i h; exact exact_pcdInstances he h12 hm hl hc hv il h
  · rename_i h; exact exact_cfmComponents he h12 hm hl hc hv il h
  · rename_i h; exact exact_fwInit he h12 hm hl hc hv il h
  · rename_i h; exact exact_fwUpdate he h12 hm hl hc hv il h
  · rename_i h; exact exact_fwComplete he h12 hm hl hc hv il h
  · rename_i h; exact exact_updateStatus he h12 hm hl hc hv il h
  · rename_i h; exact exact_extStatus he h12 hm hl hc hv il h
  · rename_i h; exact exact_getCapabilities he h12 hm hl hc hv il h
  · rename_i h; exact exact_resetCounter he h12 hm hl hc hv il h
  · rename_i h; exact exact_unsealMessage he h12 hm hl hc hv il hr h
  · rename_i h; exact exact_unsealResult he h12 hm hl hc hv il h
  · rename_i h; exact exact_exportCsr he h12 hm hl hc hv il h
  · rename_i h; exact exact_importCert he h12 hm hl hc hv il h
  · rename_i h; exact exact_getCertState he h12 hm hl hc hv il h
  · rename_i h; exact exact_resetConfig he h12 hm hl hc hv il h
  · rename_i h; exact exact_recPrepare he h12 hm hl hc hv il h
  · rename_i h; exact exact_recUpdate he h12 hm hl hc hv il h
  · rename_i h; exact exact_recActivate he h12 hm hl hc hv il h
  · rename_i h; exact exact_recVersion he h12 hm hl hc hv il h
  · rename_i h; exact exact_hostState he h12 hm hl hc hv il h
  · rename_i h; exact exact_getHostFlash he h12 hm hl hc hv il h
  · rename_i h; exact exact_setHostFlash he h12 hm hl hc hv il h
  · rename_i h; exact exact_getDeviceInfo he h12 hm hl hc hv il h
  · rename_i h; exact exact_getDeviceId he h12 hm hl hc hv il h
  · rename_i h; exact exact_attData he h12 hm hl hc hv il h
  · rename_i h; exact exact_attSummary he h12 hm hl hc hv il h
  · rename_i h; exact exact_heapStats he h12 hm hl hc hv il h
  · rename_i h; exact exact_stackStats he h12 hm hl hc hv il h
  · rename_i h; exact exact_exchangeKeys he h12 hm hl hc hv il hr h
  · rename_i h; exact exact_sessionSync he h12 hm hl hc hv il h
  · rename_i h; exact exact_debugState he h12 hm hl hc hv il h
  · rename_i h; exact exact_debugFill he h12 hm hl hc hv il h
  · rename_i h; exact exact_forceAttestation he h12 hm hl hc hv il h
  · rename_i h; exact exact_forceInfo he h12 hm hl hc hv il h
  · unfold answer
    simp only
    exact AV.fail
end

end Verif.Protocol
