import Verif.Protocol.Safe
/-! From the handlers to the response: requests that are read by value, dispatch, encryption. -/
namespace Verif.Protocol
open Spec

/-- Normal results satisfy `Q`; errors leave the command byte known; nothing else happens. -/
def Post (Q : α → (Nat → Prop) → Nat → Prop) : Except Stop α × St → Prop
  | (.ok a, t) => ∃ D', Known t D' ∧ Q a D' t.len
  | (.error (.err _), t) => (t.mem 4).isSome
  | _ => False

/-- `J` for states that still hold the bytes of the request from offset `a` on. -/
def JV (a : Nat) (msg : Bytes) (D : Nat → Prop) (m : M α) (Q : α → (Nat → Prop) → Nat → Prop) : Prop :=
  ∀ s, Known s D → s.len = msg.length → (∀ i, a ≤ i → i < msg.length → s.mem i = msg[i]?) → Post Q (m s)

section
variable {a : Nat} {msg : Bytes} {D : Nat → Prop} {env : Env}

theorem JV.of {m : M α} {Q} (h : J D msg.length m Q) : JV a msg D m Q := by
  intro s hk hl _
  have := h s hk hl
  unfold Post
  exact this

theorem J.of {l : Nat} {m : M α} {Q} (h : ∀ s, Known s D → s.len = l → Post Q (m s)) : J D l m Q := by
  intro s hk hl
  have := h s hk hl
  unfold Post at this
  exact this

theorem byte_eq {i : Nat} (hi : i < msg.length) : byte msg i = msg[i].toNat := by
  simp [byte, List.getD_eq_getElem?_getD, List.getElem?_eq_getElem hi]

theorem byte_lt (msg : Bytes) (i : Nat) : byte msg i < 256 := UInt8.toNat_lt _

theorem u8_run {s : St} {i : Nat} (hv : ∀ i, a ≤ i → i < msg.length → s.mem i = msg[i]?) (ha : a ≤ i)
    (hi : i < msg.length) (hc : i < env.cap) : u8 env i s = (.ok (byte msg i), s) := by
  unfold u8
  rw [if_neg (by omega), hv i ha hi, List.getElem?_eq_getElem hi, byte_eq hi]

theorem bind_run {m : M α} {f : α → M β} {s t : St} {x : α} (h : m s = (.ok x, t)) : (m >>= f) s = f x t := by
  show (match m s with | (.ok a, s) => f a s | (.error e, s) => (.error e, s)) = _
  rw [h]

theorem bind_err {m : M α} {f : α → M β} {s t : St} {e : Stop} (h : m s = (.error e, t)) : (m >>= f) s = (.error e, t) := by
  show (match m s with | (.ok a, s) => f a s | (.error e, s) => (.error e, s)) = _
  rw [h]

theorem u16_run {s : St} {i : Nat} (hv : ∀ i, a ≤ i → i < msg.length → s.mem i = msg[i]?) (ha : a ≤ i)
    (hi : i + 1 < msg.length) (hc : i + 1 < env.cap) : u16 env i s = (.ok (word msg i), s) := by
  unfold u16
  rw [bind_run (u8_run hv ha (by omega) (by omega)), bind_run (u8_run hv (by omega) hi hc)]
  rfl

theorem u32_run {s : St} {i : Nat} (hv : ∀ i, a ≤ i → i < msg.length → s.mem i = msg[i]?) (ha : a ≤ i)
    (hi : i + 3 < msg.length) (hc : i + 3 < env.cap) : u32 env i s = (.ok (dword msg i), s) := by
  unfold u32
  rw [bind_run (u16_run hv ha (by omega) (by omega)), bind_run (u16_run hv (by omega) hi hc)]
  rfl

theorem fail_run {s : St} {e : Err} : (fail e : M β) s = (.error (.err e), s) := rfl
theorem unless_false {s : St} {e : Err} : unlessErr false e s = (.ok (), s) := rfl
theorem unless_true {s : St} {e : Err} : unlessErr true e s = (.error (.err e), s) := rfl

theorem JV.put8 {i v : Nat} {f : Unit → M β} {Q}
    (h : JV a msg D (Protocol.put env i (le 1 v) >>= f) Q) : JV a msg D (Protocol.put8 env i v >>= f) Q := h
theorem JV.put32 {i v : Nat} {f : Unit → M β} {Q}
    (h : JV a msg D (Protocol.put env i (le 4 v) >>= f) Q) : JV a msg D (Protocol.put32 env i v >>= f) Q := h

theorem JV.u8 {i : Nat} {f : Nat → M β} {Q} (ha : a ≤ i) (hi : i < msg.length) (hc : i < env.cap)
    (h : JV a msg D (f (byte msg i)) Q) : JV a msg D (Protocol.u8 env i >>= f) Q := by
  intro s hk hl hv
  rw [bind_run (u8_run hv ha hi hc)]; exact h s hk hl hv

theorem JV.u16 {i : Nat} {f : Nat → M β} {Q} (ha : a ≤ i) (hi : i + 1 < msg.length) (hc : i + 1 < env.cap)
    (h : JV a msg D (f (word msg i)) Q) : JV a msg D (Protocol.u16 env i >>= f) Q := by
  intro s hk hl hv
  rw [bind_run (u16_run hv ha hi hc)]; exact h s hk hl hv

theorem JV.len {f : Nat → M β} {Q} (h : JV a msg D (f msg.length) Q) : JV a msg D (Protocol.len >>= f) Q := by
  intro s hk hl hv
  rw [bind_run (m := Protocol.len) (s := s) (x := s.len) (t := s) rfl, hl]; exact h s hk hl hv

theorem JV.unlessErr {c : Bool} {e : Err} {f : Unit → M β} {Q} (h4 : D 4)
    (h : c = false → JV a msg D (f ()) Q) : JV a msg D (Protocol.unlessErr c e >>= f) Q := by
  intro s hk hl hv
  cases c
  · exact h rfl s hk hl hv
  · exact hk 4 h4

theorem JV.fail {e : Err} {Q} (h4 : D 4) : JV a msg D (Protocol.fail e : M β) Q := by
  intro s hk hl hv
  exact hk 4 h4

theorem JV.ite {c : Prop} [Decidable c] {m n : M α} {Q}
    (h1 : c → JV a msg D m Q) (h2 : ¬ c → JV a msg D n Q) : JV a msg D (if c then m else n) Q := by
  by_cases h : c
  · rw [if_pos h]; exact h1 h
  · rw [if_neg h]; exact h2 h

theorem JV.call {c : Call} {f : Reply → M β} {Q} (he : Faithful env)
    (h : ∀ r, Answer c r → JV a msg D (f r) Q) : JV a msg D (Protocol.call env c >>= f) Q := by
  intro s hk hl hv
  rw [bind_run (m := Protocol.call env c) (s := s) (x := env.reply s.calls c) (t := { s with calls := c :: s.calls }) rfl]
  exact h _ (he.answer _ _) _ hk hl hv

theorem JV.done {r : Reply} {f : Unit → M β} {Q} (h4 : D 4)
    (h : r.rc = .ok 0 → JV a msg D (f ()) Q) : JV a msg D (Protocol.done r >>= f) Q := by
  unfold Protocol.done
  split
  · rename_i hr; exact h hr
  · intro s hk hl hv; exact hk 4 h4

theorem JV.put {i : Nat} {data : Bytes} {f : Unit → M β} {Q} (hc : i + data.length ≤ env.cap) (ha : i + data.length ≤ a)
    (h : JV a msg D (f ()) Q) : JV a msg D (Protocol.put env i data >>= f) Q := by
  intro s hk hl hv
  have hp : Protocol.put env i data s = (.ok (), { s with mem := upd s.mem i data }) := by
    unfold Protocol.put; rw [if_neg (by rintro ⟨h1, -⟩; omega)]
  rw [bind_run hp]
  refine h _ ?_ hl ?_
  · intro j hj
    show ((upd s.mem i data) j).isSome
    unfold upd
    by_cases hi : i ≤ j ∧ j < i + data.length
    · rw [if_pos hi, List.getElem?_eq_getElem (by omega)]; rfl
    · rw [if_neg hi]; exact hk j hj
  · intro j hj hjl
    show (upd s.mem i data) j = _
    unfold upd
    rw [if_neg (by omega)]; exact hv j hj hjl

theorem M.assoc (m : M α) (f : α → M β) (g : β → M γ) : ((m >>= f) >>= g) = (m >>= fun a => f a >>= g) := by
  funext s
  show (match (match m s with | (.ok a, s) => f a s | (.error e, s) => (.error e, s)) with | (.ok a, s) => g a s | (.error e, s) => (.error e, s))
    = (match m s with | (.ok a, s) => (match f a s with | (.ok a, s) => g a s | (.error e, s) => (.error e, s)) | (.error e, s) => (.error e, s))
  rcases m s with ⟨r | r, t⟩ <;> rfl

theorem JV.assoc {m : M α} {f : α → M β} {g : β → M γ} {Q}
    (h : JV a msg D (m >>= fun x => f x >>= g) Q) : JV a msg D ((m >>= f) >>= g) Q := by
  rw [M.assoc]; exact h

theorem JV.pureB {x : α} {f : α → M β} {Q} (h : JV a msg D (f x) Q) : JV a msg D (Pure.pure x >>= f) Q := h

theorem JV.mono {b : Nat} {m : M α} {Q} (hb : a ≤ b) (h : JV b msg D m Q) : JV a msg D m Q :=
  fun s hk hl hv => h s hk hl fun i hi hil => hv i (by omega) hil

theorem JV.bind {m : M α} {f : α → M β} {Q}
    (hm : ∀ s : St, (∀ i, a ≤ i → i < msg.length → s.mem i = msg[i]?) → ∃ x, m s = (.ok x, s))
    (h : ∀ x, JV a msg D (f x) Q) : JV a msg D (m >>= f) Q := by
  intro s hk hl hv
  obtain ⟨x, hx⟩ := hm s hv
  rw [bind_run hx]; exact h x s hk hl hv

theorem JV.releasing {k : Kind} {b : Bool} {m : M Unit} {Q}
    (h : JV a msg D m Q) : JV a msg D (Protocol.releasing env k b m) Q := by
  intro s hk hl hv
  have := h s hk hl hv
  unfold Protocol.releasing
  revert this
  rcases m s with ⟨r | r, t⟩
  · cases r <;> cases b <;> exact id
  · cases b
    · exact id
    · rintro ⟨D', hk', hq⟩
      exact ⟨D', hk', hq⟩

/-- Comparison with a string ends at the terminator of the string in the message. -/
theorem strcmpAt_run {s : St} (hv : ∀ i, a ≤ i → i < msg.length → s.mem i = msg[i]?) (hc : msg.length ≤ env.cap) :
    ∀ {id : Bytes} {i k : Nat}, a ≤ i → i ≤ k → (hk : k < msg.length) → msg[k] = 0 → (0 : UInt8) ∉ id →
      ∃ x, strcmpAt env i id s = (.ok x, s)
  | [], i, k, ha, hik, hk, hz, h0 => ⟨_, by
      unfold strcmpAt; rw [bind_run (u8_run hv ha (by omega) (by omega))]; rfl⟩
  | c :: cs, i, k, ha, hik, hk, hz, h0 => by
    unfold strcmpAt
    rw [bind_run (u8_run hv ha (by omega) (by omega))]
    by_cases h : byte msg i = c.toNat
    · rw [if_pos h]
      have hne : i ≠ k := by
        rintro rfl
        rw [byte_eq hk, hz] at h
        have : (0 : UInt8) = c := UInt8.toNat_inj.1 h
        exact h0 (by simp [← this])
      exact strcmpAt_run hv hc (by omega) (by omega) hk hz (fun hm => h0 (by simp [hm]))
    · rw [if_neg h]; exact ⟨_, rfl⟩

theorem findFw_run {s : St} (hv : ∀ i, a ≤ i → i < msg.length → s.mem i = msg[i]?) (hc : msg.length ≤ env.cap)
    {i k : Nat} (ha : a ≤ i) (hik : i ≤ k) (hk : k < msg.length) (hz : msg[k] = 0) :
    ∀ {ids : List Bytes}, (∀ id ∈ ids, (0 : UInt8) ∉ id) → ∃ x, findFw env i ids s = (.ok x, s)
  | [], _ => ⟨_, rfl⟩
  | id :: ids, h => by
    unfold findFw
    obtain ⟨x, hx⟩ := strcmpAt_run hv hc ha hik hk hz (h id (by simp))
    rw [bind_run hx]
    cases x
    · exact findFw_run hv hc ha hik hk hz fun id' h' => h id' (by simp [h'])
    · exact ⟨_, rfl⟩

theorem fwArg_run {s : St} (hv : ∀ i, a ≤ i → i < msg.length → s.mem i = msg[i]?) (hc : msg.length ≤ env.cap)
    (ha : a ≤ 11) (hlen : 11 < msg.length → msg.length = 12 + byte msg 11)
    (ht : 12 < msg.length → (0 : UInt8) ∈ msg.drop 12) {ids : List Bytes} (h : ∀ id ∈ ids, (0 : UInt8) ∉ id) :
    ∃ x, fwArg env msg.length ids s = (.ok x, s) := by
  unfold fwArg
  by_cases hl : msg.length > 11
  · rw [if_pos hl, bind_run (u8_run hv ha (by omega) (by omega))]
    by_cases hn : byte msg 11 ≠ 0
    · rw [if_pos hn]
      obtain ⟨k, hk, hz⟩ := List.mem_iff_getElem.1 (ht (by have := hlen hl; omega))
      rw [List.length_drop] at hk
      rw [List.getElem_drop] at hz
      exact findFw_run hv hc (k := 12 + k) (by omega) (by omega) (by omega) hz h
    · rw [if_neg hn]; exact ⟨_, rfl⟩
  · rw [if_neg hl]; exact ⟨_, rfl⟩
end

attribute [local irreducible] u8 u16 u32 bytes put put8 put16 put32 call callAt setLen Protocol.len fail rcErr done value unlessErr setKeyAlg getKeyAlg strLen releasing

section
variable {env : Env} (he : Faithful env) (h1 : 12 ≤ env.maxResp) (h2 : env.maxResp ≤ 4096) {msg : Bytes}
  (hl : 5 ≤ msg.length) (hc : msg.length ≤ 4096)
include he h1 h2 hl hc

theorem safe_noList {l : Nat} (hl : 5 ≤ l) : J (fun j => j < l) l (noList env) (Sent env) := by
  have hcap := he.cap
  unfold noList
  repeat' jstep
  all_goals jleaf

theorem safe_fwList {port off : Nat} {pending : Bool} (hlen : 11 ≤ msg.length)
    (hlen' : 11 < msg.length → msg.length = 12 + byte msg 11)
    (ht : 12 < msg.length → (0 : UInt8) ∈ msg.drop 12) :
    JV 10 msg (fun j => j < msg.length) (fwList env msg.length port off pending) (Sent env) := by
  have hcap := he.cap
  unfold fwList
  refine JV.put8 <| JV.put (by rw [le_length]; omega) (by rw [le_length]; omega) ?_
  refine JV.call he fun r hr => JV.done (by omega) fun _ => ?_
  refine JV.put32 <| JV.put (by rw [le_length]; omega) (by rw [le_length]; omega) ?_
  refine JV.bind (fun s hv => fwArg_run hv (by omega) (by omega) hlen' ht (he.ids _ _)) fun x => JV.of ?_
  simp (disch := omega) only [room_eq he h1 h2]
  repeat' jstep
  all_goals jleaf

theorem safe_pfmFw (ht : 12 < msg.length → (0 : UInt8) ∈ msg.drop 12) :
    JV 0 msg (fun j => j < msg.length) (pfmFw env) (Sent env) := by
  have hcap := he.cap
  have key : 11 ≤ msg.length → (11 < msg.length → msg.length = 12 + byte msg 11) → 
      JV 0 msg (fun j => j < msg.length) (do
        let port ← u8 env 5
        unlessErr (decide (port ≥ 2)) .outOfRange
        let off ← u32 env 7
        if env.has (.pfmMgr port) then do
          let region ← u8 env 6
          unlessErr (decide (region > 1)) .outOfRange
          let p ← getManifest env (.pfm port) (region == 1)
          releasing env (.pfm port) true
            (if p then fwList env msg.length port off (region == 1) else noList env)
        else noList env) (Sent env) := by
    intro hlen hlen'
    refine JV.u8 (by omega) (by omega) (by omega) <| JV.unlessErr (by omega) fun _ => ?_
    refine JV.bind (fun s hv => ⟨_, u32_run hv (by omega) (by omega) (by omega)⟩) fun off => ?_
    refine JV.ite (fun _ => ?_) fun _ => JV.of (safe_noList he h1 h2 hl hc (by omega))
    refine JV.u8 (by omega) (by omega) (by omega) <| JV.unlessErr (by omega) fun _ => ?_
    unfold getManifest
    refine JV.mono (b := 10) (by omega) ?_
    refine JV.assoc <| JV.call he fun r hr => JV.pureB ?_
    refine JV.releasing <| JV.ite (fun _ => ?_) fun _ => JV.of (safe_noList he h1 h2 hl hc (by omega))
    exact safe_fwList he h1 h2 hl hc hlen hlen' ht
  unfold pfmFw
  refine JV.len ?_
  unfold fwLength
  by_cases hl1 : msg.length < 11
  · rw [if_pos hl1]
    intro s hk _ _
    rw [bind_err fail_run]
    exact hk 4 (by omega)
  · rw [if_neg hl1]
    by_cases hl2 : msg.length > 11
    · rw [if_pos hl2]
      intro s hk hs hv
      have e : (do let n ← u8 env 11; unlessErr (msg.length != 12 + n) .badLength : M Unit) s = unlessErr (msg.length != 12 + byte msg 11) .badLength s :=
        bind_run (u8_run hv (by omega) (by omega) (by omega))
      by_cases h : msg.length = 12 + byte msg 11
      · rw [show (msg.length != 12 + byte msg 11) = false by simpa using h] at e
        rw [bind_run (x := ()) (t := s) (e.trans unless_false)]
        exact key (by omega) (fun _ => h) s hk hs hv
      · have : (do let n ← u8 env 11; unlessErr (msg.length != 12 + n) .badLength : M Unit) s = (.error (.err .badLength), s) := by
          rw [e, show (msg.length != 12 + byte msg 11) = true by simpa using h]; exact unless_true
        rw [bind_err this]
        exact hk 4 (by omega)
    · rw [if_neg hl2]
      intro s hk hs hv
      exact key (by omega) (fun h => absurd h hl2) s hk hs hv

theorem safe_unsealMessage (hr : ¬ Ragged msg) (hcmd : byte msg 4 = 0x89) :
    JV 0 msg (fun j => j < msg.length) (unsealMessage env) (Sent env) := by
  have hcap := he.cap
  unfold unsealMessage unsealTail
  refine JV.len <| JV.unlessErr (by omega) fun h10 => ?_
  simp only [decide_eq_false_iff_not] at h10
  refine JV.u8 (by omega) (by omega) (by omega) <| JV.unlessErr (by omega) fun _ => ?_
  refine JV.u8 (by omega) (by omega) (by omega) <| JV.unlessErr (by omega) fun _ => ?_
  refine JV.u16 (by omega) (by omega) (by omega) <| JV.unlessErr (by omega) fun h => ?_
  refine JV.unlessErr (by omega) fun hs => ?_
  simp only [decide_eq_false_iff_not] at hs
  refine JV.u16 (by omega) (by omega) (by omega) <| JV.unlessErr (by omega) fun h => ?_
  simp only [Bool.or_eq_false_iff, decide_eq_false_iff_not] at h
  refine JV.unlessErr (by omega) fun _ => ?_
  have hne : 9 + word msg 7 + 2 + word msg (9 + word msg 7) + 1 ≠ msg.length := fun h => hr (.inl ⟨hcmd, h⟩)
  refine JV.u16 (by omega) (by omega) (by omega) <| JV.unlessErr (by omega) fun h' => ?_
  refine JV.unlessErr (by omega) fun h'' => ?_
  refine JV.of ?_
  repeat' jstep
  all_goals jleaf

theorem safe_exchangeKeys (hr : ¬ Ragged msg) (hcmd : byte msg 4 = 0x84) :
    JV 0 msg (fun j => j < msg.length) (exchangeKeys env) (Sent env) := by
  have hcap := he.cap
  have hsz := he.size
  unfold exchangeKeys
  refine JV.unlessErr (by omega) fun _ => JV.len <| JV.unlessErr (by omega) fun h6 => ?_
  simp only [decide_eq_false_iff_not] at h6
  refine JV.u8 (by omega) (by omega) (by omega) ?_
  refine JV.ite (fun h => JV.of ?_) fun _ => JV.ite (fun h => JV.of ?_) fun _ => JV.ite (fun h => JV.of ?_) fun _ => ?_
  · simp (disch := omega) only [room_eq he h1 h2]
    repeat' jstep
    all_goals jleaf
  · have hne : msg.length ≠ 7 := fun h' => hr (.inr ⟨hcmd, h', h⟩)
    unfold hmacAt keysDone
    rw [restLen_eq he (by omega) hc]
    repeat' jstep
    all_goals jleaf
  · unfold hmacAt keysDone clearCrypt
    rw [restLen_eq he (by omega) hc]
    repeat' jstep
    all_goals jleaf
  · exact JV.fail (by omega)

attribute [local irreducible] getFwVersion getDigests getCertificate getChallenge exportCsr getCertState getCapabilities getDeviceInfo getDeviceId resetCounter fwInit fwUpdate fwComplete logInfo logRead logClear pfmId pfmInit pfmUpdate pfmComplete cfmComplete pcdComplete cfmId cfmComponents pcdId pcdComponents pcdInstances hostState recPrepare recUpdate recActivate recVersion unsealResult resetConfig attData attSummary sessionSync getHostFlash setHostFlash updateStatus extStatus forceAttestation forceInfo heapStats stackStats debugState debugFill manifestInit manifestUpdate importCert unsealMessage exchangeKeys pfmFw

theorem safe_handler (itemLen : ItemLen) (hr : ¬ Ragged msg) (ht : Terminated msg) :
    JV 0 msg (fun j => j < msg.length) (handler itemLen env (byte msg 4)) (Sent env) := by
  by_cases h89 : byte msg 4 = 0x89
  · rw [h89]; exact safe_unsealMessage he h1 h2 hl hc hr h89
  by_cases h84 : byte msg 4 = 0x84
  · rw [h84]; exact safe_exchangeKeys he h1 h2 hl hc hr h84
  by_cases h5A : byte msg 4 = 0x5A
  · rw [h5A]; exact safe_pfmFw he h1 h2 hl hc (ht h5A)
  refine JV.of ?_
  unfold handler
  split
  all_goals first
    | contradiction
    | exact J.fail (by omega)
    | exact safe_getFwVersion he h1 h2 hl hc
    | exact safe_getDigests he h1 h2 hl hc
    | exact safe_getCertificate he h1 h2 hl hc
    | exact safe_getChallenge he h1 h2 hl hc
    | exact safe_exportCsr he h1 h2 hl hc
    | exact safe_getCertState he h1 h2 hl hc
    | exact safe_getCapabilities he h1 h2 hl hc
    | exact safe_getDeviceInfo he h1 h2 hl hc
    | exact safe_getDeviceId he h1 h2 hl hc
    | exact safe_resetCounter he h1 h2 hl hc
    | exact safe_fwInit he h1 h2 hl hc
    | exact safe_fwUpdate he h1 h2 hl hc
    | exact safe_fwComplete he h1 h2 hl hc
    | exact safe_logInfo he h1 h2 hl hc
    | exact safe_logRead he h1 h2 hl hc
    | exact safe_logClear he h1 h2 hl hc
    | exact safe_pfmId he h1 h2 hl hc
    | exact safe_pfmInit he h1 h2 hl hc
    | exact safe_pfmUpdate he h1 h2 hl hc
    | exact safe_pfmComplete he h1 h2 hl hc
    | exact safe_cfmComplete he h1 h2 hl hc
    | exact safe_pcdComplete he h1 h2 hl hc
    | exact safe_cfmId he h1 h2 hl hc
    | exact safe_cfmComponents he h1 h2 hl hc
    | exact safe_pcdId he h1 h2 hl hc
    | exact safe_pcdComponents he h1 h2 hl hc
    | exact safe_pcdInstances he h1 h2 hl hc
    | exact safe_hostState he h1 h2 hl hc
    | exact safe_recPrepare he h1 h2 hl hc
    | exact safe_recUpdate he h1 h2 hl hc
    | exact safe_recActivate he h1 h2 hl hc
    | exact safe_recVersion he h1 h2 hl hc
    | exact safe_unsealResult he h1 h2 hl hc
    | exact safe_resetConfig he h1 h2 hl hc
    | exact safe_attData he h1 h2 hl hc
    | exact safe_attSummary he h1 h2 hl hc
    | exact safe_sessionSync he h1 h2 hl hc
    | exact safe_getHostFlash he h1 h2 hl hc
    | exact safe_setHostFlash he h1 h2 hl hc
    | exact safe_updateStatus he h1 h2 hl hc
    | exact safe_extStatus he h1 h2 hl hc
    | exact safe_forceAttestation he h1 h2 hl hc
    | exact safe_forceInfo he h1 h2 hl hc
    | exact safe_heapStats he h1 h2 hl hc
    | exact safe_stackStats he h1 h2 hl hc
    | exact safe_debugState he h1 h2 hl hc
    | exact safe_debugFill he h1 h2 hl hc
    | exact safe_manifestInit he h1 h2 hl hc _
    | exact safe_manifestUpdate he h1 h2 hl hc _
    | exact safe_importCert he h1 h2 hl hc _

end
end Verif.Protocol
