import Verif.Protocol.Cert
/-! Requests as a whole: acceptance, changes of the devices. -/
namespace Verif.Protocol
open Spec

theorem accept_ok {msg : Bytes} (h : Request msg) : accept msg = .ok (byte msg 3 / 128) := by
  unfold accept
  rw [if_neg (by have := h.1; omega), if_neg (by
    rintro (h' | h' | h')
    · exact h' (by show byte msg 0 % 128 = _; rw [h.2.1])
    · have : byte msg 0 / 128 = 1 := h'
      rw [h.2.1] at this; exact absurd this (by decide)
    · exact h' h.2.2)]
  rfl

theorem accept_not {msg : Bytes} (h : ¬ Request msg) : ∃ e, accept msg = .error e := by
  unfold accept
  split
  · exact ⟨_, rfl⟩
  · split
    · exact ⟨_, rfl⟩
    · rename_i h1 h2
      refine (h ⟨by omega, ?_, ?_⟩).elim
      · have := byte_lt msg 0
        have hb : byte msg 0 = (msg.getD 0 0).toNat := rfl
        omega
      · have hb : word msg 1 = (msg.getD 1 0).toNat + 256 * (msg.getD 2 0).toNat := rfl
        omega

theorem faithful_max {env : Env} (he : Faithful env) (n : Nat) : Faithful { env with maxResp := n } :=
  ⟨he.answer, he.size, he.cap, he.ids⟩

theorem fixed_length (n : Nat) (b : Bytes) : (fixed n b).length = n := by simp [fixed]

theorem faithful_dev {env : Env} (he : Faithful env) (devs : List Dev) (times : Bytes) (eid : Nat) :
    Faithful { env with eid, reply := devReply devs times env.reply } := by
  refine ⟨?_, he.size, he.cap, he.ids⟩
  intro cs c
  show Answer c (devReply devs times env.reply cs c)
  unfold devReply
  split
  · trivial
  · trivial
  · split
    · simp [Answer, fixed_length]
    · simp [Answer]
  · exact he.answer _ _

theorem init_holds (msg : Bytes) (ka : Nat) : Holds (St.init msg ka) msg := ⟨rfl, fun _ _ => rfl⟩

theorem serve_run {env : Env} (il : ItemLen) (code : Err → Nat) (neg ka : Nat) {msg : Bytes} (hq : Request msg) :
    serve il env code neg ka msg =
      (finishResponse env code (byte msg 3 / 128) (processRequest il { env with maxResp := min neg env.cap } (St.init msg ka)),
        (processRequest il { env with maxResp := min neg env.cap } (St.init msg ka)).2) := by
  unfold serve; rw [accept_ok hq]

theorem serve_response {env : Env} (he : Faithful env) (il : ItemLen) (code : Err → Nat) {neg ka : Nat} {msg : Bytes} (hn : 40 ≤ neg)
    (hq : Request msg) (hl : msg.length ≤ 4096) (hr : ¬ Ragged (plain env msg)) (ht : Terminated (plain env msg)) :
    Response (min neg 4096) (byte msg 3 / 128) (serve il env code neg ka msg).1 := by
  have hcap := he.cap
  have hb := byte_lt msg 3
  rw [serve_run il code neg ka hq]
  have hp := safe_request (faithful_max he (min neg env.cap)) il (s := St.init msg ka) (show 40 ≤ min neg env.cap by omega)
    (show min neg env.cap ≤ 4096 by omega) hq.1 hl (init_holds msg ka) rfl hr ht
  exact finish_response (env := { env with maxResp := min neg env.cap }) (by omega) (by omega) (by show min neg env.cap ≤ _; omega) hp (env' := env)

theorem serve_changes {env : Env} (he : Faithful env) (il : ItemLen) (code : Err → Nat) {neg ka : Nat} {msg : Bytes} (hn : 40 ≤ neg)
    (hq : Request msg) (hl : msg.length ≤ 4096) (hr : ¬ Ragged (plain env msg)) :
    changes (serve il env code neg ka msg).2.calls = asked il { env with maxResp := min neg 4096 } ka msg := by
  have hcap := he.cap
  rw [serve_run il code neg ka hq, ← hcap]
  exact request_changes (faithful_max he (min neg env.cap)) il (s := St.init msg ka) (show 40 ≤ min neg env.cap by omega)
    (show min neg env.cap ≤ 4096 by omega) hq.1 hl (init_holds msg ka) rfl hq.2 hr

theorem keeps_request {il : ItemLen} {env : Env} {msg : Bytes} {ka : Nat} (hl : 5 ≤ msg.length) (hc : 5 ≤ env.cap)
    (hp : byte msg 3 / 32 % 2 = 0) : (processRequest il env (St.init msg ka)).2.mem 4 = msg[4]? := by
  have hv : ∀ i, 0 ≤ i → i < msg.length → (St.init msg ka).mem i = msg[i]? := fun i _ _ => rfl
  have e : (St.init msg ka).len = msg.length := rfl
  unfold processRequest
  rw [bind_run len_run, e, show decide (msg.length < 5) = false by simpa using hl, bind_run unless_false]
  unfold checkHeader
  simp only [M.assoc]
  rw [bind_run (u8_run hv (by omega) (by omega) (by omega)), bind_run (u16_run hv (by omega) (by omega) (by omega))]
  rcases (byte msg 0 % 128 != 0x7E || byte msg 0 / 128 == 1 || word msg 1 != 0x1414) with _ | _
  · rw [bind_run unless_false, bind_run (u8_run hv (by omega) (by omega) (by omega))]
    rcases (byte msg 3 % 32 != 0 || byte msg 3 / 64 % 2 != 0) with _ | _
    · rw [bind_run unless_false, bind_run (u8_run hv (by omega) (by omega) (by omega)), if_neg (by omega),
        bind_run (u8_run hv (by omega) (by omega) (by omega))]
      exact keeps_any _ 4 (by omega) (by omega)
    · rw [bind_err unless_true]; rfl
  · rw [bind_err unless_true]; rfl

/-! ### Devices -/

theorem devsAfter_changes (devs : List Dev) : ∀ cs, devsAfter devs cs = (changes cs).foldl devStep devs
  | [] => rfl
  | c :: cs => by
    have ih := devsAfter_changes devs cs
    have e : changes (c :: cs) = changes cs ++ (if mutates c then [c] else []) := by
      unfold changes; rw [List.reverse_cons, List.filter_append]; congr 1
      cases h : mutates c <;> simp [h]
    rw [e, List.foldl_append, ← ih]
    cases c <;> first | rfl | (simp [devsAfter, mutates, devStep])

theorem fold_quiet {l : List Call} (h : ∀ c ∈ l, ∀ n caps, c ≠ .setCaps n caps) (devs : List Dev) : l.foldl devStep devs = devs := by
  induction l with
  | nil => rfl
  | cons c l ih =>
    rw [List.foldl_cons]
    have : devStep devs c = devs := by
      cases c <;> first | rfl | exact (h _ List.mem_cons_self _ _ rfl).elim
    rw [this]
    exact ih fun c hc => h c (by simp [hc])

theorem effects_sizes (il : ItemLen) (env : Env) (ka : Nat) (cs : List Call) (msg : Bytes) :
    (∀ c ∈ effects il env ka cs msg, ∀ n caps, c ≠ .setCaps n caps) ∨
    (byte msg 4 = 2 ∧ msg.length = 13 ∧ ∃ n, (env.reply cs (.deviceNum env.eid)).rc = .ok n ∧
      effects il env ka cs msg = [.setCaps n (slice msg 5 8)]) := by
  by_cases h2 : byte msg 4 = 2
  · by_cases hl : msg.length = 13
    · rcases h : (env.reply cs (.deviceNum env.eid)).rc with n | _ | _ | _ | _ | _ | _ | e
      · exact .inr ⟨h2, hl, n, rfl, by simp [effects, h2, hl, h]⟩
      all_goals exact .inl (by simp [effects, h2, hl, h])
    · exact .inl (by simp [effects, h2, hl])
  · left
    intro c hc n caps
    unfold effects at hc
    simp only at hc
    split at hc
    case h_3 h => exact (h2 h).elim
    all_goals
      repeat' split at hc
      all_goals simp only [List.mem_cons, List.not_mem_nil, or_false, List.mem_ite_nil_right] at hc
    all_goals first
      | exact hc.elim
      | (subst hc; simp)
      | (rcases hc with rfl | ⟨-, rfl⟩ <;> simp)
      | (rcases hc with rfl | rfl <;> simp)

theorem setCaps_eid (devs : List Dev) (n : Nat) (caps : Bytes) : (setCaps devs n caps).map Dev.eid = devs.map Dev.eid := by
  unfold setCaps
  apply List.ext_getElem?
  intro i
  simp only [List.getElem?_map, List.getElem?_modify]
  split <;> cases devs[i]? <;> simp

theorem devNum_eid (devs : List Dev) (e : Nat) : devNum devs e = (devs.map Dev.eid).findIdx? (· == e) := by
  unfold devNum; rw [List.findIdx?_map]; rfl

theorem devNum_setCaps (devs : List Dev) (n : Nat) (caps : Bytes) (e : Nat) : devNum (setCaps devs n caps) e = devNum devs e := by
  rw [devNum_eid, setCaps_eid, ← devNum_eid]

theorem setCaps_ne (devs : List Dev) {n k : Nat} (caps : Bytes) (h : n ≠ k) : (setCaps devs n caps)[k]? = devs[k]? := by
  unfold setCaps; rw [List.getElem?_modify]; cases devs[k]? <;> simp [h]

theorem devNum_some {devs : List Dev} {e n : Nat} (h : devNum devs e = some n) : ∃ d, devs[n]? = some d ∧ d.eid = e := by
  unfold devNum at h
  rw [List.findIdx?_eq_some_iff_getElem] at h
  obtain ⟨hlt, hp, -⟩ := h
  exact ⟨devs[n], List.getElem?_eq_getElem hlt, by simpa using hp⟩

theorem size_other {devs : List Dev} {e e' n : Nat} {caps : Bytes} (hn : devNum devs e = some n) (h0 : n ≠ 0) (he : e' ≠ e) :
    maxMessageLen (setCaps devs n caps) e' = maxMessageLen devs e' := by
  unfold maxMessageLen remoteLen
  rw [devNum_setCaps, setCaps_ne _ _ h0]
  have : n ≠ (devNum devs e').getD 0 := by
    intro hk
    rcases h : devNum devs e' with _ | k
    · rw [h] at hk; exact h0 hk
    · rw [h] at hk
      obtain rfl : n = k := hk
      obtain ⟨d, hd, h1⟩ := devNum_some hn
      obtain ⟨d', hd', h2⟩ := devNum_some h
      rw [hd] at hd'; cases hd'; omega
  rw [setCaps_ne _ _ this]

theorem size_own {devs : List Dev} {e n : Nat} {caps : Bytes} (hn : devNum devs e = some n) (h0 : n ≠ 0) :
    maxMessageLen (setCaps devs n caps) e =
      min (msgSize ((devs[0]?.map Dev.caps).getD [])) (if msgSize caps = 0 then 4096 else msgSize caps) := by
  unfold maxMessageLen remoteLen
  rw [devNum_setCaps, setCaps_ne _ _ h0, hn]
  obtain ⟨d, hd, -⟩ := devNum_some hn
  have : (setCaps devs n caps)[n]? = some { d with caps } := by
    unfold setCaps; rw [List.getElem?_modify, hd]; simp
  rw [Option.getD_some, this]

theorem caps_size {msg : Bytes} : msgSize (slice msg 5 8) = word msg 5 := by
  unfold msgSize slice word byte
  simp [List.getElem?_take, List.getElem?_drop]

/-- The devices after a request: unchanged, or new capabilities of the requester. -/
theorem exchange_devs {env : Env} (he : Faithful env) (il : ItemLen) (code : Err → Nat) (times : Bytes) {devs : List Dev} {ka eid : Nat}
    {msg : Bytes} (hn : 40 ≤ maxMessageLen devs eid) (hl : msg.length ≤ 4096)
    (hr : ¬ Ragged (plain env msg)) :
    (exchange il env code times devs ka eid msg).2.1 = devs ∨
    ∃ n, devNum devs eid = some n ∧ byte (plain env msg) 4 = 2 ∧
      (exchange il env code times devs ka eid msg).2.1 = setCaps devs n (slice (plain env msg) 5 8) := by
  have he' := faithful_dev he devs times eid
  unfold exchange
  simp only
  by_cases hq : Request msg
  · have hpl : plain { env with eid, reply := devReply devs times env.reply } msg = plain env msg := rfl
    rw [devsAfter_changes, serve_changes he' il code (ka := ka) hn hq hl (by rw [hpl]; exact hr)]
    have key : ∀ (env' : Env) (cs : List Call) (m : Bytes), env'.eid = eid → env'.reply = devReply devs times env.reply →
        devsAfter devs cs = devs →
        (effects il env' ka cs m).foldl devStep devs = devs ∨
        ∃ n, devNum devs eid = some n ∧ byte m 4 = 2 ∧
          (effects il env' ka cs m).foldl devStep devs = setCaps devs n (slice m 5 8) := by
      intro env' cs m h1 h2 h3
      rcases effects_sizes il env' ka cs m with h | ⟨h, -, n, hn, h'⟩
      · exact .inl (fold_quiet h devs)
      · refine .inr ⟨n, ?_, h, by rw [h']; rfl⟩
        rw [h1, h2] at hn
        unfold devReply at hn
        simp only at hn
        rw [h3] at hn
        split at hn
        · rename_i k hk; cases hn; exact hk
        · cases hn
    unfold asked
    split
    · exact .inl rfl
    · split
      · rename_i hp
        have : plain env msg = msg := by unfold plain; rw [if_neg (by omega)]
        rw [this]
        exact key _ [] msg rfl rfl rfl
      · split
        · exact key _ [.decrypt msg (msg.length - 32)] (plain env msg) rfl rfl rfl
        · exact .inl rfl
  · obtain ⟨e, h⟩ := accept_not hq
    unfold serve
    rw [h]
    exact .inl rfl

end Verif.Protocol
