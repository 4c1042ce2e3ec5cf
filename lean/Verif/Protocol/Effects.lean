import Verif.Protocol.Respond
/-! Which calls a request causes. -/
namespace Verif.Protocol
open Spec

/-- A computation that changes nothing in the rest of the device. -/
def Quiet (m : M α) : Prop := ∀ s, ∃ new, (m s).2.calls = new ++ s.calls ∧ ∀ c ∈ new, mutates c = false

theorem Quiet.of {m : M α} (h : ∀ s, (m s).2.calls = s.calls) : Quiet m := fun s => ⟨[], h s, by simp⟩

theorem Quiet.bind {m : M α} {f : α → M β} (hm : Quiet m) (hf : ∀ a, Quiet (f a)) : Quiet (m >>= f) := by
  intro s
  obtain ⟨n1, h1, q1⟩ := hm s
  rcases he : m s with ⟨r | r, t⟩
  · rw [bind_err he]
    rw [he] at h1; exact ⟨n1, h1, q1⟩
  · rw [bind_run he]
    rw [he] at h1
    obtain ⟨n2, h2, q2⟩ := hf r t
    refine ⟨n2 ++ n1, by rw [h2, h1, List.append_assoc], fun c hc => ?_⟩
    rcases List.mem_append.1 hc with h | h
    · exact q2 c h
    · exact q1 c h

theorem Quiet.pure {a : α} : Quiet (Pure.pure a) := .of fun _ => rfl
theorem Quiet.fail {e : Err} : Quiet (Protocol.fail e : M α) := .of fun _ => rfl
theorem Quiet.rcErr {e : Rc} : Quiet (Protocol.rcErr e : M α) := .of fun _ => rfl
theorem Quiet.len : Quiet Protocol.len := .of fun _ => rfl
theorem Quiet.setLen {n : Nat} : Quiet (Protocol.setLen n) := .of fun _ => rfl
theorem Quiet.setKeyAlg {n : Nat} : Quiet (Protocol.setKeyAlg n) := .of fun _ => rfl
theorem Quiet.getKeyAlg : Quiet Protocol.getKeyAlg := .of fun _ => rfl
theorem Quiet.u8 {env : Env} {i : Nat} : Quiet (Protocol.u8 env i) := .of fun s => by
  unfold Protocol.u8; split
  · rfl
  · split <;> rfl
theorem Quiet.u16 {env : Env} {i : Nat} : Quiet (Protocol.u16 env i) :=
  .bind .u8 fun _ => .bind .u8 fun _ => .pure
theorem Quiet.u32 {env : Env} {i : Nat} : Quiet (Protocol.u32 env i) :=
  .bind .u16 fun _ => .bind .u16 fun _ => .pure
theorem Quiet.bytes {env : Env} : ∀ {n i : Nat}, Quiet (Protocol.bytes env i n)
  | 0, _ => .pure
  | _ + 1, _ => .bind .u8 fun _ => .bind .bytes fun _ => .pure
theorem Quiet.put {env : Env} {i : Nat} {d : Bytes} : Quiet (Protocol.put env i d) := .of fun s => by
  unfold Protocol.put; split <;> rfl
theorem Quiet.put8 {env : Env} {i v : Nat} : Quiet (Protocol.put8 env i v) := .put
theorem Quiet.put16 {env : Env} {i v : Nat} : Quiet (Protocol.put16 env i v) := .put
theorem Quiet.put32 {env : Env} {i v : Nat} : Quiet (Protocol.put32 env i v) := .put
theorem Quiet.call {env : Env} {c : Call} (h : mutates c = false) : Quiet (Protocol.call env c) :=
  fun s => ⟨[c], rfl, by simpa using h⟩
theorem Quiet.callAt {env : Env} {i : Nat} {c : Call} (h : mutates c = false) : Quiet (Protocol.callAt env i c) :=
  .bind (.call h) fun _ => .bind .put fun _ => .pure
theorem Quiet.unlessErr {c : Bool} {e : Err} : Quiet (Protocol.unlessErr c e) := by
  cases c
  · exact .pure
  · exact .fail
theorem Quiet.done {r : Reply} : Quiet (Protocol.done r) := by
  unfold Protocol.done; split
  · exact .pure
  · exact .rcErr
theorem Quiet.value {r : Reply} : Quiet (Protocol.value r) := by
  unfold Protocol.value; split
  · exact .pure
  · exact .rcErr
theorem Quiet.strLen {d : Bytes} : Quiet (Protocol.strLen d) := .of fun s => by
  unfold Protocol.strLen; split <;> rfl
theorem Quiet.ite {c : Prop} [Decidable c] {m n : M α} (hm : Quiet m) (hn : Quiet n) : Quiet (if c then m else n) := by
  split <;> assumption
theorem Quiet.releasing {env : Env} {k : Kind} {b : Bool} {m : M Unit} (hm : Quiet m) : Quiet (Protocol.releasing env k b m) := by
  intro s
  obtain ⟨n, h, q⟩ := hm s
  unfold Protocol.releasing
  revert h
  rcases m s with ⟨r | r, t⟩ <;> intro h <;> simp only at h ⊢
  · cases b
    · exact ⟨n, h, q⟩
    · cases r
      · exact ⟨.free k :: n, by simp [h], by simpa [mutates] using q⟩
      · exact ⟨n, h, q⟩
      · exact ⟨n, h, q⟩
  · cases b
    · exact ⟨n, h, q⟩
    · exact ⟨.free k :: n, by simp [h], by simpa [mutates] using q⟩
theorem Quiet.strcmpAt {env : Env} : ∀ {i : Nat} {id : Bytes}, Quiet (Protocol.strcmpAt env i id)
  | _, [] => .bind .u8 fun _ => .pure
  | _, _ :: _ => .bind .u8 fun _ => .ite .strcmpAt .pure
theorem Quiet.findFw {env : Env} {i : Nat} : ∀ {ids : List Bytes}, Quiet (Protocol.findFw env i ids)
  | [] => .pure
  | _ :: _ => .bind .strcmpAt fun _ => .ite .pure .findFw

/-- The changes a computation causes, from states that hold the request. -/
def EV (msg : Bytes) (ka : Nat) (cs : List Call) (m : M α) (es : List Call) : Prop :=
  ∀ s, Holds s msg → s.calls = cs → s.keyAlg = ka → ∃ new, (m s).2.calls = new ++ cs ∧ new.reverse.filter mutates = es

section
variable {msg : Bytes} {ka : Nat} {cs es : List Call} {env : Env}

theorem EV.quiet {m : M α} (h : Quiet m) (he : es = []) : EV msg ka cs m es := by
  intro s _ hc _
  obtain ⟨n, h, q⟩ := h s
  subst he hc
  refine ⟨n, h, ?_⟩
  rw [List.filter_eq_nil_iff]
  intro c hc
  simp [q c (List.mem_reverse.1 hc)]

theorem EV.lenB {f : Nat → M β} (h : EV msg ka cs (f msg.length) es) : EV msg ka cs (Protocol.len >>= f) es := by
  intro s hs hc hk
  rw [bind_run (m := Protocol.len) (s := s) (x := s.len) (t := s) rfl, hs.len]; exact h s hs hc hk

theorem EV.u8B {i : Nat} {f : Nat → M β} (hi : i < msg.length) (hcap : msg.length ≤ env.cap)
    (h : EV msg ka cs (f (byte msg i)) es) : EV msg ka cs (Protocol.u8 env i >>= f) es := by
  intro s hs hc hk
  rw [bind_run (u8_run (a := 0) (fun i _ h => hs.mem i h) (by omega) hi (by omega))]; exact h s hs hc hk

theorem EV.u16B {i : Nat} {f : Nat → M β} (hi : i + 1 < msg.length) (hcap : msg.length ≤ env.cap)
    (h : EV msg ka cs (f (word msg i)) es) : EV msg ka cs (Protocol.u16 env i >>= f) es := by
  intro s hs hc hk
  rw [bind_run (u16_run (a := 0) (fun i _ h => hs.mem i h) (by omega) hi (by omega))]; exact h s hs hc hk

theorem EV.u32B {i : Nat} {f : Nat → M β} (hi : i + 3 < msg.length) (hcap : msg.length ≤ env.cap)
    (h : EV msg ka cs (f (dword msg i)) es) : EV msg ka cs (Protocol.u32 env i >>= f) es := by
  intro s hs hc hk
  rw [bind_run (u32_run (a := 0) (fun i _ h => hs.mem i h) (by omega) hi (by omega))]; exact h s hs hc hk

theorem EV.bytesB {i n : Nat} {f : Bytes → M β} (hi : i + n ≤ msg.length) (hcap : msg.length ≤ env.cap)
    (h : EV msg ka cs (f (slice msg i n)) es) : EV msg ka cs (Protocol.bytes env i n >>= f) es := by
  intro s hs hc hk
  rw [bind_run (bytes_run hs.mem hcap _ _ hi)]; exact h s hs hc hk

theorem EV.unlessB {c : Bool} {e : Err} {f : Unit → M β} (h1 : c = true → es = [])
    (h : c = false → EV msg ka cs (f ()) es) : EV msg ka cs (Protocol.unlessErr c e >>= f) es := by
  cases c
  · exact h rfl
  · intro s hs hc hk
    rw [bind_err unless_true]
    exact ⟨[], by simp [hc], by simp [h1 rfl]⟩

theorem EV.doneB {r : Reply} {f : Unit → M β} (h1 : r.rc ≠ .ok 0 → es = [])
    (h : r.rc = .ok 0 → EV msg ka cs (f ()) es) : EV msg ka cs (Protocol.done r >>= f) es := by
  by_cases h0 : r.rc = .ok 0
  · have : Protocol.done r = Pure.pure () := by unfold Protocol.done; simp only [h0]
    rw [this]; exact h h0
  · have : ∃ e, Protocol.done r = Protocol.rcErr e := by
      unfold Protocol.done; split
      · contradiction
      · exact ⟨_, rfl⟩
    obtain ⟨e, he⟩ := this
    rw [he]
    intro s hs hc hk
    exact ⟨[], by show s.calls = _; simp [hc], by simp [h1 h0]⟩

theorem EV.rcErrB {e : Rc} {f : α → M β} (h : es = []) : EV msg ka cs (Protocol.rcErr e >>= f) es := by
  intro s hs hc hk
  exact ⟨[], by show s.calls = _; simp [hc], by simp [h]⟩

theorem setLen_run {n : Nat} {s : St} : Protocol.setLen n s = (.ok (), { s with len := n }) := rfl

theorem len_run {s : St} : Protocol.len s = (.ok s.len, s) := rfl

theorem EV.ite {c : Prop} [Decidable c] {m n : M α}
    (h1 : c → EV msg ka cs m es) (h2 : ¬ c → EV msg ka cs n es) : EV msg ka cs (if c then m else n) es := by
  by_cases h : c
  · rw [if_pos h]; exact h1 h
  · rw [if_neg h]; exact h2 h

theorem EV.iteB {c : Prop} [Decidable c] {m n : M α} {f : α → M β}
    (h1 : c → EV msg ka cs (m >>= f) es) (h2 : ¬ c → EV msg ka cs (n >>= f) es) : EV msg ka cs ((if c then m else n) >>= f) es := by
  by_cases h : c
  · rw [if_pos h]; exact h1 h
  · rw [if_neg h]; exact h2 h

theorem EV.pureB {x : α} {f : α → M β} (h : EV msg ka cs (f x) es) : EV msg ka cs (Pure.pure x >>= f) es := h

theorem EV.assoc {m : M α} {f : α → M β} {g : β → M γ}
    (h : EV msg ka cs (m >>= fun x => f x >>= g) es) : EV msg ka cs ((m >>= f) >>= g) es := by
  rw [M.assoc]; exact h

/-- A change, after which nothing changes any more. -/
theorem EV.callQ {c : Call} {f : Reply → M β} (hm : mutates c = true) (he : es = [c]) (h : ∀ r, Quiet (f r)) :
    EV msg ka cs (Protocol.call env c >>= f) es := by
  intro s hs hc hk
  rw [bind_run (m := Protocol.call env c) (s := s) (x := env.reply s.calls c) (t := { s with calls := c :: s.calls }) rfl]
  obtain ⟨n, h, q⟩ := h (env.reply s.calls c) { s with calls := c :: s.calls }
  refine ⟨n ++ [c], by rw [h]; simp [hc], ?_⟩
  rw [List.reverse_append, List.filter_append, (List.filter_eq_nil_iff (l := n.reverse)).2 fun x hx => by simp [q x (List.mem_reverse.1 hx)]]
  simp [hm, he]

theorem EV.setLenQ {n : Nat} {c : Call} {f : Reply → M β} (hm : mutates c = true) (h : ∀ r, Quiet (f r)) :
    EV msg ka cs (Protocol.setLen n >>= fun _ => Protocol.call env c >>= f) [c] := by
  intro s hs hc hk
  rw [bind_run setLen_run]
  rw [bind_run (m := Protocol.call env c) (s := { s with len := n }) (x := env.reply s.calls c) (t := { s with len := n, calls := c :: s.calls }) rfl]
  obtain ⟨n', h, q⟩ := h (env.reply s.calls c) { s with len := n, calls := c :: s.calls }
  refine ⟨n' ++ [c], by rw [h]; simp [hc], ?_⟩
  rw [List.reverse_append, List.filter_append, (List.filter_eq_nil_iff (l := n'.reverse)).2 fun x hx => by simp [q x (List.mem_reverse.1 hx)]]
  simp [hm]

theorem EV.callAtQ {i : Nat} {c : Call} {f : Reply → M β} (hm : mutates c = true) (he : es = [c]) (h : ∀ r, Quiet (f r)) :
    EV msg ka cs (Protocol.callAt env i c >>= f) es :=
  EV.assoc <| EV.callQ hm he fun _ => .bind (.bind .put fun _ => .pure) h

/-- A change, after which others may follow. -/
theorem EV.callM {c : Call} {f : Reply → M β} (es' : List Call) (hm : mutates c = true) (he : es = c :: es')
    (h : EV msg ka (c :: cs) (f (env.reply cs c)) es') : EV msg ka cs (Protocol.call env c >>= f) es := by
  intro s hs hc hk
  subst hc
  rw [bind_run (m := Protocol.call env c) (s := s) (x := env.reply s.calls c) (t := { s with calls := c :: s.calls }) rfl]
  obtain ⟨n, h, q⟩ := h { s with calls := c :: s.calls } ⟨hs.len, hs.mem⟩ rfl hk
  refine ⟨n ++ [c], by rw [h]; simp, ?_⟩
  simp [hm, he, q]

theorem EV.callN {c : Call} {f : Reply → M β} (hm : mutates c = false)
    (h : EV msg ka (c :: cs) (f (env.reply cs c)) es) : EV msg ka cs (Protocol.call env c >>= f) es := by
  intro s hs hc hk
  subst hc
  rw [bind_run (m := Protocol.call env c) (s := s) (x := env.reply s.calls c) (t := { s with calls := c :: s.calls }) rfl]
  obtain ⟨n, h, q⟩ := h { s with calls := c :: s.calls } ⟨hs.len, hs.mem⟩ rfl hk
  refine ⟨n ++ [c], by rw [h]; simp, ?_⟩
  simp [hm, q]
end

theorem EV.changes {msg : Bytes} {ka : Nat} {cs es : List Call} {m : M α} {s : St} (h : EV msg ka cs m es) (hs : Holds s msg) (hc : s.calls = cs) (hk : s.keyAlg = ka) :
    Spec.changes (m s).2.calls = Spec.changes cs ++ es := by
  obtain ⟨new, hn, he⟩ := h s hs hc hk
  rw [hn]
  simp [Spec.changes, he]

theorem Quiet.changes {m : M α} (h : Quiet m) (s : St) : Spec.changes (m s).2.calls = Spec.changes s.calls := by
  obtain ⟨n, h, q⟩ := h s
  rw [h]
  simp only [Spec.changes, List.reverse_append, List.filter_append]
  rw [(List.filter_eq_nil_iff (l := n.reverse)).2 fun x hx => by simp [q x (List.mem_reverse.1 hx)]]
  simp

/-- The part of the challenge command after its call: the nonce of the responder is in the response. -/
theorem challenge_tail {env : Env} {msg : Bytes} {ka : Nat} {cs : List Call} (he : Faithful env) (hm : env.maxResp ≤ 4096) (hn : msg.length = 39) :
    EV msg ka cs (do
      let r ← callAt env 5 (.challenge (slice msg 5 34) (env.maxResp - 5))
      let n ← value r
      setLen (5 + n)
      challengeSession env (slice msg 7 32))
      (if msg.length = 39 ∧ env.has .session ∧ ka = 1 then
        if (env.reply cs (.challenge (slice msg 5 34) (env.maxResp - 5))).rc.isErr then []
        else [.addSession env.eid (slice msg 7 32) (slice (env.reply cs (.challenge (slice msg 5 34) (env.maxResp - 5))).data 6 32)]
      else []) := by
  intro s hs hcs hk
  subst hcs hk
  have hcap := he.cap
  have ha := he.answer s.calls (.challenge (slice msg 5 34) (env.maxResp - 5))
  generalize hr : env.reply s.calls (.challenge (slice msg 5 34) (env.maxResp - 5)) = r at ha ⊢
  obtain ⟨ha1, ha2⟩ := ha
  generalize hc : Call.challenge (slice msg 5 34) (env.maxResp - 5) = c at hr
  have hmc : mutates c = false := by rw [← hc]; rfl
  have hput : 5 + r.data.length ≤ env.cap ∨ r.data = [] := by
    rcases h : r.data with _ | ⟨x, y⟩
    · exact .inr rfl
    · left; rw [h] at ha1; simp only [List.length_cons] at ha1 ⊢; omega
  have hcall : callAt env 5 c s = (.ok r, { s with mem := upd s.mem 5 r.data, calls := c :: s.calls }) := by
    unfold callAt
    rw [bind_run (m := call env _) (s := s) (x := r) (t := { s with calls := c :: s.calls }) (by unfold call; rw [hr])]
    have hp : put env 5 r.data { s with calls := c :: s.calls } = (.ok (), { s with mem := upd s.mem 5 r.data, calls := c :: s.calls }) := by
      unfold put; rw [if_neg (by rintro ⟨h1, h2⟩; rcases hput with h | h
                                 · omega
                                 · exact h2 h)]
    rw [bind_run hp]; rfl
  rw [bind_run hcall]
  rcases hrc : r.rc with v | _ | _ | _ | _ | _ | _ | _
  case ok =>
    obtain ⟨hv, h38⟩ := ha2 v hrc
    have hval : value r = pure v := by unfold value; simp only [hrc]
    rw [hval]
    show ∃ new, (challengeSession env (slice msg 7 32) { s with mem := upd s.mem 5 r.data, calls := c :: s.calls, len := 5 + v }).2.calls = _ ∧ _
    unfold challengeSession
    rw [bind_run (m := getKeyAlg) (s := { s with mem := upd s.mem 5 r.data, calls := c :: s.calls, len := 5 + v }) (x := s.keyAlg) (t := { s with mem := upd s.mem 5 r.data, calls := c :: s.calls, len := 5 + v }) rfl]
    by_cases hx : env.has .session = true ∧ s.keyAlg = 1
    · rw [if_pos (by simp [hx.1, hx.2])]
      have hb := bytes_run (env := env) (msg := msg.take 5 ++ r.data) (s := { s with mem := upd s.mem 5 r.data, calls := c :: s.calls, len := 5 + v })
        (fun i hi => by
          rw [List.length_append, List.length_take] at hi
          show upd s.mem 5 r.data i = _
          unfold upd
          by_cases h5 : i < 5
          · rw [if_neg (by omega), hs.mem i (by omega), List.getElem?_append_left (by rw [List.length_take]; omega), List.getElem?_take, if_pos h5]
          · rw [if_pos (by omega), List.getElem?_append_right (by rw [List.length_take]; omega), List.length_take, Nat.min_eq_left (by omega)])
        (by rw [List.length_append, List.length_take]; omega) 32 11 (by rw [List.length_append, List.length_take]; omega)
      rw [bind_run hb]
      have hsl : slice (msg.take 5 ++ r.data) 11 32 = slice r.data 6 32 := by
        unfold slice
        rw [List.drop_append, List.length_take, Nat.min_eq_left (by omega), List.drop_of_length_le (by rw [List.length_take]; omega)]
        rfl
      rw [hsl]
      refine ⟨[.addSession env.eid (slice msg 7 32) (slice r.data 6 32), c], rfl, ?_⟩
      rw [if_pos ⟨hn, hx⟩]
      simp only [Rc.isErr, List.reverse_cons, List.reverse_nil, List.nil_append, List.cons_append, Bool.false_eq_true, if_false]
      rw [List.filter_cons_of_neg (by simp [hmc]), List.filter_cons_of_pos rfl]; rfl
    · rw [if_neg (by simpa using hx), if_neg (by rintro ⟨-, h⟩; exact hx h)]
      exact ⟨[c], rfl, by simp [hmc]⟩
  all_goals
    refine ⟨[c], ?_, ?_⟩
    · have hval : ∃ e, value r = rcErr e := by unfold value; rw [hrc]; exact ⟨_, rfl⟩
      obtain ⟨e, hval⟩ := hval
      rw [hval]; rfl
    · simp [Rc.isErr, hmc]

/-- One step towards `Quiet`. -/
macro "qstep" : tactic => `(tactic| first
  | exact Quiet.pure | exact Quiet.fail | exact Quiet.rcErr | exact Quiet.len | exact Quiet.setLen | exact Quiet.setKeyAlg
  | exact Quiet.getKeyAlg | exact Quiet.u8 | exact Quiet.u16 | exact Quiet.u32 | exact Quiet.bytes | exact Quiet.put
  | exact Quiet.put8 | exact Quiet.put16 | exact Quiet.put32 | exact Quiet.call rfl | exact Quiet.callAt rfl
  | exact Quiet.unlessErr | exact Quiet.done | exact Quiet.value | exact Quiet.strLen | exact Quiet.findFw
  | apply Quiet.bind | apply Quiet.ite | apply Quiet.releasing | intro _ | split)

attribute [local irreducible] Quiet EV u8 u16 u32 bytes put put8 put16 put32 call callAt setLen Protocol.len fail rcErr done value unlessErr setKeyAlg getKeyAlg strLen releasing findFw

section
variable (env : Env)
theorem quiet_getFwVersion : Quiet (getFwVersion env) := by
  unfold getFwVersion 
  repeat' qstep

theorem quiet_getCertificate : Quiet (getCertificate env) := by
  unfold getCertificate certCopy
  repeat' qstep

theorem quiet_exportCsr : Quiet (exportCsr env) := by
  unfold exportCsr 
  repeat' qstep

theorem quiet_getCertState : Quiet (getCertState env) := by
  unfold getCertState 
  repeat' qstep

theorem quiet_getDeviceInfo : Quiet (getDeviceInfo env) := by
  unfold getDeviceInfo 
  repeat' qstep

theorem quiet_getDeviceId : Quiet (getDeviceId env) := by
  unfold getDeviceId 
  repeat' qstep

theorem quiet_resetCounter : Quiet (resetCounter env) := by
  unfold resetCounter 
  repeat' qstep

theorem quiet_logInfo : Quiet (logInfo env) := by
  unfold logInfo 
  repeat' qstep

theorem quiet_logRead : Quiet (logRead env) := by
  unfold logRead 
  repeat' qstep

theorem quiet_pfmId : Quiet (pfmId env) := by
  unfold pfmId optionalByte getManifest idResponse idVersion idPlatform
  repeat' qstep

theorem quiet_pfmFw : Quiet (pfmFw env) := by
  unfold pfmFw fwLength getManifest fwList fwArg noList
  repeat' qstep

theorem quiet_cfmId : Quiet (cfmId env) := by
  unfold cfmId optionalByte getManifest idResponse idVersion idPlatform
  repeat' qstep

theorem quiet_cfmComponents : Quiet (cfmComponents env) := by
  unfold cfmComponents getManifest componentList noList
  repeat' qstep

theorem quiet_pcdId : Quiet (pcdId env) := by
  unfold pcdId optionalByte getManifest idResponse idVersion idPlatform
  repeat' qstep

theorem quiet_pcdComponents : Quiet (pcdComponents env) := by
  unfold pcdComponents getManifest componentList noList
  repeat' qstep

theorem quiet_pcdInstances : Quiet (pcdInstances env) := by
  unfold pcdInstances 
  repeat' qstep

theorem quiet_hostState : Quiet (hostState env) := by
  unfold hostState 
  repeat' qstep

theorem quiet_recVersion : Quiet (recVersion env) := by
  unfold recVersion optionalByte recVersionOf
  repeat' qstep

theorem quiet_unsealResult : Quiet (unsealResult env) := by
  unfold unsealResult 
  repeat' qstep

theorem quiet_attData : Quiet (attData env) := by
  unfold attData 
  repeat' qstep

theorem quiet_attSummary : Quiet (attSummary env) := by
  unfold attSummary 
  repeat' qstep

theorem quiet_sessionSync : Quiet (sessionSync env) := by
  unfold sessionSync 
  repeat' qstep

theorem quiet_getHostFlash : Quiet (getHostFlash env) := by
  unfold getHostFlash 
  repeat' qstep

theorem quiet_updateStatus : Quiet (updateStatus env) := by
  unfold updateStatus statusOf statusPort nextVerification
  repeat' qstep

theorem quiet_extStatus : Quiet (extStatus env) := by
  unfold extStatus extStatusOf extStatusErr
  repeat' qstep

theorem quiet_forceInfo : Quiet (forceInfo env) := by
  unfold forceInfo 
  repeat' qstep

theorem quiet_heapStats : Quiet (heapStats env) := by
  unfold heapStats 
  repeat' qstep

theorem quiet_stackStats : Quiet (stackStats env) := by
  unfold stackStats 
  repeat' qstep

theorem quiet_debugState : Quiet (debugState env) := by
  unfold debugState 
  repeat' qstep


end

theorem slice_rest (msg : Bytes) (i : Nat) : slice msg i (msg.length - i) = msg.drop i := by
  simp [slice, List.take_of_length_le]

/-- One step towards the changes of a handler. -/
macro "estep" : tactic => `(tactic| first
  | apply EV.ite | apply EV.iteB | apply EV.lenB | apply EV.unlessB | apply EV.pureB | apply EV.u8B | apply EV.u16B | apply EV.u32B | apply EV.bytesB
  | apply EV.doneB | apply EV.assoc | refine EV.callQ (by rfl) ?_ (by intro _; repeat' qstep)
  | refine EV.quiet (by repeat' qstep) ?_ | intro _)

macro "eleaf" : tactic => `(tactic| (
  (try simp only [choice, Bool.or_eq_false_iff, Bool.and_eq_false_iff, Bool.or_eq_true, Bool.and_eq_true, bne_eq_false_iff_eq, decide_eq_false_iff_not, decide_eq_true_eq, bne_iff_ne, beq_eq_false_iff_ne, beq_iff_eq, ne_eq, slice_rest, Bool.not_eq_true', Bool.not_eq_false'] at *) <;>
  first | omega | grind))

section
variable {env : Env} (hcap : env.cap = 4096) {msg : Bytes} (hl : 5 ≤ msg.length) (hc : msg.length ≤ 4096) {ka : Nat} {cs : List Call} (il : ItemLen)
include hcap hl hc

theorem effects_logClear (h : byte msg 4 = 0x51) : EV msg ka cs (logClear env) (effects il env ka cs msg) := by
  simp only [effects, h]
  unfold logClear
  refine EV.lenB <| EV.unlessB (by eleaf) fun h6 => ?_
  simp only [bne_eq_false_iff_eq] at h6
  refine EV.u8B (by omega) (by omega) <| EV.ite (fun h1 => ?_) fun h1 => EV.ite (fun h2 => ?_) fun h2 => ?_
  · exact EV.callQ rfl (by eleaf) (by intro _; repeat' qstep)
  · exact EV.quiet .setLen (by eleaf)
  · exact EV.quiet .fail (by eleaf)

theorem effects_fwInit (h : byte msg 4 = 0x66) : EV msg ka cs (fwInit env) (effects il env ka cs msg) := by
  simp only [effects, h]
  unfold fwInit 
  repeat' estep
  all_goals eleaf

theorem effects_fwUpdate (h : byte msg 4 = 0x67) : EV msg ka cs (fwUpdate env) (effects il env ka cs msg) := by
  simp only [effects, h]
  unfold fwUpdate 
  repeat' estep
  all_goals eleaf

theorem effects_fwComplete (h : byte msg 4 = 0x69) : EV msg ka cs (fwComplete env) (effects il env ka cs msg) := by
  simp only [effects, h]
  unfold fwComplete 
  repeat' estep
  all_goals eleaf

theorem effects_pfmInit (h : byte msg 4 = 0x5B) : EV msg ka cs (pfmInit env) (effects il env ka cs msg) := by
  simp only [effects, h]
  unfold pfmInit pfmPort
  repeat' estep
  all_goals eleaf

theorem effects_pfmUpdate (h : byte msg 4 = 0x5C) : EV msg ka cs (pfmUpdate env) (effects il env ka cs msg) := by
  simp only [effects, h]
  unfold pfmUpdate pfmPort
  repeat' estep
  all_goals eleaf

theorem effects_pfmComplete (h : byte msg 4 = 0x5D) : EV msg ka cs (pfmComplete env) (effects il env ka cs msg) := by
  simp only [effects, h]
  unfold pfmComplete pfmPort
  repeat' estep
  all_goals eleaf

theorem effects_cfmInit (h : byte msg 4 = 0x5F) : EV msg ka cs (manifestInit env .cfm) (effects il env ka cs msg) := by
  simp only [effects, h]
  unfold manifestInit cmdPart
  repeat' estep
  all_goals eleaf

theorem effects_cfmUpdate (h : byte msg 4 = 0x60) : EV msg ka cs (manifestUpdate env .cfm) (effects il env ka cs msg) := by
  simp only [effects, h]
  unfold manifestUpdate cmdPart
  repeat' estep
  all_goals eleaf

theorem effects_cfmComplete (h : byte msg 4 = 0x61) : EV msg ka cs (cfmComplete env) (effects il env ka cs msg) := by
  simp only [effects, h]
  unfold cfmComplete manifestComplete cmdPart
  repeat' estep
  all_goals eleaf

theorem effects_pcdInit (h : byte msg 4 = 0x63) : EV msg ka cs (manifestInit env .pcd) (effects il env ka cs msg) := by
  simp only [effects, h]
  unfold manifestInit cmdPart
  repeat' estep
  all_goals eleaf

theorem effects_pcdUpdate (h : byte msg 4 = 0x64) : EV msg ka cs (manifestUpdate env .pcd) (effects il env ka cs msg) := by
  simp only [effects, h]
  unfold manifestUpdate cmdPart
  repeat' estep
  all_goals eleaf

theorem effects_pcdComplete (h : byte msg 4 = 0x65) : EV msg ka cs (pcdComplete env) (effects il env ka cs msg) := by
  simp only [effects, h]
  unfold pcdComplete manifestComplete cmdPart
  repeat' estep
  all_goals eleaf

theorem effects_recPrepare (h : byte msg 4 = 0x72) : EV msg ka cs (recPrepare env) (effects il env ka cs msg) := by
  simp only [effects, h]
  unfold recPrepare recPort
  repeat' estep
  all_goals eleaf

theorem effects_recUpdate (h : byte msg 4 = 0x73) : EV msg ka cs (recUpdate env) (effects il env ka cs msg) := by
  simp only [effects, h]
  unfold recUpdate recPort
  repeat' estep
  all_goals eleaf

theorem effects_recActivate (h : byte msg 4 = 0x74) : EV msg ka cs (recActivate env) (effects il env ka cs msg) := by
  simp only [effects, h]
  unfold recActivate recPort
  repeat' estep
  all_goals eleaf

theorem effects_setHostFlash (h : byte msg 4 = 0x42) : EV msg ka cs (setHostFlash env) (effects il env ka cs msg) := by
  simp only [effects, h]
  unfold setHostFlash 
  repeat' estep
  all_goals eleaf

theorem effects_debugFill (h : byte msg 4 = 0xF2) : EV msg ka cs (debugFill env) (effects il env ka cs msg) := by
  simp only [effects, h]
  unfold debugFill 
  repeat' estep
  all_goals eleaf


theorem effects_getDigests (h : byte msg 4 = 0x81) : EV msg ka cs (getDigests env) (effects il env ka cs msg) := by
  simp only [effects, h]
  unfold getDigests digestsSession digestsTail
  repeat' estep
  all_goals eleaf

theorem effects_getCapabilities (h : byte msg 4 = 0x02) : EV msg ka cs (getCapabilities env) (effects il env ka cs msg) := by
  simp only [effects, h]
  unfold getCapabilities
  refine EV.lenB <| EV.unlessB (by eleaf) fun h9 => EV.callN rfl ?_
  simp only [bne_eq_false_iff_eq] at h9
  rw [if_pos h9]
  split
  · rename_i d hd
    have : value (env.reply cs (.deviceNum env.eid)) = pure d := by unfold value; simp only [hd]
    rw [this]
    repeat' estep
    all_goals eleaf
  · rename_i hd
    have : ∃ e, value (env.reply cs (.deviceNum env.eid)) = rcErr e := by
      unfold value; split
      · rename_i d hd'; exact absurd hd' (hd d)
      · exact ⟨_, rfl⟩
    obtain ⟨e, he⟩ := this
    rw [he]
    exact EV.rcErrB rfl

theorem effects_importCert (h : byte msg 4 = 0x21) : EV msg ka cs (importCert il env) (effects il env ka cs msg) := by
  simp only [effects, h]
  unfold importCert
  refine EV.lenB <| EV.unlessB (by eleaf) fun h9 => ?_
  simp only [decide_eq_false_iff_not] at h9
  refine EV.u16B (by omega) (by omega) <| EV.unlessB (by eleaf) fun hn => ?_
  simp only [Bool.or_eq_false_iff, bne_eq_false_iff_eq, beq_eq_false_iff_ne] at hn
  refine EV.bytesB (by omega) (by omega) ?_
  rw [show word msg 6 = msg.length - 8 by omega, slice_rest]
  refine EV.unlessB (by eleaf) fun hi => ?_
  refine EV.u8B (by omega) (by omega) <| EV.unlessB (by eleaf) fun hx => ?_
  refine EV.callM (if (env.reply cs (.storeCert (byte msg 5) (msg.drop 8))).rc = .ok 0 then [.checkCerts] else []) rfl (by eleaf) ?_
  refine EV.doneB (fun h => by rw [if_neg h]) fun h => ?_
  rw [if_pos h]
  exact EV.callQ rfl rfl (by intro _; repeat' qstep)

theorem effects_resetConfig (h : byte msg 4 = 0x6A) : EV msg ka cs (resetConfig env) (effects il env ka cs msg) := by
  simp only [effects, h]
  have key : ∀ tk, EV msg ka cs (do
      let r ← call env (.authorize (byte msg 5) tk)
      match r.rc with
      | .ok 0 =>
        if r.val ≠ 0 then do
          let r ← call env .execute
          done r
          setLen 0
        else fail .unsupportedOperation
      | .challenge => do
        unlessErr (decide (r.data.length > room env 5)) .bufTooSmall
        put env 5 r.data
        setLen (r.data.length + 5)
      | .unsupportedOp => fail .unsupportedIndex
      | rc => rcErr rc) (.authorize (byte msg 5) tk ::
        (if (env.reply cs (.authorize (byte msg 5) tk)).rc = .ok 0 ∧ (env.reply cs (.authorize (byte msg 5) tk)).val ≠ 0 then [.execute] else [])) := by
    intro tk
    refine EV.callM _ rfl rfl ?_
    generalize env.reply cs (.authorize (byte msg 5) tk) = r
    split
    · rename_i hr
      refine EV.ite (fun hv => ?_) fun hv => ?_
      · rw [if_pos ⟨hr, hv⟩]
        exact EV.callQ rfl rfl (by intro _; repeat' qstep)
      · rw [if_neg (by rintro ⟨-, h⟩; exact hv h)]
        exact EV.quiet .fail rfl
    all_goals
      rename_i hr
      rw [if_neg (by rintro ⟨h, -⟩; simp_all)]
      refine EV.quiet ?_ rfl
      repeat' qstep
  unfold resetConfig resetToken
  refine EV.lenB <| EV.unlessB (by eleaf) fun h6 => ?_
  simp only [decide_eq_false_iff_not] at h6
  rw [if_pos (show 6 ≤ msg.length by omega)]
  refine EV.iteB (fun h => ?_) fun h => ?_
  · rw [if_pos h]
    exact EV.pureB <| EV.u8B (by omega) (by omega) (key none)
  · rw [if_neg h]
    refine EV.assoc <| EV.bytesB (by omega) (by omega) <| EV.pureB <| EV.u8B (by omega) (by omega) ?_
    rw [slice_rest]
    exact key _

theorem effects_forceAttestation (hsz : 2 ^ 32 ≤ env.size) (h : byte msg 4 = 0x90) : EV msg ka cs (forceAttestation env) (effects il env ka cs msg) := by
  simp only [effects, h]
  have hrl : restLen env msg.length 5 = msg.length - 5 := by
    unfold restLen
    rw [Nat.mod_eq_of_lt (a := 5) (by omega)]
    rw [show msg.length + env.size - 5 = msg.length - 5 + env.size by omega, Nat.add_mod_right, Nat.mod_eq_of_lt (by omega)]
  unfold forceAttestation
  refine EV.unlessB (by eleaf) fun h1 => EV.lenB ?_
  rw [hrl]
  refine EV.unlessB (by eleaf) fun h2 => ?_
  simp only [decide_eq_false_iff_not] at h2
  refine EV.u8B (by omega) (by omega) <| EV.unlessB (by eleaf) fun h3 => EV.unlessB (by unfold forceLen; eleaf) fun h4 => ?_
  refine EV.bytesB (by omega) (by omega) ?_
  rw [slice_rest]
  unfold forceLen at h4
  refine EV.callM (if (env.reply cs (.force (msg.drop 5))).rc = .ok 0 then [.wake] else []) rfl (by eleaf) ?_
  refine EV.doneB (fun h => by rw [if_neg h]) fun h => ?_
  rw [if_pos h]
  exact EV.setLenQ rfl (by intro _; repeat' qstep)

theorem effects_exchangeKeys (he : Faithful env) (h12 : 12 ≤ env.maxResp) (hm : env.maxResp ≤ 4096) (hr : ¬ Ragged msg) (h : byte msg 4 = 0x84) : EV msg ka cs (exchangeKeys env) (effects il env ka cs msg) := by
  simp only [effects, h]
  unfold exchangeKeys hmacAt
  refine EV.unlessB (by eleaf) fun h1 => EV.lenB <| EV.unlessB (by eleaf) fun h2 => ?_
  simp only [decide_eq_false_iff_not] at h2
  refine EV.u8B (by omega) (by omega) <| EV.ite (fun h0 => ?_) fun h0 => EV.ite (fun h0 => ?_) fun h0 => EV.ite (fun h0 => ?_) fun h0 => ?_
  · refine EV.bytesB (by omega) (by omega) ?_
    rw [slice_rest, room_eq he h12 hm (by omega)]
    exact EV.callAtQ rfl (by eleaf) (by intro _; repeat' qstep)
  · have h7 : msg.length ≠ 7 := fun h7 => hr (.inr ⟨h, h7, h0⟩)
    rw [restLen_eq he (by omega) hc]
    refine EV.unlessB (by eleaf) fun h2 => EV.u16B (by omega) (by omega) <| EV.iteB (fun h32 => ?_) fun h32 => ?_
    · refine EV.bytesB (by omega) (by omega) ?_
      rw [← h32, slice_rest]
      exact EV.callQ rfl (by eleaf) (by intro _; unfold keysDone; repeat' qstep)
    · exact EV.pureB <| EV.callQ rfl (by eleaf) (by intro _; unfold keysDone; repeat' qstep)
  · rw [restLen_eq he (by omega) hc]
    refine EV.unlessB (by eleaf) fun h2 => EV.iteB (fun h32 => ?_) fun h32 => ?_
    · refine EV.bytesB (by omega) (by omega) ?_
      rw [← h32, slice_rest]
      exact EV.callQ rfl (by eleaf) (by intro _; unfold keysDone clearCrypt; repeat' qstep)
    · exact EV.pureB <| EV.callQ rfl (by eleaf) (by intro _; unfold keysDone clearCrypt; repeat' qstep)
  · exact EV.quiet .fail (by eleaf)

theorem effects_unsealMessage (hr : ¬ Ragged msg) (h : byte msg 4 = 0x89) : EV msg ka cs (unsealMessage env) (effects il env ka cs msg) := by
  simp only [effects, h]
  unfold unsealMessage unsealTail
  by_cases hs : Spec.sealed msg = true
  · rw [if_pos hs]
    simp only [Spec.sealed, Bool.and_eq_true, decide_eq_true_eq, Bool.not_eq_true', beq_iff_eq, Bool.and_eq_false_iff, beq_eq_false_iff_ne, decide_eq_false_iff_not] at hs
    obtain ⟨⟨⟨⟨⟨⟨⟨h10, h5⟩, h5'⟩, h6⟩, h7⟩, h9⟩, h11⟩, hlen⟩ := hs
    refine EV.lenB <| EV.unlessB (fun h => by simp at h; omega) fun _ => ?_
    refine EV.u8B (by omega) (by omega) <| EV.unlessB (fun h => by simp at h; omega) fun _ => ?_
    refine EV.u8B (by omega) (by omega) <| EV.unlessB (fun h => by simp at h; omega) fun _ => ?_
    refine EV.u16B (by omega) (by omega) <| EV.unlessB (fun h => by simp at h; omega) fun _ => ?_
    refine EV.unlessB (fun h => by simp at h; omega) fun _ => ?_
    refine EV.u16B (by omega) (by omega) <| EV.unlessB (fun h => by simp at h; omega) fun _ => ?_
    refine EV.unlessB (fun h => by simp at h; omega) fun _ => ?_
    rw [show 9 + word msg 7 + 2 + word msg (9 + word msg 7) = 11 + word msg 7 + word msg (9 + word msg 7) by omega]
    refine EV.u16B (by omega) (by omega) <| EV.unlessB (fun h => by simp at h; omega) fun _ => ?_
    refine EV.unlessB (fun h => by simp at h; omega) fun _ => ?_
    refine EV.bytesB (by omega) (by omega) <| EV.callQ rfl (by simp [slice]) (by intro _; repeat' qstep)
  · rw [if_neg hs]
    refine EV.lenB <| EV.unlessB (fun _ => rfl) fun h10 => ?_
    simp only [decide_eq_false_iff_not] at h10
    refine EV.u8B (by omega) (by omega) <| EV.unlessB (fun _ => rfl) fun h5 => ?_
    refine EV.u8B (by omega) (by omega) <| EV.unlessB (fun _ => rfl) fun h6 => ?_
    refine EV.u16B (by omega) (by omega) <| EV.unlessB (fun _ => rfl) fun h7 => ?_
    refine EV.unlessB (fun _ => rfl) fun h8 => ?_
    simp only [decide_eq_false_iff_not] at h8
    refine EV.u16B (by omega) (by omega) <| EV.unlessB (fun _ => rfl) fun h9 => ?_
    refine EV.unlessB (fun _ => rfl) fun _ => ?_
    have hne : 9 + word msg 7 + 2 + word msg (9 + word msg 7) + 1 ≠ msg.length := fun h' => hr (.inl ⟨h, h'⟩)
    simp only [Bool.or_eq_false_iff, decide_eq_false_iff_not, beq_eq_false_iff_ne] at h9
    refine EV.u16B (by omega) (by omega) <| EV.unlessB (fun _ => rfl) fun h11 => ?_
    refine EV.unlessB (fun _ => rfl) fun hlen => ?_
    exfalso
    apply hs
    rw [show 9 + word msg 7 + 2 + word msg (9 + word msg 7) = 11 + word msg 7 + word msg (9 + word msg 7) by omega] at h11 hlen
    simp only [Bool.or_eq_false_iff, decide_eq_false_iff_not, beq_eq_false_iff_ne, bne_eq_false_iff_eq, Bool.and_eq_false_iff] at h5 h6 h7 h11 hlen
    simp only [Spec.sealed, Bool.and_eq_true, decide_eq_true_eq, Bool.not_eq_true', beq_iff_eq, Bool.and_eq_false_iff, beq_eq_false_iff_ne, decide_eq_false_iff_not]
    refine ⟨⟨⟨⟨⟨⟨⟨?_, ?_⟩, ?_⟩, ?_⟩, ?_⟩, ?_⟩, ?_⟩, ?_⟩ <;> omega

theorem effects_getChallenge (he : Faithful env) (h12 : 12 ≤ env.maxResp) (hm : env.maxResp ≤ 4096) (h : byte msg 4 = 0x83) :
    EV msg ka cs (getChallenge env) (effects il env ka cs msg) := by
  simp only [effects, h]
  unfold getChallenge
  refine EV.lenB <| EV.unlessB (by eleaf) fun hn => ?_
  simp only [bne_eq_false_iff_eq] at hn
  refine EV.bytesB (by omega) (by omega) <| EV.bytesB (by omega) (by omega) ?_
  rw [room_eq he h12 hm (by omega)]
  exact challenge_tail he hm hn

end

attribute [local irreducible] getFwVersion getCertificate exportCsr getCertState getDeviceInfo getDeviceId resetCounter logInfo logRead pfmId pfmFw cfmId cfmComponents pcdId pcdComponents pcdInstances hostState recVersion unsealResult attData attSummary sessionSync getHostFlash updateStatus extStatus forceInfo heapStats stackStats debugState logClear fwInit fwUpdate fwComplete pfmInit pfmUpdate pfmComplete cfmComplete pcdComplete recPrepare recUpdate recActivate setHostFlash debugFill getDigests getCapabilities importCert resetConfig manifestInit manifestUpdate getChallenge exchangeKeys unsealMessage forceAttestation

section
variable {env : Env} (he : Faithful env) (h12 : 12 ≤ env.maxResp) (hm : env.maxResp ≤ 4096) {msg : Bytes} (hl : 5 ≤ msg.length) (hc : msg.length ≤ 4096) {ka : Nat} {cs : List Call} (il : ItemLen)
include he h12 hm hl hc

theorem effects_handler (hr : ¬ Ragged msg) : EV msg ka cs (handler il env (byte msg 4)) (effects il env ka cs msg) := by
  have hcap := he.cap
  unfold handler
  split
  all_goals first
    | exact effects_getChallenge hcap hl hc il he h12 hm ‹_›
    | exact effects_exchangeKeys hcap hl hc il he h12 hm hr ‹_›
    | exact effects_unsealMessage hcap hl hc il hr ‹_›
    | exact effects_forceAttestation hcap hl hc il he.size ‹_›
    | exact effects_logClear hcap hl hc il ‹_›
    | exact effects_fwInit hcap hl hc il ‹_›
    | exact effects_fwUpdate hcap hl hc il ‹_›
    | exact effects_fwComplete hcap hl hc il ‹_›
    | exact effects_pfmInit hcap hl hc il ‹_›
    | exact effects_pfmUpdate hcap hl hc il ‹_›
    | exact effects_pfmComplete hcap hl hc il ‹_›
    | exact effects_cfmInit hcap hl hc il ‹_›
    | exact effects_cfmUpdate hcap hl hc il ‹_›
    | exact effects_cfmComplete hcap hl hc il ‹_›
    | exact effects_pcdInit hcap hl hc il ‹_›
    | exact effects_pcdUpdate hcap hl hc il ‹_›
    | exact effects_pcdComplete hcap hl hc il ‹_›
    | exact effects_recPrepare hcap hl hc il ‹_›
    | exact effects_recUpdate hcap hl hc il ‹_›
    | exact effects_recActivate hcap hl hc il ‹_›
    | exact effects_setHostFlash hcap hl hc il ‹_›
    | exact effects_debugFill hcap hl hc il ‹_›
    | exact effects_getDigests hcap hl hc il ‹_›
    | exact effects_getCapabilities hcap hl hc il ‹_›
    | exact effects_importCert hcap hl hc il ‹_›
    | exact effects_resetConfig hcap hl hc il ‹_›
    | (rename_i h; exact EV.quiet (by first | exact quiet_getFwVersion env | exact quiet_getCertificate env | exact quiet_exportCsr env | exact quiet_getCertState env | exact quiet_getDeviceInfo env | exact quiet_getDeviceId env | exact quiet_resetCounter env | exact quiet_logInfo env | exact quiet_logRead env | exact quiet_pfmId env | exact quiet_pfmFw env | exact quiet_cfmId env | exact quiet_cfmComponents env | exact quiet_pcdId env | exact quiet_pcdComponents env | exact quiet_pcdInstances env | exact quiet_hostState env | exact quiet_recVersion env | exact quiet_unsealResult env | exact quiet_attData env | exact quiet_attSummary env | exact quiet_sessionSync env | exact quiet_getHostFlash env | exact quiet_updateStatus env | exact quiet_extStatus env | exact quiet_forceInfo env | exact quiet_heapStats env | exact quiet_stackStats env | exact quiet_debugState env) (by simp only [effects, h]))
    | (refine EV.quiet .fail ?_; unfold effects; split <;> first | rfl | contradiction)

end

theorem bind_changes {m : M α} {f : α → M β} (hf : ∀ a, Quiet (f a)) (s : St) :
    Spec.changes ((m >>= f) s).2.calls = Spec.changes (m s).2.calls := by
  rcases h : m s with ⟨r | r, t⟩
  · rw [bind_err h]
  · rw [bind_run h]; exact (hf r).changes t

theorem quiet_decrypt (env : Env) (l : Nat) : Quiet (decrypt env l) := by
  unfold decrypt
  repeat' qstep

theorem quiet_encrypt (env : Env) : Quiet (encryptResponse env) := by
  unfold encryptResponse
  repeat' qstep

theorem request_changes {env : Env} (he : Faithful env) (il : ItemLen) {msg : Bytes} {s : St} (h1 : 40 ≤ env.maxResp) (h2 : env.maxResp ≤ 4096)
    (hl : 5 ≤ msg.length) (hc : msg.length ≤ 4096) (hs : Holds s msg) (h0 : s.calls = [])
    (hh : byte msg 0 = 0x7E ∧ word msg 1 = 0x1414) (hr : ¬ Ragged (plain env msg)) :
    changes (processRequest il env s).2.calls = asked il env s.keyAlg msg := by
  have hcap := he.cap
  have hv : ∀ i, 0 ≤ i → i < msg.length → s.mem i = msg[i]? := fun i _ h => hs.mem i h
  unfold processRequest
  rw [bind_run len_run, hs.len]
  rw [show decide (msg.length < 5) = false by simpa using hl, bind_run unless_false]
  unfold checkHeader
  simp only [M.assoc]
  rw [bind_run (u8_run hv (by omega) (by omega) (by omega)), bind_run (u16_run hv (by omega) (by omega) (by omega))]
  rw [hh.1, hh.2, show (0x7E % 128 != 0x7E || 0x7E / 128 == 1 || 0x1414 != 0x1414) = false by decide]
  rw [bind_run unless_false, bind_run (u8_run hv (by omega) (by omega) (by omega))]
  unfold asked Spec.reserved
  rcases (byte msg 3 % 32 != 0 || byte msg 3 / 64 % 2 != 0) with _ | _
  rotate_left
  · rw [bind_err unless_true, h0]; rfl
  rw [bind_run unless_false, bind_run (u8_run hv (by omega) (by omega) (by omega))]
  simp only [Bool.false_eq_true, if_false]
  by_cases hx : byte msg 3 / 32 % 2 = 1
  · rw [if_pos hx, if_neg (by omega)]
    unfold processEncrypted
    rcases decrypt_run he hs.mem hl hc h0 with ⟨ho, e, t, hd, h4⟩ | ⟨ho, hl33, -, hdl, hd⟩
    · rw [bind_err hd, if_neg ho]
      have := (quiet_decrypt env msg.length).changes s
      rw [hd, h0] at this
      exact this
    · rw [bind_run hd, if_pos ho]
      have ho := opened_holds he hs hx hl33 hdl
      have hpl : (plain env msg).length = msg.length - 28 := ho.len.symm
      have hcs : (opened msg s (env.reply [] (.decrypt msg (msg.length - 32))).data).calls = [.decrypt msg (msg.length - 32)] := by
        show _ :: s.calls = _; rw [h0]
      have hka : (opened msg s (env.reply [] (.decrypt msg (msg.length - 32))).data).keyAlg = s.keyAlg := rfl
      generalize opened msg s _ = so at ho hcs hka ⊢
      have hv' : ∀ i, 0 ≤ i → i < (plain env msg).length → so.mem i = (plain env msg)[i]? := fun i _ hi => ho.mem i hi
      rw [bind_run (u8_run hv' (by omega) (by omega) (by omega))]
      have hroom : (env.maxResp + env.size - 28) % env.size = env.maxResp - 28 := by
        have := he.size
        rw [show env.maxResp + env.size - 28 = env.maxResp - 28 + env.size by omega, Nat.add_mod_right, Nat.mod_eq_of_lt (by omega)]
      rw [hroom]
      have hh := (effects_handler (faithful_with he (env.maxResp - 28) true) (show 12 ≤ env.maxResp - 28 by omega) (show env.maxResp - 28 ≤ 4096 by omega)
        (by omega) (by omega) il hr).changes ho hcs hka
      rw [bind_changes (fun _ => Quiet.ite .pure (quiet_encrypt env)), hh]
      simp [changes, mutates]
  · rw [if_neg hx, if_pos (by omega), bind_run (u8_run hv (by omega) (by omega) (by omega))]
    have hp : plain env msg = msg := by unfold plain; rw [if_neg hx]
    rw [hp] at hr
    have hh := (effects_handler (faithful_with he env.maxResp false) (show 12 ≤ env.maxResp by omega) h2 hl hc il hr).changes hs h0 rfl
    rw [hh]
    simp [changes]

end Verif.Protocol
