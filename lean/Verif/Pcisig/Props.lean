import Verif.Pcisig.Effects
/-! Properties of the TDISP responder. -/
namespace Verif.Pcisig

variable {versions : Bytes} {e : Env} {m : Msg} {s : St}

/-! ### Answers -/

theorem process_good (wf : e.WF) (u : Usable m) (hs : m.secured = true) :
    ∃ b rest, process versions e m s = some (.answer ⟨b, (bytesOf m.q (namedIn m.q) (replyTo versions e s.ctx m.room m.q)).length⟩, after versions e s m.room m.q) ∧
      b = bytesOf m.q (namedIn m.q) (replyTo versions e s.ctx m.room m.q) ++ rest ∧ b.length = m.buf.length ∧
      (bytesOf m.q (namedIn m.q) (replyTo versions e s.ctx m.room m.q)).length ≤ m.room := by
  have h16 := u.h16
  have hb := u.hb
  have key : ∀ x : Option (Ans × St), Good m x (bytesOf m.q (namedIn m.q) (replyTo versions e s.ctx m.room m.q)) (after versions e s m.room m.q) →
      ∃ b rest, answered x = some (.answer ⟨b, (bytesOf m.q (namedIn m.q) (replyTo versions e s.ctx m.room m.q)).length⟩, after versions e s m.room m.q) ∧
      b = bytesOf m.q (namedIn m.q) (replyTo versions e s.ctx m.room m.q) ++ rest ∧ b.length = m.buf.length ∧
      (bytesOf m.q (namedIn m.q) (replyTo versions e s.ctx m.room m.q)).length ≤ m.room := by
    rintro x ⟨b, rest, rfl, h1, h2, h3⟩
    exact ⟨b, rest, rfl, h1, h2, h3⟩
  have ht : (m.buf.getD 1 0).toNat = typeOf m.q := by
    unfold typeOf Msg.q
    rw [getD_take (by omega)]
  unfold process
  rw [if_neg (by simp [hs]), if_neg (by omega), get_ok (by omega), window_one (by omega)]
  simp only [Option.bind_eq_bind, Option.bind_some, List.headD_cons]
  rw [ht]
  split
  · exact key _ (getVersion_good u ‹_›)
  · exact key _ (getCapabilities_good wf u ‹_›)
  · exact key _ (lockInterface_good wf u ‹_›)
  · exact key _ (getReport_good wf u ‹_›)
  · exact key _ (getState_good u ‹_›)
  · exact key _ (startInterface_good u ‹_›)
  · exact key _ (stopInterface_good u ‹_›)
  · rename_i h1 h2 h3 h4 h5 h6 h7
    refine key _ ?_
    have n1 : typeOf m.q ≠ 0x81 := h1
    have n2 : typeOf m.q ≠ 0x82 := h2
    have n3 : typeOf m.q ≠ 0x83 := h3
    have n4 : typeOf m.q ≠ 0x84 := h4
    have n5 : typeOf m.q ≠ 0x85 := h5
    have n6 : typeOf m.q ≠ 0x86 := h6
    have n7 : typeOf m.q ≠ 0x87 := h7
    have hout : typeOf m.q < 0x81 ∨ 0x87 < typeOf m.q := by omega
    have hc : callsOf e s.ctx m.room m.q = [] := callsOf_type (by omega)
    have e1 : namedIn m.q = noFid := by
      unfold namedIn
      rw [if_pos (by omega)]; rfl
    have e2 : replyTo versions e s.ctx m.room m.q = .error 0x07 := by
      unfold replyTo
      rw [if_pos hout]
    rw [after_none hc, e1, e2]
    exact good_fail _ rfl u.h24 u.hr

theorem after_calls : (after versions e s m.room m.q).calls = s.calls ++ callsOf e s.ctx m.room m.q := by
  unfold after
  split
  · rename_i h; rw [h, List.append_nil]
  · rfl

/-- Every secured request of at least 16 bytes gets exactly the answer of the specification, which fits into the room for it, and makes exactly the
specified calls to the hardware; no byte outside of the buffer is touched. -/
theorem tdisp_answer (versions : Bytes) (e : Env) (m : Msg) (s : St) (wf : e.WF) (u : Usable m) (hs : m.secured = true) :
    ∃ a s', process versions e m s = some (.answer a, s') ∧
      a.buf.take a.len = bytesOf m.q (namedIn m.q) (replyTo versions e s.ctx m.room m.q) ∧ a.len ≤ m.room ∧ a.buf.length = m.buf.length ∧
      s'.calls = s.calls ++ callsOf e s.ctx m.room m.q := by
  obtain ⟨b, rest, h1, h2, h3, h4⟩ := process_good (versions := versions) (e := e) (m := m) (s := s) wf u hs
  refine ⟨_, _, h1, ?_, h4, h3, after_calls⟩
  rw [h2]
  exact List.take_left' rfl

/-- Requests that did not come in a secured message, or are shorter than a header, are refused: no answer, no call, no change. -/
theorem tdisp_refused (versions : Bytes) (e : Env) (m : Msg) (s : St) (h : m.secured = false ∨ m.len < 16) :
    process versions e m s = some (if m.secured = false then .securedRequired else .badSize, s) := by
  unfold process
  by_cases hs : m.secured = false
  · rw [if_pos hs, if_pos hs]
  · rw [if_neg hs, if_neg hs, if_pos (by simp [hs] at h; exact h)]

/-- An outside for examples: one function, everything works. -/
def env1 : Env where
  index := fun b => if b = 0x0100 then some 3 else none
  caps := fun _ => some (List.replicate 28 0)
  lock := fun _ _ => .ok
  report := fun _ _ _ cap => (.ok, List.replicate (min cap 5) 0xaa, 7)
  state := fun _ => some 1
  start := fun _ => .ok
  stop := fun _ => .ok
  rng := some (List.replicate 32 0x5a)
  getOk := fun _ => true
  setOk := fun _ => true
  touch := fun c => c

theorem env1_wf : env1.WF :=
  ⟨fun q c h => by cases h; rfl, fun f o l cap => by show (List.replicate _ _).length ≤ cap; rw [List.length_replicate]; omega,
    fun n h => by cases h; rfl⟩

/-- Nothing is locked. -/
def st0 : St := ⟨fun _ => ⟨0, List.replicate 32 0, 0, 0, 0, 0, [0, 0, 0, 0]⟩, []⟩

/-- A request with this header in a buffer of 100 bytes. -/
def msg (type : UInt8) (body : Bytes) : Msg :=
  ⟨[0x10, type, 0, 0, 0, 1, 0, 0, 0, 0, 0, 0, 0, 0, 0, 0] ++ body ++ List.replicate (84 - body.length) 0, 16 + body.length, 100, true⟩

example : Usable (msg 0x83 (List.replicate 20 1)) := by
  refine ⟨?_, ?_, ?_, ?_⟩ <;> decide

set_option maxRecDepth 100000 in
example : ((process [0x10] env1 (msg 0x83 (List.replicate 20 1)) st0).map fun r => (match r.1 with | .answer a => a.buf.take a.len | _ => [], r.2.calls)) =
    some ([0x10, 0x03, 0, 0, 0, 1, 0, 0, 0, 0, 0, 0, 0, 0, 0, 0] ++ List.replicate 32 0x5a, [.lock 3 (List.replicate 20 1)]) := by decide_cbv

/-- Without room for an error answer (24 bytes) the error answer is written beyond the end of the buffer. -/
theorem tdisp_small_room : ∃ (e : Env) (m : Msg) (s : St), e.WF ∧ m.secured = true ∧ 16 ≤ m.len ∧ m.len ≤ m.buf.length ∧ m.room = m.buf.length ∧
    process [0x10] e m s = none :=
  ⟨env1, ⟨[0x10, 0x99, 0, 0, 0, 1, 0, 0, 0, 0, 0, 0, 0, 0, 0, 0], 16, 16, true⟩, st0, env1_wf, rfl, by decide, by decide, rfl, by decide_cbv⟩

/-! ### The start nonce -/

theorem typeOf_bytesOf {q fid : Bytes} {r : Reply} (h : typeOf (bytesOf q fid r) = 0x03) : ∃ b n, r = .ok 0x03 b n := by
  cases r with
  | error c => cases h
  | ok t b n =>
    have : t.toNat = 3 := by cases b <;> exact h
    exact ⟨b, n, by rw [UInt8.toNat_inj.mp (show t.toNat = (3 : UInt8).toNat from this)]⟩

theorem replyTo_three {ctx : Nat → Ctx} {room : Nat} {q n : Bytes} {b : Bool} (wf : e.WF) (h : replyTo versions e ctx room q = .ok 0x03 b n) :
    b = false ∧ n.length = 32 ∧ ∃ f, target e q = some f ∧ callsOf e ctx room q ≠ [] := by
  unfold replyTo at h
  split at h
  · cases h
  split at h
  · cases h
  rename_i hz
  split at h
  · cases h
  rename_i hv
  split at h
  · cases h
  rename_i hroom
  split at h
  · split at h <;> cases h
  split at h
  · cases h
  · rename_i f hf
    unfold replyFor at h
    split at h
    · cases h
    split at h
    · rename_i ht
      split at h
      · cases h
      rename_i h1
      split at h
      · cases h
      rename_i h2
      split at h
      · cases h
      · rename_i n' hr
        split at h
        · cases h
        split at h
        · cases h
        · cases h
          refine ⟨rfl, wf.rng _ hr, f, hf, ?_⟩
          unfold callsOf
          rw [if_neg (fun x => x.elim hz hv), hf]
          have : asksLock e ctx f = true := by
            simp only [Bool.not_eq_false, Bool.not_eq_true] at h1 h2
            simp [asksLock, h1, h2, hr]
          rw [ht] at hroom
          have h48 : 48 ≤ room := by
            have : ¬ room < 48 := hroom
            omega
          simp only []
          rw [if_pos ⟨ht, h48, this⟩]
          simp
    split at h
    · simp only [] at h; split at h <;> cases h
    split at h
    · split at h <;> cases h
    split at h
    · split at h
      · cases h
      split at h
      · cases h
      split at h
      · cases h
      split at h <;> cases h
    split at h <;> cases h

theorem after_locked {f : Nat} {q : Bytes} {room : Nat} (hn : e.SetsNoNonce) (h : Locked (after versions e s room q).ctx f = true) :
    (∃ b n, replyTo versions e s.ctx room q = .ok 0x03 b n ∧ target e q = some f ∧ ((after versions e s room q).ctx f).nonce = n) ∨
    ((¬ (∃ b n, replyTo versions e s.ctx room q = .ok 0x03 b n ∧ callsOf e s.ctx room q ≠ []) ∨ target e q ≠ some f) ∧ Locked s.ctx f = true ∧
      ((after versions e s room q).ctx f).nonce = (s.ctx f).nonce) := by
  by_cases hc : callsOf e s.ctx room q = []
  · rw [after_none hc] at h ⊢
    exact .inr ⟨.inl (fun ⟨_, _, _, hx⟩ => hx hc), h, rfl⟩
  · by_cases hr : ∃ b n, replyTo versions e s.ctx room q = .ok 0x03 b n
    · obtain ⟨b, n, hr⟩ := hr
      have e0 : (after versions e s room q).ctx f =
          if target e q = some f then { e.touch s.ctx f with nonce := n, mask := (e.touch s.ctx f).mask ||| 0x0001 } else e.touch s.ctx f := by
        unfold after
        rw [if_neg hc]
        simp only [hr]
      unfold Locked at h
      rw [e0] at h ⊢
      by_cases hf : target e q = some f
      · exact .inl ⟨b, n, hr, hf, by rw [if_pos hf]⟩
      · rw [if_neg hf] at h ⊢
        exact .inr ⟨.inr hf, hn s.ctx f h⟩
    · have e1 : (after versions e s room q).ctx f = e.touch s.ctx f := by
        unfold after
        rw [if_neg hc]
        simp only []
        split
        · rename_i n h3; exact absurd ⟨_, _, h3⟩ hr
        · rfl
      unfold Locked at h
      rw [e1] at h ⊢
      exact .inr ⟨.inl (fun ⟨b, n, hx, _⟩ => hr ⟨b, n, hx⟩), hn s.ctx f h⟩

/-- The stored nonce of a locked interface is the one handed out last. -/
theorem locked_nonce_issued {tr : List Served} (h : Run versions tr s) : ∀ f, Locked s.ctx f = true → issued f tr = some (s.ctx f).nonce := by
  induction h with
  | init s h => intro f hf; rw [h f] at hf; cases hf
  | @served tr s s' e m a h wf hn u hp ih =>
    intro f hf
    have hs : m.secured = true := by
      cases hs : m.secured with
      | true => rfl
      | false => unfold process at hp; rw [if_pos hs] at hp; cases hp
    obtain ⟨b, rest, h1, h2, -, -⟩ := process_good (versions := versions) (e := e) (m := m) (s := s) wf u hs
    rw [h1] at hp
    cases hp
    have hans : List.take (bytesOf m.q (namedIn m.q) (replyTo versions e s.ctx m.room m.q)).length b =
        bytesOf m.q (namedIn m.q) (replyTo versions e s.ctx m.room m.q) := by rw [h2]; exact List.take_left' rfl
    unfold issued
    simp only [hans]
    rcases after_locked hn hf with ⟨b', n, hr, ht, hnn⟩ | ⟨hno, hl, hnn⟩
    · obtain ⟨rfl, hl, -, -⟩ := replyTo_three wf hr
      rw [hnn, hr, if_pos ⟨rfl, ht⟩]
      have hfid : (namedIn m.q).length = 4 := by
        have := u.h16; have := u.hb
        unfold namedIn
        split
        · rfl
        · exact window_len (by simp only [Msg.q, List.length_take]; omega)
      congr 1
      simp only [bytesOf]
      unfold window
      rw [List.drop_left' (by simp [hfid]), List.take_of_length_le (by omega)]
    · rw [hnn, if_neg]
      · exact ih f hl
      · rintro ⟨ht3, htf⟩
        obtain ⟨b', n, hr⟩ := typeOf_bytesOf ht3
        obtain ⟨-, -, g, -, hc⟩ := replyTo_three wf hr
        exact hno.elim (fun x => x ⟨b', n, hr, hc⟩) (fun x => x htf)
  | @refused tr s s' e m o h ho hp ih =>
    unfold process at hp
    split at hp
    · cases hp; exact ih
    split at hp
    · cases hp; exact ih
    · exfalso
      have key : ∀ x : Option (Ans × St), answered x = some (o, s') → False := by
        intro x hx
        cases x with
        | none => cases hx
        | some y => cases hx; exact ho _ rfl
      cases hg : get m.buf 1 1 with
      | none => rw [hg] at hp; cases hp
      | some t =>
        rw [hg] at hp
        simp only [Option.bind_eq_bind, Option.bind_some] at hp
        split at hp <;> exact key _ hp
  | cleared keep h ih =>
    intro f hf
    unfold Locked at hf
    simp only [] at hf ⊢
    by_cases hk : keep f = true
    · rw [if_pos hk] at hf ⊢; exact ih f hf
    · rw [if_neg hk] at hf; simp [Ctx.clear] at hf

/-- An interface is only started with the nonce of the last lock answer for this interface. -/
theorem start_needs_issued_nonce {tr : List Served} {e : Env} {m : Msg} {o : Out} {s s' : St} {f : Nat} (h : Run versions tr s) (wf : e.WF)
    (u : Usable m) (hp : process versions e m s = some (o, s')) (hf : s'.calls = s.calls ++ [.start f]) :
    m.secured = true ∧ target e m.q = some f ∧ issued f tr = some (window m.q 16 32) := by
  have hs : m.secured = true := by
    cases hs : m.secured with
    | true => rfl
    | false => unfold process at hp; rw [if_pos hs] at hp; cases hp; simp at hf
  obtain ⟨b, rest, h1, -, -, -⟩ := process_good (versions := versions) (e := e) (m := m) (s := s) wf u hs
  rw [h1] at hp
  cases hp
  rw [after_calls, List.append_cancel_left_eq] at hf
  refine ⟨hs, ?_⟩
  unfold callsOf at hf
  split at hf
  · cases hf
  split at hf
  · cases hf
  · rename_i g hg
    split at hf
    · cases hf
    split at hf
    · rename_i hst
      cases hf
      refine ⟨hg, ?_⟩
      have hx := hst.2
      simp only [asksStart, Bool.and_eq_true, decide_eq_true_eq] at hx
      rw [locked_nonce_issued h f hx.1.2, hx.2]
    split at hf <;> cases hf

/-- An interface that has a nonce is not locked again. -/
theorem lock_once {e : Env} {m : Msg} {o : Out} {s s' : St} {f : Nat} {p : Bytes} (wf : e.WF)
    (u : Usable m) (hp : process versions e m s = some (o, s')) (hf : s'.calls = s.calls ++ [.lock f p]) :
    m.secured = true ∧ target e m.q = some f ∧ Locked s.ctx f = false := by
  have hs : m.secured = true := by
    cases hs : m.secured with
    | true => rfl
    | false => unfold process at hp; rw [if_pos hs] at hp; cases hp; simp at hf
  obtain ⟨b, rest, h1, -, -, -⟩ := process_good (versions := versions) (e := e) (m := m) (s := s) wf u hs
  rw [h1] at hp
  cases hp
  rw [after_calls, List.append_cancel_left_eq] at hf
  refine ⟨hs, ?_⟩
  unfold callsOf at hf
  split at hf
  · cases hf
  split at hf
  · cases hf
  · rename_i g hg
    split at hf
    · rename_i hst
      cases hf
      have hx := hst.2.2
      simp only [asksLock, Bool.and_eq_true, Bool.not_eq_true'] at hx
      exact ⟨hg, hx.1.2⟩
    split at hf
    · cases hf
    split at hf <;> cases hf

/-- The state after a request. -/
def stateAfter (e : Env) (m : Msg) (s : St) : St := ((process [0x10] e m s).map Prod.snd).getD s

/-- Type of the answer. -/
def answerType (e : Env) (m : Msg) (s : St) : Option Nat :=
  match process [0x10] e m s with
  | some (.answer a, _) => some (typeOf (a.buf.take a.len))
  | _ => none

set_option maxRecDepth 100000 in
/-- The nonce is not used up: although the code says that the stored nonce is cleared after the check, the same request starts the interface twice. -/
theorem nonce_reusable :
    let s1 := stateAfter env1 (msg 0x83 (List.replicate 20 1)) st0
    let q := msg 0x86 (List.replicate 32 0x5a)
    let s2 := stateAfter env1 q s1
    answerType env1 q s1 = some 0x06 ∧ answerType env1 q s2 = some 0x06 ∧ (stateAfter env1 q s2).calls = [.lock 3 (List.replicate 20 1), .start 3, .start 3] := by
  decide_cbv

set_option maxRecDepth 100000 in
/-- Stopping an interface does not clear its context either: unless the driver does, it cannot be locked again, and the old nonce still starts
it. -/
theorem stop_keeps_nonce :
    let s1 := stateAfter env1 (msg 0x83 (List.replicate 20 1)) st0
    let s2 := stateAfter env1 (msg 0x87 []) s1
    answerType env1 (msg 0x87 []) s1 = some 0x07 ∧ answerType env1 (msg 0x83 (List.replicate 20 1)) s2 = some 0x7f ∧
      answerType env1 (msg 0x86 (List.replicate 32 0x5a)) s2 = some 0x06 := by
  decide_cbv

set_option maxRecDepth 100000 in
/-- If the nonce cannot be stored, the answer is an error although the hardware has locked the interface. -/
theorem lock_error_but_locked :
    let e : Env := { env1 with setOk := fun _ => false }
    answerType e (msg 0x83 (List.replicate 20 1)) st0 = some 0x7f ∧
      (stateAfter e (msg 0x83 (List.replicate 20 1)) st0).calls = [.lock 3 (List.replicate 20 1)] := by
  decide_cbv

theorem env1_noNonce : env1.SetsNoNonce := fun _ _ h => ⟨h, rfl⟩

set_option maxRecDepth 100000 in
/-- A run: lock, then start with the nonce of the answer. -/
example : ∃ tr s s' o, Run [0x10] tr s ∧ process [0x10] env1 (msg 0x86 (List.replicate 32 0x5a)) s = some (o, s') ∧ s'.calls = s.calls ++ [.start 3] := by
  have u : Usable (msg 0x83 (List.replicate 20 1)) := by refine ⟨?_, ?_, ?_, ?_⟩ <;> decide
  have u' : Usable (msg 0x86 (List.replicate 32 0x5a)) := by refine ⟨?_, ?_, ?_, ?_⟩ <;> decide
  obtain ⟨a, s1, h1, -⟩ := tdisp_answer [0x10] env1 (msg 0x83 (List.replicate 20 1)) st0 env1_wf u rfl
  obtain ⟨a2, s2, h2, -⟩ := tdisp_answer [0x10] env1 (msg 0x86 (List.replicate 32 0x5a)) s1 env1_wf u' rfl
  refine ⟨_, s1, s2, _, Run.served env1 _ a (Run.init st0 (fun _ => by simp [Locked, st0])) env1_wf env1_noNonce u h1, h2, ?_⟩
  have e1 : s1 = stateAfter env1 (msg 0x83 (List.replicate 20 1)) st0 := by unfold stateAfter; rw [h1]; rfl
  have e2 : s2 = stateAfter env1 (msg 0x86 (List.replicate 32 0x5a)) s1 := by unfold stateAfter; rw [h2]; rfl
  rw [e2, e1]
  decide_cbv

/-! ### Contexts -/

theorem testBit_or_self (m b : Nat) : (m ||| 2 ^ b).testBit b = true := by
  rw [Nat.testBit_or, Nat.testBit_two_pow_self, Bool.or_true]

theorem testBit_or_other (m a b : Nat) (h : a ≠ b) : (m ||| 2 ^ a).testBit b = m.testBit b := by
  rw [Nat.testBit_or, Nat.testBit_two_pow_of_ne h, Bool.or_false]

/-- One change: the stored field is marked and has the value, the others stay. -/
theorem set_run_field {c : Ctx} {x : Set} {b : Nat} (hb : b < 9) (hr : c.reserved.length = 4) (hx : x ≠ .clear) :
    (x.run c).reserved.length = 4 ∧
    match x.stores with
    | some (b', v) => if b' = b then (x.run c).mask.testBit b = true ∧ (x.run c).field b = v
        else (x.run c).mask.testBit b = c.mask.testBit b ∧ (x.run c).field b = c.field b
    | none => (x.run c).mask.testBit b = c.mask.testBit b ∧ (x.run c).field b = c.field b := by
  have one : ∀ (c' : Ctx) (b' : Nat) (v : List Nat), c'.reserved.length = 4 → c'.mask = c.mask ||| 2 ^ b' → c'.field b' = v →
      (∀ d, d ≠ b' → c'.field d = c.field d) → c'.reserved.length = 4 ∧
      (if b' = b then c'.mask.testBit b = true ∧ c'.field b = v else c'.mask.testBit b = c.mask.testBit b ∧ c'.field b = c.field b) := by
    intro c' b' v hl hm hv ho
    refine ⟨hl, ?_⟩
    split
    · rename_i hbb; subst hbb; rw [hm]; exact ⟨testBit_or_self _ _, hv⟩
    · rename_i hbb; rw [hm]; exact ⟨testBit_or_other _ _ _ hbb, ho b (fun h => hbb h.symm)⟩
  cases x with
  | clear => exact absurd rfl hx
  | nonce n =>
    by_cases hn : n.length = 32
    · have e1 : (Set.nonce n).run c = { c with nonce := n, mask := c.mask ||| 0x0001 } := by
        simp only [Set.run, Ctx.setNonce, hn, ne_eq, not_true_eq_false, if_false, Option.getD_some]
      have e2 : (Set.nonce n).stores = some (0, n.map UInt8.toNat) := if_pos hn
      rw [e1, e2]
      refine one _ 0 _ hr rfl rfl ?_
      intro d hd
      simp only [Ctx.field, if_neg hd]
    · have e1 : (Set.nonce n).run c = c := by
        simp only [Set.run, Ctx.setNonce, hn, ne_eq, not_false_eq_true, if_true, Option.getD_none]
      have e2 : (Set.nonce n).stores = none := if_neg hn
      rw [e1, e2]
      exact ⟨hr, rfl, rfl⟩
  | lockFlags v =>
    refine one _ 1 _ hr rfl rfl ?_
    intro d hd
    simp only [Set.run, Ctx.setLockFlags, Ctx.field, if_neg hd]
  | stream v =>
    refine one _ 2 _ hr rfl rfl ?_
    intro d hd
    simp only [Set.run, Ctx.setStream, Ctx.field, if_neg hd]
  | mmio v =>
    refine one _ 3 _ hr rfl rfl ?_
    intro d hd
    simp only [Set.run, Ctx.setMmio, Ctx.field, if_neg hd]
  | p2p v =>
    refine one _ 4 _ hr rfl rfl ?_
    intro d hd
    simp only [Set.run, Ctx.setP2p, Ctx.field, if_neg hd]
  | reserved i v =>
    by_cases hi : i < 4
    · have hi' : ¬ 4 ≤ i := by omega
      have e1 : (Set.reserved i v).run c = { c with reserved := c.reserved.set i v, mask := c.mask ||| (0x0020 <<< i) } := by
        simp only [Set.run, Ctx.setReserved, hr, ge_iff_le, hi', if_false, Option.getD_some]
      have e2 : (Set.reserved i v).stores = some (5 + i, [v]) := if_pos hi
      rw [e1, e2]
      refine one _ (5 + i) _ (by rw [List.length_set]; exact hr) ?_ ?_ ?_
      · show c.mask ||| (32 <<< i) = c.mask ||| 2 ^ (5 + i)
        rw [Nat.shiftLeft_eq, Nat.pow_add]
      · simp only [Ctx.field]
        rw [if_neg (by omega), if_neg (by omega), if_neg (by omega), if_neg (by omega), if_neg (by omega), Nat.add_sub_cancel_left,
          List.getD_eq_getElem?_getD, List.getElem?_set_self (by omega)]
        rfl
      · intro d hd
        by_cases h5 : d < 5
        · simp only [Ctx.field]
          by_cases h0 : d = 0
          · simp [h0]
          by_cases h1 : d = 1
          · simp [h1]
          by_cases h2 : d = 2
          · simp [h2]
          by_cases h3 : d = 3
          · simp [h3]
          by_cases h4 : d = 4
          · simp [h4]
          omega
        · simp only [Ctx.field]
          rw [if_neg (by omega), if_neg (by omega), if_neg (by omega), if_neg (by omega), if_neg (by omega),
            if_neg (by omega), if_neg (by omega), if_neg (by omega), if_neg (by omega), if_neg (by omega),
            List.getD_eq_getElem?_getD, List.getElem?_set_ne (by omega), List.getD_eq_getElem?_getD]
    · have hi' : 4 ≤ i := by omega
      have e1 : (Set.reserved i v).run c = c := by
        simp only [Set.run, Ctx.setReserved, hr, ge_iff_le, hi', if_true, Option.getD_none]
      have e2 : (Set.reserved i v).stores = none := if_neg hi
      rw [e1, e2]
      exact ⟨hr, rfl, rfl⟩

/-- Contexts remember: after any sequence of changes of a cleared context, a field is marked as valid exactly if a value was stored in it since the
last clear, and then has the value stored last. -/
theorem context_fields (c : Ctx) (xs : List Set) (b : Nat) (hb : b < 9) :
    (((xs.foldr (fun x c => x.run c) c.clear)).mask.testBit b = (lastStored b xs).isSome) ∧
    ∀ v, lastStored b xs = some v → (xs.foldr (fun x c => x.run c) c.clear).field b = v := by
  have key : (xs.foldr (fun x c => x.run c) c.clear).reserved.length = 4 ∧
      (((xs.foldr (fun x c => x.run c) c.clear)).mask.testBit b = (lastStored b xs).isSome) ∧
      ∀ v, lastStored b xs = some v → (xs.foldr (fun x c => x.run c) c.clear).field b = v := by
    induction xs with
    | nil => exact ⟨rfl, by simp [Ctx.clear, lastStored], fun v h => nomatch h⟩
    | cons x xs ih =>
      rw [List.foldr_cons]
      generalize xs.foldr (fun x c => x.run c) c.clear = d at ih ⊢
      by_cases hx : x = .clear
      · subst hx
        exact ⟨rfl, by simp [Set.run, Ctx.clear, lastStored], fun v h => nomatch h⟩
      · obtain ⟨h1, h2⟩ := set_run_field hb ih.1 hx
        have e : lastStored b (x :: xs) = match x.stores with
            | some (b', v) => if b' = b then some v else lastStored b xs
            | none => lastStored b xs := by
          cases x with
          | clear => exact absurd rfl hx
          | _ => rfl
        refine ⟨h1, ?_⟩
        rw [e]
        cases hs : x.stores with
        | none =>
          rw [hs] at h2
          simp only [] at h2 ⊢
          rw [h2.1, h2.2]
          exact ih.2
        | some p =>
          obtain ⟨b', v⟩ := p
          rw [hs] at h2
          simp only [] at h2 ⊢
          by_cases hbb : b' = b
          · rw [if_pos hbb] at h2 ⊢
            exact ⟨h2.1, fun w hw => by cases hw; exact h2.2⟩
          · rw [if_neg hbb] at h2 ⊢
            rw [h2.1, h2.2]
            exact ih.2
  exact key.2

example : ([Set.reserved 2 7, .nonce [1], .reserved 9 1].foldr (fun x c => x.run c) (st0.ctx 0).clear).mask = 0x80 := by decide

/-! ### Firmware updates -/

theorem updateLoop_iff (state : Nat → Option UInt8) (ctxOk : Nat → Bool) (ctx : Nat → Ctx) (n f : Nat) :
    updateLoop state ctxOk ctx f n = true ↔ ∃ g, f ≤ g ∧ g < f + n ∧ ctxOk g = true ∧ Forbids state ctx g := by
  induction n generalizing f with
  | zero =>
    unfold updateLoop
    constructor
    · intro h; cases h
    · rintro ⟨g, h1, h2, -⟩; omega
  | succ n ih =>
    have hbit : ∀ v : Nat, v &&& 0x01 ≠ 0 ↔ v.testBit 0 = true := by
      intro v
      rw [Nat.and_one_is_mod, Nat.testBit_zero, decide_eq_true_eq]
      omega
    have skip : ¬ (ctxOk f = true ∧ Forbids state ctx f) →
        (updateLoop state ctxOk ctx (f + 1) n = true ↔ ∃ g, f ≤ g ∧ g < f + (n + 1) ∧ ctxOk g = true ∧ Forbids state ctx g) := by
      intro hno
      rw [ih]
      constructor
      · rintro ⟨g, h1, h2, h3⟩; exact ⟨g, by omega, by omega, h3⟩
      · rintro ⟨g, h1, h2, h3⟩
        have : g ≠ f := by rintro rfl; exact hno h3
        exact ⟨g, by omega, by omega, h3⟩
    unfold updateLoop
    cases hs : state f with
    | none => exact skip (fun h => by rcases h.2.1 with h | h <;> rw [hs] at h <;> cases h)
    | some st =>
      simp only []
      split
      · rename_i hst
        refine skip (fun h => ?_)
        rcases h.2.1 with h | h <;> rw [hs] at h <;> cases h
        · exact hst.2 rfl
        · exact hst.1 rfl
      · rename_i hst
        split
        · rename_i hc; exact skip (fun h => by rw [hc] at h; cases h.1)
        · rename_i hc
          split
          · rename_i hfl
            refine ⟨fun _ => ⟨f, by omega, by omega, by simpa using hc, ?_, (hbit _).mp hfl⟩, fun _ => rfl⟩
            rw [hs]
            by_cases h1 : st = 1
            · left; rw [h1]
            · by_cases h2 : st = 2
              · right; rw [h2]
              · exact absurd ⟨h2, h1⟩ hst
          · rename_i hfl
            exact skip (fun h => hfl ((hbit _).mpr h.2.2))

/-- A firmware update is forbidden exactly if an observer asked before has done so or some interface whose context can be read forbids it; an earlier
verdict is never changed. -/
theorem update_verdict (state : Nat → Option UInt8) (ctxOk : Nat → Bool) (ctx : Nat → Ctx) (count allowed : Nat) :
    prepareUpdate state ctxOk ctx count allowed ≠ 0 ↔ allowed ≠ 0 ∨ ∃ f, f < count ∧ ctxOk f = true ∧ Forbids state ctx f := by
  unfold prepareUpdate
  have h := updateLoop_iff state ctxOk ctx count 0
  simp only [Nat.zero_le, true_and, Nat.zero_add] at h
  split
  · rename_i h1; exact ⟨fun _ => .inl h1, fun _ => h1⟩
  · rename_i h1
    split
    · rename_i h2; exact ⟨fun _ => .inr (h.mp h2), fun _ => by decide⟩
    · rename_i h2
      constructor
      · intro x; exact absurd x h1
      · rintro (x | x)
        · exact absurd x h1
        · exact absurd (h.mpr x) h2

theorem update_verdict_kept (state : Nat → Option UInt8) (ctxOk : Nat → Bool) (ctx : Nat → Ctx) (count allowed : Nat) (h : allowed ≠ 0) :
    prepareUpdate state ctxOk ctx count allowed = allowed := if_pos h

/-- Failures open the gate: an interface that forbids updates does not, while its state or its context cannot be read. -/
theorem update_fails_open : ∃ (state : Nat → Option UInt8) (ctxOk : Nat → Bool) (ctx : Nat → Ctx) (count : Nat),
    (∃ f, f < count ∧ Forbids state ctx f) ∧ prepareUpdate state ctxOk ctx count 0 = 0 :=
  ⟨fun _ => some 2, fun _ => false, fun _ => (st0.ctx 0).setLockFlags 1, 1, ⟨0, by decide, .inr rfl, by decide⟩, by decide⟩

example : prepareUpdate (fun f => if f = 2 then some 1 else none) (fun _ => true) (fun _ => (st0.ctx 0).setLockFlags 1) 3 0 = UPDATE_NOT_ALLOWED := by decide

end Verif.Pcisig
