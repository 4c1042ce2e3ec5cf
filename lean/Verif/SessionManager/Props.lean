import Verif.SessionManager.Lemmas
/-! Properties C49, C50, C58 and C59: encrypted sessions. -/
namespace Verif.SessionManager

/-! ### A concrete history used in the examples -/

/-- A toy set of functions: derived keys carry the secret, encryption adds one to each byte. -/
def toy : Crypto where
  kdf k l _ := k.take 8 ++ l.take 8
  hmac k d := (k ++ d ++ List.replicate 32 0).take 32
  enc _ _ p := (p.map (· + 1), List.replicate 16 7)
  dec _ _ d _ := some (d.map (· - 1))

/-- Endpoints 9 and 10 can be paired. -/
def toyCfg : Cfg := ⟨toy, [9, 10], true⟩
/-- A nonce. -/
def nonce (b : UInt8) : Bytes := List.replicate 32 b
/-- A well-formed request to establish a session. -/
def toyEst (e : UInt8) (secret : Bytes) : EstReq := ⟨e, 100, 1000, 0, true, secret, true, true, true⟩
/-- A message. -/
def toyMsg (e : UInt8) (data : Bytes) : Msg := ⟨e, data, 1000, true, true⟩

/-- The calls and the state after a list of operations. -/
def run (c : Cfg) : St → List Op → List Call × St
  | s, [] => ([], s)
  | s, op :: ops => let r := run c (step c s op).st ops; ((step c s op).calls ++ r.1, r.2)

theorem reach_run {c : Cfg} {n : Nat} {keys : Nat → Option Bytes} (ops : List Op) : ∀ {calls : List Call} {s : St}, Reach c n keys calls s →
    Reach c n keys (calls ++ (run c s ops).1) (run c s ops).2 := by
  induction ops with
  | nil => intro calls s h; simpa [run] using h
  | cons op ops ih =>
    intro calls s h
    have := ih (.next op h)
    simpa [run, List.append_assoc] using this

/-- Two endpoints establish sessions, one of them twice, and messages are encrypted in between. -/
def demoOps : List Op :=
  [.add 9 (nonce 1) (nonce 2), .establish (toyEst 9 [1]), .encrypt (toyMsg 9 [1, 2, 3, 4, 5, 6]), .encrypt (toyMsg 9 [1, 2, 3, 4, 5, 7]),
   .add 10 (nonce 3) (nonce 4), .establish (toyEst 10 [2]), .encrypt (toyMsg 10 [1, 2, 3, 4, 5, 6]),
   .add 9 (nonce 5) (nonce 6), .encrypt (toyMsg 9 [1, 2, 3, 4, 5, 7]), .establish (toyEst 9 [3]), .encrypt (toyMsg 9 [1, 2, 3, 4, 5, 6])]

/-- The state and calls at the end of it. -/
def demo : List Call × St := run toyCfg (init 2 fun _ => none) demoOps

theorem demo_reach : Reach toyCfg 2 (fun _ => none) demo.1 demo.2 := by
  have := reach_run demoOps (.start (c := toyCfg) (n := 2) (keys := fun _ => none))
  simpa [demo] using this

/-! ### C49 -/

/-- C49: if the session keys that were derived are different, no pair of key and initialization vector is given to the encryption engine twice, and
the engine is only given keys that were derived. -/
theorem iv_never_repeats {c : Cfg} {n : Nat} {keys : Nat → Option Bytes} {calls : List Call} {s : St} (h : Reach c n keys calls s)
    (hfresh : (derivedKeys calls).Nodup) : (used calls).Nodup ∧ ∀ u ∈ used calls, u.1 ∈ derivedKeys calls :=
  ⟨(inv_reach h hfresh).once, fun u hu => ((inv_reach h hfresh).known u hu).1⟩

example : Reach toyCfg 2 (fun _ => none) demo.1 demo.2 ∧ (derivedKeys demo.1).Nodup ∧ (derivedKeys demo.1).length = 3 ∧
    (used demo.1).length = 4 ∧ ((used demo.1).map Prod.snd).Nodup = False := by
  refine ⟨demo_reach, by decide +kernel, by decide +kernel, by decide +kernel, ?_⟩
  exact eq_false (by decide +kernel)

/-- C49: the initialization vectors this device uses are in the upper half of the numbers of 12 bytes, so that they are different from those of the
other side as long as that side stays in the lower half, where it starts. -/
theorem own_half {c : Cfg} {n : Nat} {keys : Nat → Option Bytes} {calls : List Call} {s : St} (h : Reach c n keys calls s) :
    ∀ u ∈ used calls, u.2.length = 12 ∧ 2 ^ 95 < beNat u.2 :=
  fun u hu => ⟨((ivs_reach h).2 u hu).2, ((ivs_reach h).2 u hu).1⟩

example : (used demo.1).map (fun u => beNat u.2 - 2 ^ 95) = [1, 2, 1, 1] := by decide +kernel

/-- C49: when the counter of a session is at its last value, a message to encrypt is refused without running the engine, and the sessions of
all endpoints stay the same. -/
theorem exhausted_refused {c : Cfg} {n : Nat} {keys : Nat → Option Bytes} {calls : List Call} {s : St} (h : Reach c n keys calls s)
    (m : Msg) (hlen : 5 ≤ m.data.length) (hroom : m.data.length + 28 ≤ m.maxResp) (hk : m.keyOk = true) {i : Nat} {x : Entry}
    (hx : getSession s m.eid = some (i, x)) (hlive : x.state.live = true) (hlast : beNat x.iv + 1 = 256 ^ 12) :
    (encrypt c s m).ans = .err .ivExhausted ∧ (encrypt c s m).calls = [] ∧ (encrypt c s m).st.table = s.table := by
  obtain ⟨L, R, e1, rfl, e3, e4⟩ := getSession_some hx
  have hiv := (ivs_reach h).1 x (by simp [e1]) e4
  have hsk : setKey s m.eid m.keyOk = .ok (L.length, x) := by simp [setKey, hx, hlive, hk]
  have hne : x.iv ≠ [] := by intro h0; rw [h0] at hiv; exact absurd hiv.1 (by decide)
  have hinc := (CommonMath.increment_at_max x.iv hne (by rw [hiv.1]; exact hlast)).2
  unfold encrypt
  rw [if_neg (by simp [hdrLen]; omega), if_neg (by simp [trailerLen]; omega), hsk]
  simp only [encryptWith, hinc, put_table e1]
  exact ⟨trivial, trivial, e1.symm⟩

/-- After enough messages every counter value up to the last is reached. -/
theorem counter_reachable (k : Nat) : 2 ^ 95 + k < 256 ^ 12 → ∃ calls s x, Reach toyCfg 1 (fun _ => none) calls s ∧ s.table = [x] ∧ x.eid = 9 ∧
    x.state = .established ∧ x.iv.length = 12 ∧ beNat x.iv = 2 ^ 95 + k := by
  induction k with
  | zero =>
    intro _
    refine ⟨_, _, _, reach_run [.add 9 (nonce 1) (nonce 2), .establish (toyEst 9 [1])] .start, rfl, ?_, ?_, ?_, ?_⟩ <;> decide +kernel
  | succ k ih =>
    intro hk
    obtain ⟨calls, s, x, h1, h2, h3, h4, h5, h6⟩ := ih (by omega)
    have hne : x.iv ≠ [] := by intro h0; rw [h0] at h5; exact absurd h5 (by decide)
    obtain ⟨iv, i1, i2, i3⟩ := CommonMath.increment_adds_one x.iv false hne (by rw [h5]; omega)
    have hg : getSession s 9 = some (0, x) := by simp [getSession, h2, scan, h3, h4]
    have hstep : (step toyCfg s (.encrypt (toyMsg 9 [1, 2, 3, 4, 5, 6]))).st.table = [{ x with iv := iv }] := by
      simp [step, encrypt, toyMsg, hdrLen, trailerLen, setKey, hg, h4, SState.live, encryptWith, i1, St.put, h2]
    exact ⟨_, _, _, .next _ h1, hstep, h3, h4, by rw [i2, h5], by rw [i3, h6]; rfl⟩

example : ∃ calls s x, Reach toyCfg 1 (fun _ => none) calls s ∧ getSession s 9 = some (0, x) ∧ x.state.live = true ∧ beNat x.iv + 1 = 256 ^ 12 := by
  obtain ⟨calls, s, x, h1, h2, h3, h4, h5, h6⟩ := counter_reachable (2 ^ 95 - 1) (by decide)
  exact ⟨calls, s, x, h1, by simp [getSession, h2, scan, h3, h4], by rw [h4]; rfl, by rw [h6]⟩

/-! ### C50 -/

/-- C50: the table never holds two sessions for one endpoint. -/
theorem one_session {c : Cfg} {n : Nat} {keys : Nat → Option Bytes} {calls : List Call} {s : St} (h : Reach c n keys calls s) (e : UInt8) :
    (sessions s e).length ≤ 1 := by
  induction h with
  | start =>
    have : sessions (init n keys) e = [] := by
      unfold sessions init
      rw [List.filter_eq_nil_iff]
      intro x hx
      rw [List.eq_of_mem_replicate hx]
      simp [Entry.zero]
    rw [this]; decide
  | next op _ ih =>
    rename_i s _
    rw [sessions_eq] at ih ⊢
    by_cases he : e = op.eid
    · subst he; exact delta_one (delta_step c s op) ih
    · rw [delta_other (delta_step c s op) he]; exact ih

example : (sessions demo.2 9).length = 1 ∧ (sessions demo.2 10).length = 1 ∧ sessions demo.2 11 = [] := by decide +kernel

theorem pairedIndex_spec (l : List UInt8) : ∀ (e : UInt8) (i k : Nat), pairedIndex l e i = some k → i ≤ k ∧ l[k - i]? = some e := by
  induction l with
  | nil => intro e i k h; cases h
  | cons a l ih =>
    intro e i k h
    simp only [pairedIndex] at h
    split at h
    · cases h; rename_i ha; subst ha; exact ⟨Nat.le_refl _, by simp⟩
    · obtain ⟨h1, h2⟩ := ih e (i + 1) k h
      refine ⟨by omega, ?_⟩
      rw [show k - i = (k - (i + 1)) + 1 from by omega]
      simpa using h2

theorem keys_step (c : Cfg) (s : St) (op : Op) (k : Nat) (hk : (step c s op).st.keys k ≠ s.keys k) :
    ∃ q b, op = .pair q ∧ s.keys k = none ∧ (step c s op).st.keys k = some b ∧ pairedIndex c.pairingEids q.eid 0 = some k ∧
      ∃ x ∈ sessions s q.eid, x.state.live = true ∧ b = c.crypto.kdf x.key pairingLabel [] := by
  cases op with
  | add e d n =>
    simp only [step] at hk; unfold addSession at hk
    split at hk
    · exact absurd rfl hk
    · split at hk <;> exact absurd rfl hk
  | establish q =>
    simp only [step] at hk; unfold establish at hk
    split at hk; · exact absurd rfl hk
    split at hk; · exact absurd rfl hk
    split at hk; · exact absurd rfl hk
    split at hk; · exact absurd rfl hk
    split at hk; · exact absurd rfl hk
    split at hk; · exact absurd rfl hk
    unfold establishKeys at hk
    split at hk; · exact absurd rfl hk
    dsimp only at hk
    split at hk; · exact absurd rfl hk
    split at hk <;> exact absurd rfl hk
  | isEstablished e => simp only [step] at hk; unfold isEstablished at hk; split at hk <;> exact absurd rfl hk
  | pairingState e f =>
    simp only [step] at hk; unfold pairingState at hk
    split at hk; · exact absurd rfl hk
    split at hk; · exact absurd rfl hk
    split at hk; · exact absurd rfl hk
    split at hk; · exact absurd rfl hk
    split at hk <;> exact absurd rfl hk
  | decrypt m =>
    simp only [step] at hk; unfold decrypt at hk
    split at hk; · exact absurd rfl hk
    split at hk; · exact absurd rfl hk
    split at hk; · exact absurd rfl hk
    split at hk <;> exact absurd rfl hk
  | encrypt m =>
    simp only [step] at hk; unfold encrypt at hk
    split at hk; · exact absurd rfl hk
    split at hk; · exact absurd rfl hk
    split at hk; · exact absurd rfl hk
    unfold encryptWith at hk
    split at hk <;> exact absurd rfl hk
  | reset e h f =>
    simp only [step] at hk; unfold resetSession at hk
    split at hk; · exact absurd rfl hk
    split at hk; · exact absurd rfl hk
    split at hk
    · split at hk <;> exact absurd rfl hk
    · exact absurd rfl hk
  | sync e r f =>
    simp only [step] at hk; unfold sessionSync at hk
    split at hk; · exact absurd rfl hk
    split at hk; · exact absurd rfl hk
    split at hk <;> exact absurd rfl hk
  | pair q =>
    refine ⟨q, ?_⟩
    simp only [step] at hk ⊢
    unfold pairSession at hk ⊢
    by_cases h1 : c.hasStore = false
    · rw [if_pos h1] at hk; exact absurd rfl hk
    rw [if_neg h1] at hk ⊢
    cases hg : getSession s q.eid with
    | none => simp only [hg] at hk; exact absurd rfl hk
    | some ix =>
      obtain ⟨i, x⟩ := ix
      obtain ⟨L, R, e1, rfl, e3, e4⟩ := getSession_some hg
      simp only [hg] at hk ⊢
      unfold pairWith at hk ⊢
      by_cases h2 : x.state.live = false
      · rw [if_pos h2] at hk; exact absurd rfl hk
      rw [if_neg h2] at hk ⊢
      cases hp : pairedIndex c.pairingEids q.eid 0 with
      | none => simp only [hp] at hk; exact absurd rfl hk
      | some j =>
        simp only [hp] at hk ⊢
        cases hpk : pairingKey c s q j x with
        | error e => simp only [hpk] at hk; exact absurd rfl hk
        | ok r =>
          obtain ⟨pk, isNew⟩ := r
          simp only [hpk] at hk ⊢
          cases hc : compareHmac c x.hmacKey pk q.hmac q.hmacOk with
          | error e => simp only [hc] at hk; exact absurd rfl hk
          | ok u =>
            simp only [hc] at hk ⊢
            unfold pairFinish at hk ⊢
            by_cases h3 : q.kdf2Ok = false
            · rw [if_pos h3] at hk; exact absurd rfl hk
            rw [if_neg h3] at hk ⊢
            dsimp only at hk ⊢
            cases hN : isNew with
            | false => rw [if_neg (by simp [hN])] at hk; exact absurd rfl hk
            | true =>
              rw [if_pos hN] at hk
              rw [if_pos rfl]
              by_cases h4 : q.saveOk = true
              · rw [if_pos h4] at hk ⊢
                by_cases hj : k = j
                · subst hj
                  unfold pairingKey at hpk
                  split at hpk; · cases hpk
                  split at hpk
                  · rename_i hnone
                    split at hpk
                    · cases hpk
                      exact ⟨_, trivial, hnone, by simp [St.put, saveKey], rfl, x, by
                        rw [sessions_eq, e1, filter_mid, mine_true e3 e4]; simp, by simpa using h2, rfl⟩
                    · cases hpk
                  · split at hpk
                    · cases hpk
                    · simp only [Except.ok.injEq, Prod.mk.injEq] at hpk
                      rw [hN] at hpk
                      exact absurd hpk.2 (by decide)
                · exact absurd (by simp [St.put, saveKey, hj]) hk
              · rw [if_neg h4] at hk; exact absurd rfl hk

/-- C50: an operation for one endpoint leaves the session and the pairing key of every other endpoint as they are. -/
theorem others_untouched (c : Cfg) (s : St) (op : Op) (e : UInt8) (h : e ≠ op.eid) :
    sessions (step c s op).st e = sessions s e ∧
    ∀ k, c.pairingEids[k]? = some e → (step c s op).st.keys k = s.keys k := by
  refine ⟨?_, ?_⟩
  · rw [sessions_eq, sessions_eq]; exact delta_other (delta_step c s op) h
  · intro k hk
    apply Classical.byContradiction
    intro hne
    obtain ⟨q, b, rfl, _, _, hp, _⟩ := keys_step c s op k hne
    have := (pairedIndex_spec _ _ _ _ hp).2
    simp only [Nat.sub_zero, hk, Option.some.injEq] at this
    exact h this

example : (10 : UInt8) ≠ (Op.encrypt (toyMsg 9 [1, 2, 3, 4, 5, 6])).eid ∧ toyCfg.pairingEids[1]? = some 10 ∧
    sessions (step toyCfg demo.2 (.encrypt (toyMsg 9 [1, 2, 3, 4, 5, 6]))).st 9 ≠ sessions demo.2 9 := by decide +kernel

theorem getSession_mem {s : St} {e : UInt8} {i : Nat} {x : Entry} (h : getSession s e = some (i, x)) : x ∈ sessions s e := by
  obtain ⟨L, R, e1, rfl, e3, e4⟩ := getSession_some h
  rw [sessions_eq, e1, filter_mid, mine_true e3 e4]; simp

/-- C50: a message of at least the length of a header that comes out of encryption was encrypted with the key of the established session of its
endpoint and the next initialization vector of this session; the header is kept except for the encryption flag, and tag and vector follow the data. -/
theorem encrypt_needs_session (c : Cfg) (s : St) (m : Msg) {out : Bytes} (hlen : 5 ≤ m.data.length) (h : (encrypt c s m).ans = .msg out) :
    ∃ x iv, x ∈ sessions s m.eid ∧ (x.state = .established ∨ x.state = .paired) ∧ CommonMath.increment x.iv false = (.ok, iv) ∧
      (encrypt c s m).calls = [.encrypted x.key iv] ∧
      out = (m.data.take 3 ++ [m.data.getD 3 0 ||| 0x20]) ++ (c.crypto.enc x.key iv (m.data.drop 4)).1 ++
        (c.crypto.enc x.key iv (m.data.drop 4)).2 ++ iv := by
  unfold encrypt at h ⊢
  rw [if_neg (by simp [hdrLen]; omega)] at h ⊢
  split at h; · cases h
  rename_i hroom
  rw [if_neg hroom]
  split at h; · cases h
  rename_i i x hk
  obtain ⟨hg, hl⟩ := setKey_ok hk
  unfold encryptWith at h ⊢
  cases hinc : CommonMath.increment x.iv false with
  | mk st iv =>
    rw [hinc] at h
    cases st with
    | ok =>
      dsimp only at h ⊢
      split at h
      · cases h
        refine ⟨x, iv, getSession_mem hg, ?_, hinc, rfl, ?_⟩
        · cases hs : x.state <;> simp_all [SState.live]
        · rcases hm : m.data with _ | ⟨a, _ | ⟨b, _ | ⟨d, _ | ⟨e, l⟩⟩⟩⟩ <;> rw [hm] at hlen <;> simp at hlen
          simp [encryptOut, setCrypt, hm, hdrLen]
      · cases h
    | _ => dsimp only at h; cases h

example : (encrypt toyCfg demo.2 (toyMsg 9 [0x7e, 0x14, 0x14, 0, 5, 6])).ans =
    .msg ([0x7e, 0x14, 0x14, 0x20, 6, 7] ++ List.replicate 16 7 ++ [0x80, 0, 0, 0, 0, 0, 0, 0, 0, 0, 0, 2]) := by decide +kernel

/-- C50: a message that comes out of decryption was decrypted with the key of the established session of its endpoint. -/
theorem decrypt_needs_session (c : Cfg) (s : St) (m : Msg) {out : Bytes} (h : (decrypt c s m).ans = .msg out) :
    ∃ x plain, x ∈ sessions s m.eid ∧ (x.state = .established ∨ x.state = .paired) ∧ 33 < m.data.length ∧
      c.crypto.dec x.key (m.data.drop (m.data.length - 12)) (window m.data 4 (m.data.length - 32)) (window m.data (m.data.length - 28) 16) = some plain ∧
      out = m.data.take 4 ++ plain := by
  unfold decrypt at h
  split at h; · cases h
  rename_i hlen
  split at h; · cases h
  split at h; · cases h
  rename_i i x hk
  obtain ⟨hg, hl⟩ := setKey_ok hk
  split at h
  · simp only [trailerLen, hdrLen] at hlen
    unfold decryptOut at h
    dsimp only at h
    split at h
    · cases h
    · rename_i plain hd
      cases h
      refine ⟨x, plain, getSession_mem hg, ?_, by omega, ?_, rfl⟩
      · cases hs : x.state <;> simp_all [SState.live]
      · rw [← hd]
        simp only [hdrLen, trailerLen]
        rw [show m.data.length - (5 - 1) - 28 = m.data.length - 32 from by omega,
          show 5 - 1 + (m.data.length - 32) = m.data.length - 28 from by omega,
          show m.data.length - 28 + 16 = m.data.length - 12 from by omega]
        congr 1
        unfold window
        rw [List.take_of_length_le]
        simp; omega
  · cases h

/-! #### How sessions come and go -/

theorem after_put {s : St} {L R : List Entry} {x y : Entry} {e : UInt8} (h : s.table = L ++ x :: R) (h1 : x.eid = e) (h2 : x.state ≠ .unused)
    {z : Entry} (hz : z ∈ sessions (s.put L.length y) e) : z = y ∨ z ∈ sessions s e := by
  rw [sessions_eq, put_table h, filter_mid] at hz
  rw [sessions_eq, h, filter_mid, mine_true h1 h2]
  simp only [List.mem_append] at hz ⊢
  rcases hz with (hz | hz) | hz
  · exact .inr (.inl (.inl hz))
  · split at hz
    · left; simpa using hz
    · cases hz
  · exact .inr (.inr hz)

theorem after_put_free {s : St} {L R : List Entry} {x y : Entry} {e : UInt8} (h : s.table = L ++ x :: R)
    {z : Entry} (hz : z ∈ sessions (s.put L.length y) e) : z = y ∨ z ∈ sessions s e := by
  rw [sessions_eq, put_table h, filter_mid] at hz
  rw [sessions_eq, h, filter_mid]
  simp only [List.mem_append] at hz ⊢
  rcases hz with (hz | hz) | hz
  · exact .inr (.inl (.inl hz))
  · split at hz
    · left; simpa using hz
    · cases hz
  · exact .inr (.inr hz)

theorem compareHmac_ok {c : Cfg} {k d h : Bytes} {b : Bool} (hc : compareHmac c k d h b = .ok ()) : c.crypto.hmac k d = h := by
  unfold compareHmac at hc
  split at hc; · cases hc
  split at hc; · cases hc
  split at hc
  · assumption
  · cases hc

/-- C50: every session found after an operation comes from one of the changes listed in `Origin`. -/
theorem session_origin (c : Cfg) (s : St) (op : Op) {x : Entry} (hx : x ∈ sessions (step c s op).st op.eid) :
    Origin c s op (step c s op).ans x := by
  cases op with
  | add e d n =>
    simp only [step, Op.eid] at hx ⊢
    unfold addSession at hx ⊢
    split at hx
    · rename_i i y hg
      obtain ⟨L, R, e1, rfl, e3, e4⟩ := getSession_some hg
      rcases after_put e1 e3 e4 hx with rfl | hz
      · simp only [hg]; exact .added y rfl
      · exact .kept hz
    · rename_i hg
      split at hx
      · rename_i i y hf
        obtain ⟨L, R, e1, rfl, e3⟩ := getFree_some hf
        rcases after_put_free e1 hx with rfl | hz
        · simp only [hg]; exact .added y rfl
        · exact .kept hz
      · exact .kept hx
  | establish q =>
    simp only [step, Op.eid] at hx ⊢
    unfold establish at hx ⊢
    split at hx; · exact .kept hx
    rename_i h1
    split at hx; · exact .kept hx
    rename_i h2
    rw [if_neg h1, if_neg h2]
    split at hx; · exact .kept hx
    rename_i i y hg
    obtain ⟨L, R, e1, rfl, e3, e4⟩ := getSession_some hg
    split at hx; · exact .kept hx
    rename_i h3
    split at hx; · exact .kept hx
    rename_i h4
    split at hx; · exact .kept hx
    rename_i h5
    rw [if_neg h3, if_neg h4, if_neg h5]
    unfold establishKeys at hx ⊢
    split at hx; · exact .kept hx
    rename_i h6
    rw [if_neg h6]
    dsimp only at hx ⊢
    split at hx
    · rename_i h7
      rw [if_pos h7]
      rcases after_put e1 e3 e4 hx with rfl | hz
      · exact .broken (by simpa using h3) (by simp)
      · exact .kept hz
    rename_i h7
    rw [if_neg h7]
    split at hx
    · rename_i h8
      rw [if_pos h8]
      rcases after_put e1 e3 e4 hx with rfl | hz
      · exact .broken (by simpa using h3) (by simp)
      · exact .kept hz
    · rename_i h8
      rw [if_neg h8]
      rcases after_put e1 e3 e4 hx with rfl | hz
      · exact .exchanged y (getSession_mem hg) (by simpa using h3) rfl
      · exact .kept hz
  | isEstablished e => simp only [step] at hx; unfold isEstablished at hx; split at hx <;> exact .kept hx
  | pairingState e f =>
    simp only [step] at hx; unfold pairingState at hx
    split at hx; · exact .kept hx
    split at hx; · exact .kept hx
    split at hx; · exact .kept hx
    split at hx; · exact .kept hx
    split at hx <;> exact .kept hx
  | decrypt m =>
    simp only [step] at hx; unfold decrypt at hx
    split at hx; · exact .kept hx
    split at hx; · exact .kept hx
    split at hx; · exact .kept hx
    split at hx <;> exact .kept hx
  | encrypt m =>
    simp only [step, Op.eid] at hx; unfold encrypt at hx
    split at hx; · exact .kept hx
    split at hx; · exact .kept hx
    split at hx; · exact .kept hx
    rename_i i y hk
    obtain ⟨hg, hl⟩ := setKey_ok hk
    obtain ⟨L, R, e1, rfl, e3, e4⟩ := getSession_some hg
    unfold encryptWith at hx
    split at hx
    · rcases after_put e1 e3 e4 hx with rfl | hz
      · exact .used y _ (getSession_mem hg) rfl
      · exact .kept hz
    · rcases after_put e1 e3 e4 hx with rfl | hz
      · exact .used y _ (getSession_mem hg) rfl
      · exact .kept hz
  | reset e h f =>
    simp only [step, Op.eid] at hx; unfold resetSession at hx
    have no : ∀ {z : Entry}, z ∈ sessions (step c s (.reset e h f)).st e → z ≠ Entry.zero := by
      intro z hz h0
      rw [h0] at hz
      have := (List.mem_filter.1 hz).2
      simp [Entry.zero] at this
    split at hx; · exact .kept hx
    rename_i i y hg
    obtain ⟨L, R, e1, rfl, e3, e4⟩ := getSession_some hg
    have fin : x ∈ sessions (s.put L.length .zero) e → Origin c s (.reset e h f) (step c s (.reset e h f)).ans x := by
      intro hx
      rcases after_put e1 e3 e4 hx with h0 | hz
      · rw [h0] at hx
        have := (List.mem_filter.1 hx).2
        simp [Entry.zero] at this
      · exact .kept hz
    split at hx
    · exact fin hx
    split at hx
    · split at hx
      · exact .kept hx
      · exact fin hx
    · exact fin hx
  | sync e r f =>
    simp only [step] at hx; unfold sessionSync at hx
    split at hx; · exact .kept hx
    split at hx; · exact .kept hx
    split at hx <;> exact .kept hx
  | pair q =>
    simp only [step, Op.eid] at hx ⊢
    unfold pairSession at hx ⊢
    split at hx; · exact .kept hx
    rename_i h1
    rw [if_neg h1]
    split at hx; · exact .kept hx
    rename_i i y hg
    obtain ⟨L, R, e1, rfl, e3, e4⟩ := getSession_some hg
    unfold pairWith at hx ⊢
    split at hx; · exact .kept hx
    rename_i h2
    rw [if_neg h2]
    split at hx; · exact .kept hx
    rename_i k hk
    split at hx; · exact .kept hx
    rename_i pk isNew hpk
    split at hx; · exact .kept hx
    rename_i hc
    unfold pairFinish at hx ⊢
    split at hx; · exact .kept hx
    rename_i h3
    rw [if_neg h3]
    dsimp only at hx ⊢
    have hl : y.state.live = true := by simpa using h2
    split at hx
    · rename_i h4
      rw [if_pos h4]
      split at hx
      · rename_i h5
        rw [if_pos h5]
        have e1' : (saveKey s k pk).table = L ++ y :: R := e1
        rcases after_put e1' e3 e4 hx with rfl | hz
        · exact .paired y pk (getSession_mem hg) hl (compareHmac_ok hc) rfl
        · exact .kept hz
      · rename_i h5
        rw [if_neg h5]
        rcases after_put e1 e3 e4 hx with rfl | hz
        · exact .unsaved y pk (getSession_mem hg) hl (compareHmac_ok hc) rfl
        · exact .kept hz
    · rename_i h4
      rw [if_neg h4]
      rcases after_put e1 e3 e4 hx with rfl | hz
      · exact .paired y pk (getSession_mem hg) hl (compareHmac_ok hc) rfl
      · exact .kept hz

example : ∃ x ∈ sessions demo.2 9, x.state = .established ∧ x.key = [3] ++ List.replicate 8 5 := by decide +kernel

/-- C50: encryption needs an exchange of keys: a session is established after an operation only if it was before or this operation was a successful
key exchange with the endpoint, for which a new session had been set up. -/
theorem established_origin (c : Cfg) (s : St) (op : Op) (e : UInt8) {x : Entry} (hx : x ∈ sessions (step c s op).st e) (hl : x.state.live = true) :
    (∃ old ∈ sessions s e, old.state.live = true) ∨
    ∃ q old, op = .establish q ∧ q.eid = e ∧ (step c s op).ans = .ok ∧ old ∈ sessions s e ∧ old.state = .setup ∧
      x.key = c.crypto.kdf q.secret old.devNonce old.cerNonce ∧ x.hmacKey = c.crypto.kdf q.secret old.cerNonce old.devNonce ∧ x.iv = old.iv := by
  by_cases he : e = op.eid
  · subst he
    have ho := session_origin c s op hx
    generalize hans : (step c s op).ans = a at ho ⊢
    cases ho with
    | kept h => exact .inl ⟨x, h, hl⟩
    | added old h => rw [h] at hl; cases hl
    | exchanged old h1 h2 h3 => subst h3; exact .inr ⟨_, old, rfl, rfl, rfl, h1, h2, rfl, rfl, rfl⟩
    | broken h _ => rw [h] at hl; cases hl
    | used old iv h1 h2 => subst h2; exact .inl ⟨old, h1, hl⟩
    | paired old pk h1 h2 _ _ => exact .inl ⟨old, h1, h2⟩
    | unsaved old pk h1 h2 _ _ => exact .inl ⟨old, h1, h2⟩
  · rw [(others_untouched c s op e he).1] at hx
    exact .inl ⟨x, hx, hl⟩

/-- C50: a session goes away only by a reset for its endpoint; with an HMAC in the request, an established session only if this is the HMAC of
the session key. -/
theorem gone_only_by_reset (c : Cfg) (s : St) (op : Op) (e : UInt8) (h0 : sessions s e ≠ []) (h1 : sessions (step c s op).st e = []) :
    ∃ h f, op = .reset e h f ∧ (step c s op).ans = .ok ∧
      ∀ m, h = some m → ∃ x ∈ sessions s e, x.state.live = true → c.crypto.hmac x.hmacKey x.key = m := by
  by_cases he : e = op.eid
  · subst he
    have hd := delta_step c s op
    have keep : ∀ {L R : List Entry} {y : Entry}, (step c s op).st.table = L ++ y :: R → y.eid = op.eid → y.state ≠ .unused → False := by
      intro L R y ht hy1 hy2
      rw [sessions_eq, ht, filter_mid, mine_true hy1 hy2] at h1
      simp at h1
    generalize ht : (step c s op).st.table = t' at hd
    generalize (step c s op).calls = calls at hd
    cases hd with
    | same => rw [sessions_eq, ht] at h1; exact absurd h1 h0
    | swap a1 a2 a3 a4 a5 _ => exact (keep ht a4 a5).elim
    | new a1 a2 a3 a4 a5 a6 => exact (keep ht a4 (by rw [a5]; decide)).elim
    | gone hr a1 a2 a3 =>
      obtain ⟨e, h, f, rfl⟩ := hr
      refine ⟨h, f, rfl, ?_⟩
      clear keep ht a1 a2 a3
      simp only [step, Op.eid] at h0 h1 ⊢
      unfold resetSession at h1 ⊢
      cases hg : getSession s e with
      | none => exact absurd (getSession_none hg) h0
      | some ix =>
        obtain ⟨i, x⟩ := ix
        simp only [hg] at h1 ⊢
        cases h with
        | none => exact ⟨rfl, fun m hm => nomatch hm⟩
        | some m =>
          dsimp only at h1 ⊢
          by_cases hl : x.state.live = true
          · rw [if_pos hl] at h1 ⊢
            cases hc : compareHmac c x.hmacKey x.key m f with
            | error er =>
              simp only [hc] at h1
              exact absurd h1 h0
            | ok u =>
              refine ⟨rfl, ?_⟩
              intro m' hm
              cases hm
              exact ⟨x, getSession_mem hg, fun _ => compareHmac_ok hc⟩
          · rw [if_neg hl]
            refine ⟨rfl, ?_⟩
            intro m' _
            exact ⟨x, getSession_mem hg, fun h => absurd h hl⟩
  · rw [(others_untouched c s op e he).1] at h1
    exact absurd h1 h0

example : sessions demo.2 9 ≠ [] ∧ (sessions (step toyCfg demo.2 (.reset 9 (some (List.replicate 32 0)) true)).st 9) ≠ [] ∧
    sessions (step toyCfg demo.2 (.reset 9 (some (toy.hmac ([3] ++ List.replicate 8 6) ([3] ++ List.replicate 8 5))) true)).st 9 = [] := by
  decide +kernel

/-! ### C58: messages between the two sides -/

theorem setKey_live {s : St} {e : UInt8} {i : Nat} {x : Entry} (hg : getSession s e = some (i, x)) (hl : x.state.live = true) :
    setKey s e true = .ok (i, x) := by
  simp [setKey, hg, hl]

theorem encrypt_form (c : Cfg) (s : St) (m : Msg) {i : Nat} {x : Entry} {out : Bytes} (hlen : 5 ≤ m.data.length)
    (hx : getSession s m.eid = some (i, x)) (h : (encrypt c s m).ans = .msg out) :
    ∃ iv, CommonMath.increment x.iv false = (.ok, iv) ∧
      out = (m.data.take 3 ++ [m.data.getD 3 0 ||| 0x20]) ++ (c.crypto.enc x.key iv (m.data.drop 4)).1 ++
        (c.crypto.enc x.key iv (m.data.drop 4)).2 ++ iv := by
  unfold encrypt at h
  rw [if_neg (by simp [hdrLen]; omega)] at h
  split at h; · cases h
  split at h; · cases h
  rename_i i' x' hk
  have hg := (setKey_ok hk).1
  rw [hx] at hg
  cases hg
  unfold encryptWith at h
  cases hinc : CommonMath.increment x.iv false with
  | mk st iv =>
    rw [hinc] at h
    cases st with
    | ok =>
      dsimp only at h
      split at h
      · cases h
        refine ⟨iv, rfl, ?_⟩
        rcases hm : m.data with _ | ⟨a, _ | ⟨b, _ | ⟨d, _ | ⟨e, l⟩⟩⟩⟩ <;> rw [hm] at hlen <;> simp at hlen
        simp [encryptOut, setCrypt, hm, hdrLen]
      · cases h
    | _ => dsimp only at h; cases h

/-- C58 (part): a message with at least one byte after the header that was encrypted by one side is decrypted by the other side to the same message
with the encryption flag set, if both sides have the same session key. Missing: messages that are only a header, see `header_only_refused`. -/
theorem roundtrip_partial {c c' : Cfg} (hs : Sound c.crypto) (hc : c'.crypto = c.crypto) (s s' : St) (m m' : Msg) {i j : Nat} {x x' : Entry} {out : Bytes}
    (hlen : 5 < m.data.length) (hx : getSession s m.eid = some (i, x)) (hx' : getSession s' m'.eid = some (j, x')) (hl' : x'.state.live = true)
    (hkey : x'.key = x.key) (hiv : x.iv.length = 12) (hok : (encrypt c s m).ans = .msg out) (hd : m'.data = out) (hroom : out.length ≤ m'.maxResp)
    (hk : m'.keyOk = true) (ha : m'.aesOk = true) :
    (decrypt c' s' m').ans = .msg (m.data.take 3 ++ [m.data.getD 3 0 ||| 0x20] ++ m.data.drop 4) := by
  obtain ⟨iv, hinc, hout⟩ := encrypt_form c s m (by omega) hx hok
  have hivl : iv.length = 12 := by
    rcases increment_iv hiv hinc with h | h
    · exact h.2.2
    · exact absurd rfl h.1
  obtain ⟨s1, s2, s3⟩ := hs x.key iv (m.data.drop 4)
  generalize hct : (c.crypto.enc x.key iv (m.data.drop 4)).1 = ct at *
  generalize htg : (c.crypto.enc x.key iv (m.data.drop 4)).2 = tg at *
  have hp : (m.data.take 3 ++ [m.data.getD 3 0 ||| 0x20]).length = 4 := by simp; omega
  generalize hpre : m.data.take 3 ++ [m.data.getD 3 0 ||| 0x20] = pre at *
  have hol : out.length = ct.length + 32 := by rw [hout]; simp [hp, s2, hivl]; omega
  have hcl : ct.length = m.data.length - 4 := by rw [s1]; simp
  unfold decrypt
  rw [hd, if_neg (by simp only [trailerLen, hdrLen]; omega), if_neg (by simp only [trailerLen, hdrLen]; omega), hk, setKey_live hx' hl']
  simp only [ha, if_true]
  unfold decryptOut
  dsimp only
  rw [hd, hc, hkey]
  have e1 : out.length - (hdrLen - 1) - trailerLen = ct.length := by simp only [trailerLen, hdrLen]; omega
  have w1 : window out (hdrLen - 1) ct.length = ct := by
    rw [hout, window, show hdrLen - 1 = pre.length from by rw [hp]; rfl]
    simp
  have w2 : window out (hdrLen - 1 + ct.length) 16 = tg := by
    rw [hout, window, show hdrLen - 1 + ct.length = (pre ++ ct).length from by rw [List.length_append, hp]; rfl, ← s2]
    rw [List.append_assoc (pre ++ ct), List.drop_left, List.take_left]
  have w3 : window out (hdrLen - 1 + ct.length + 16) 12 = iv := by
    rw [hout, window, show hdrLen - 1 + ct.length + 16 = (pre ++ ct ++ tg).length from by simp only [List.length_append, hp, s2]; rfl,
      List.drop_left, List.take_of_length_le (by omega)]
  have w4 : out.take (hdrLen - 1) = pre := by
    rw [hout, show hdrLen - 1 = pre.length from by rw [hp]; rfl]
    simp
  rw [e1, w1, w2, w3, w4, s3]

theorem toy_sound : Sound toy := by
  intro k iv p
  refine ⟨by simp [toy], by simp [toy], ?_⟩
  simp only [toy, List.map_map, Option.some.injEq]
  rw [show ((fun x => x - 1) ∘ fun x => x + 1 : UInt8 → UInt8) = id from by funext x; simp]
  simp

example : ∃ x out, getSession demo.2 9 = some x ∧ x.2.state.live = true ∧ x.2.iv.length = 12 ∧
    (encrypt toyCfg demo.2 (toyMsg 9 [0x7e, 0x14, 0x14, 0, 5, 6])).ans = .msg out ∧ out.length = 34 ∧
    (decrypt toyCfg demo.2 (toyMsg 9 out)).ans = .msg [0x7e, 0x14, 0x14, 0x20, 5, 6] := by
  refine ⟨_, _, rfl, ?_, ?_, rfl, ?_, ?_⟩ <;> decide +kernel

/-- C58 (the full statement is false): a message that is only a header is encrypted, and the result is refused by the decryption on the other side as
malformed, whatever the keys are. -/
theorem header_only_refused {c c' : Cfg} (hs : Sound c.crypto) (s s' : St) (m m' : Msg) {i : Nat} {x : Entry} {out : Bytes}
    (hlen : m.data.length = 5) (hx : getSession s m.eid = some (i, x)) (hiv : x.iv.length = 12) (hok : (encrypt c s m).ans = .msg out)
    (hd : m'.data = out) : (decrypt c' s' m').ans = .err .malformed := by
  obtain ⟨iv, hinc, hout⟩ := encrypt_form c s m (by omega) hx hok
  have hivl : iv.length = 12 := by
    rcases increment_iv hiv hinc with h | h
    · exact h.2.2
    · exact absurd rfl h.1
  obtain ⟨s1, s2, s3⟩ := hs x.key iv (m.data.drop 4)
  have hol : out.length = 33 := by rw [hout]; simp [s1, s2, hivl]; omega
  unfold decrypt
  rw [hd, if_pos (by simp only [trailerLen, hdrLen]; omega)]
  rfl

example : ∃ out, (encrypt toyCfg demo.2 (toyMsg 9 [0x7e, 0x14, 0x14, 0, 0x4f])).ans = .msg out ∧ out.length = 33 ∧
    (decrypt toyCfg demo.2 (toyMsg 9 out)).ans = .err .malformed := by
  refine ⟨_, rfl, ?_, ?_⟩ <;> decide +kernel

/-! ### C59: pairing -/

/-- C59: a pairing key in the store is never replaced, and a new one is the one derived from the key of the established session of the endpoint with
this index. -/
theorem pairing_key_kept (c : Cfg) (s : St) (op : Op) (k : Nat) (h : (step c s op).st.keys k ≠ s.keys k) :
    s.keys k = none ∧ ∃ e x, c.pairingEids[k]? = some e ∧ op.eid = e ∧ x ∈ sessions s e ∧ x.state.live = true ∧
      (step c s op).st.keys k = some (c.crypto.kdf x.key pairingLabel []) := by
  obtain ⟨q, b, rfl, h1, h2, h3, x, h4, h5, h6⟩ := keys_step c s op k h
  have := (pairedIndex_spec _ _ _ _ h3).2
  exact ⟨h1, q.eid, x, by simpa using this, rfl, h4, h5, by rw [h2, h6]⟩

/-- A successful request to pair the session of endpoint 9. -/
def toyPair (pk : Bytes) : PairReq := ⟨9, toy.hmac ([3] ++ List.replicate 8 6) pk, false, true, true, true, true⟩

example : (step toyCfg demo.2 (.pair (toyPair ([3] ++ List.replicate 7 5 ++ pairingLabel)))).ans = .ok ∧
    (step toyCfg demo.2 (.pair (toyPair ([3] ++ List.replicate 7 5 ++ pairingLabel)))).st.keys 0 ≠ demo.2.keys 0 ∧
    (step toyCfg demo.2 (.pair (toyPair ([3] ++ List.replicate 7 5 ++ pairingLabel)))).st.keys 0 =
      some ([3] ++ List.replicate 7 5 ++ pairingLabel) := by decide +kernel

theorem pairFinish_ans (c : Cfg) (s : St) (q : PairReq) (k i : Nat) (x : Entry) (pk : Bytes) (b : Bool) :
    (pairFinish c s q k i x pk b).ans ≠ .err .overflow := by
  unfold pairFinish
  split
  · simp [fail]
  · dsimp only
    split
    · split <;> simp
    · simp

theorem compareHmac_err {c : Cfg} {k d h : Bytes} {b : Bool} {e : Err} (hc : compareHmac c k d h b = .error e) : e ≠ .overflow := by
  unfold compareHmac at hc
  split at hc
  · cases hc; decide
  split at hc
  · cases hc; decide
  split at hc
  · cases hc
  · cases hc; decide

/-- The buffer for the pairing key overflows exactly when the store holds a longer key for the endpoint and the operation gets as far as loading it. -/
theorem pair_overflow_iff (c : Cfg) (s : St) (q : PairReq) :
    (pairSession c s q).ans = .err .overflow ↔
      c.hasStore = true ∧ q.loadFails = false ∧ (∃ i x, getSession s q.eid = some (i, x) ∧ x.state.live = true) ∧
      ∃ k b, pairedIndex c.pairingEids q.eid 0 = some k ∧ s.keys k = some b ∧ 32 < b.length := by
  unfold pairSession
  cases hst : c.hasStore with
  | false => simp [fail]
  | true =>
    rw [if_neg (by decide)]
    cases hg : getSession s q.eid with
    | none => simp [fail]
    | some ix =>
      obtain ⟨i, x⟩ := ix
      dsimp only
      unfold pairWith
      cases hl : x.state.live with
      | false =>
        rw [if_pos rfl]
        simp only [fail, Ans.err.injEq, reduceCtorEq, false_iff]
        rintro ⟨_, _, ⟨i', x', h1, h2⟩, _⟩
        cases h1
        rw [hl] at h2; cases h2
      | true =>
        rw [if_neg (by decide)]
        cases hp : pairedIndex c.pairingEids q.eid 0 with
        | none => simp [fail]
        | some k =>
          dsimp only
          unfold pairingKey
          cases hf : q.loadFails with
          | true => simp [fail]
          | false =>
            rw [if_neg (by decide)]
            cases hk : s.keys k with
            | none =>
              dsimp only
              constructor
              · intro h
                exfalso
                revert h
                split
                · rename_i er he
                  split at he
                  · cases he
                  · cases he; simp [fail]
                · split
                  · rename_i hc; simp only [fail, Ans.err.injEq]; exact compareHmac_err hc
                  · exact pairFinish_ans _ _ _ _ _ _ _ _
              · rintro ⟨_, _, _, k', b, h1, h2, _⟩
                cases h1
                rw [hk] at h2; cases h2
            | some b =>
              dsimp only
              by_cases hb : 32 < b.length
              · rw [if_pos hb]
                exact ⟨fun _ => ⟨rfl, rfl, ⟨i, x, rfl, hl⟩, k, b, rfl, hk, hb⟩, fun _ => rfl⟩
              · rw [if_neg hb]
                dsimp only
                constructor
                · intro h
                  exfalso
                  revert h
                  split
                  · rename_i hc; simp only [fail, Ans.err.injEq]; exact compareHmac_err hc
                  · exact pairFinish_ans _ _ _ _ _ _ _ _
                · rintro ⟨_, _, _, k', b', h1, h2, h3⟩
                  cases h1
                  rw [hk] at h2; cases h2
                  exact absurd h3 hb

/-- C59 (part): with derived keys of at most 32 bytes and a key store that held no longer keys at the start, setting up pairing never writes outside
its buffer. Missing: a store with a longer key, see `pairing_overflows`. -/
theorem pairing_in_bounds_partial {c : Cfg} {n : Nat} {keys : Nat → Option Bytes} {calls : List Call} {s : St} (h : Reach c n keys calls s)
    (hkdf : ∀ k l x, (c.crypto.kdf k l x).length ≤ 32) (hkeys : ∀ k b, keys k = some b → b.length ≤ 32) (q : PairReq) :
    (pairSession c s q).ans ≠ .err .overflow := by
  have hall : ∀ k b, s.keys k = some b → b.length ≤ 32 := by
    clear q
    induction h with
    | start => exact hkeys
    | next op _ ih =>
      rename_i s _
      intro k b hb
      by_cases he : (step c s op).st.keys k = s.keys k
      · rw [he] at hb; exact ih k b hb
      · obtain ⟨_, e, x, _, _, _, _, h5⟩ := pairing_key_kept c s op k he
        rw [h5] at hb
        cases hb
        exact hkdf _ _ _
  intro ho
  obtain ⟨_, _, _, k, b, _, h2, h3⟩ := (pair_overflow_iff c s q).1 ho
  have := hall k b h2
  omega

example : (∀ k l x, (toy.kdf k l x).length ≤ 32) ∧ ∀ k b, (fun _ : Nat => (none : Option Bytes)) k = some b → b.length ≤ 32 :=
  ⟨fun k l x => by simp only [toy, List.length_append, List.length_take]; omega, fun _ _ h => nomatch h⟩

/-- C59 (the full statement is false): with a key of 33 bytes in the store for the endpoint, setting up pairing writes outside its buffer. -/
theorem pairing_overflows : ∃ s calls, Reach toyCfg 2 (fun _ => some (List.replicate 33 0)) calls s ∧
    (pairSession toyCfg s (toyPair [])).ans = .err .overflow := by
  refine ⟨_, _, reach_run demoOps .start, ?_⟩
  decide +kernel

/-- C59: with the pairing key in the store, or the one derived for the first time, the endpoint that knows it gets a paired session, and both sides
agree on the new session key, which is derived from the pairing key and the old session key. -/
theorem pairing_honest (c : Cfg) (s : St) (q : PairReq) {i k : Nat} {x : Entry} {pk : Bytes} (hst : c.hasStore = true)
    (hx : getSession s q.eid = some (i, x)) (hl : x.state.live = true) (hk : pairedIndex c.pairingEids q.eid 0 = some k)
    (hpk : s.keys k = some pk ∧ pk.length = 32 ∨ s.keys k = none ∧ pk = c.crypto.kdf x.key pairingLabel [])
    (hq : q.hmac = c.crypto.hmac x.hmacKey pk) (hlen : q.hmac.length = 32)
    (hok : q.loadFails = false ∧ q.kdf1Ok = true ∧ q.hmacOk = true ∧ q.kdf2Ok = true ∧ q.saveOk = true) :
    (pairSession c s q).ans = .ok ∧ (pairSession c s q).st.keys k = some pk ∧
      { x with key := c.crypto.kdf pk x.key [], state := .paired } ∈ sessions (pairSession c s q).st q.eid := by
  obtain ⟨o1, o2, o3, o4, o5⟩ := hok
  obtain ⟨L, R, e1, rfl, e3, e4⟩ := getSession_some hx
  have hcmp : compareHmac c x.hmacKey pk q.hmac q.hmacOk = .ok () := by
    rw [hq] at hlen
    simp [compareHmac, hlen, o3, hq]
  unfold pairSession
  rw [if_neg (by simp [hst]), hx]
  dsimp only
  unfold pairWith
  rw [if_neg (by simp [hl]), hk]
  dsimp only
  have fin : ∀ (t : St), t.table = L ++ x :: R →
      ({ x with key := c.crypto.kdf pk x.key [], state := .paired } : Entry) ∈
        sessions (t.put L.length { x with key := c.crypto.kdf pk x.key [], state := .paired }) q.eid := by
    intro t ht
    rw [sessions_eq, put_table ht, filter_mid, mine_true (by exact e3) (by simp)]
    simp
  rcases hpk with ⟨h1, h2⟩ | ⟨h1, h2⟩
  · have : pairingKey c s q k x = .ok (pk, false) := by simp [pairingKey, o1, h1, h2]
    simp only [this, hcmp, pairFinish, o4]
    exact ⟨rfl, h1, fin s e1⟩
  · have : pairingKey c s q k x = .ok (pk, true) := by simp [pairingKey, o1, h1, h2, o2]
    simp only [this, hcmp, pairFinish, o4, o5]
    refine ⟨rfl, by simp [St.put, saveKey], fin _ e1⟩

end Verif.SessionManager
