import Verif.Unlock.Steps
/-! Properties of the unlock interface. -/
namespace Verif.Unlock
open ManifestFlash (window_prefix window_after window_self)
open AuthToken (Live)

/-- The state knows the token made last. -/
structure Agrees (c : Cfg) (past : List Call) (s : AuthToken.St) : Prop where
  buf : s.buffer.length = c.tok.bufLen
  len : s.tokenLen ≤ c.tok.bufLen
  live : s.tokenLen ≠ 0 → ∃ y T ctr, LastToken past y T ∧ Live c.tok s T y.env.tok.now ∧ MakesToken c y ctr T ∧ Call.WF c y.op y.env

theorem LastToken.skip {past : List Call} {y : Call} {T : Bytes} (h : LastToken past y T) {z : Call} (h1 : ∀ T', ¬ z.Issues T') (h2 : ¬ z.Ends) :
    LastToken (z :: past) y T := by
  obtain ⟨l3, l4, e, i, a⟩ := h
  refine ⟨z :: l3, l4, by rw [e]; rfl, i, fun w hw => ?_⟩
  rcases List.mem_cons.mp hw with rfl | hw
  · exact ⟨h1, h2⟩
  · exact a w hw

theorem quiet_nil {op : Op} {e : Env} {out : R Bytes} : (∀ T', ¬ (Call.mk op e [] out).Issues T') ∧ ¬ (Call.mk op e [] out).Ends := by
  refine ⟨fun T h => (nomatch h), fun h => ?_⟩
  rcases h with ⟨_, h⟩ | ⟨_, h⟩ <;> cases h

theorem quiet_failed {op : Op} {e : Env} {out : R Bytes} {d : Bytes} :
    (∀ T', ¬ (Call.mk op e [.unlock d false] out).Issues T') ∧ ¬ (Call.mk op e [.unlock d false] out).Ends := by
  refine ⟨fun T h => ?_, fun h => ?_⟩
  · simp [Call.Issues] at h
  · rcases h with ⟨_, h⟩ | ⟨_, h⟩ <;> simp at h

theorem agrees {c : Cfg} (wf : c.WF) {past : List Call} {s : AuthToken.St} (H : Hist c past s) : Agrees c past s := by
  induction H with
  | init h0 h1 => exact ⟨h1, by omega, fun h => absurd h0 h⟩
  | @call past s op e s' evs out _ cw hs A =>
    cases op with
    | getToken buf =>
      rcases getToken_cases wf cw A.buf hs with ⟨rfl, _, h3, h4⟩ | ⟨old, ctr, T, h1, h2, h3, rfl, h5, h6, h7, h8, h9, h10⟩
      · rcases h3 with rfl | h3
        · refine ⟨A.buf, A.len, fun h => ?_⟩
          obtain ⟨y, T, ctr, a1, a2, a3, a4⟩ := A.live h
          exact ⟨y, T, ctr, a1.skip quiet_nil.1 quiet_nil.2, a2, a3, a4⟩
        · exact ⟨h4, by omega, fun h => absurd h3 h⟩
      · refine ⟨h8, h9, fun _ => ⟨_, T, ctr, ⟨[], past, rfl, List.mem_singleton.mpr rfl, fun z hz => (nomatch hz)⟩, h7,
          ⟨buf, old, rfl, h1, h2, h3, h5, h6⟩, cw⟩⟩
    | apply d =>
      rcases apply_cases wf (cw.data d rfl) A.len hs with ⟨rfl, rfl, _⟩ | ⟨_, ⟨_, rfl, rfl, _⟩ | ⟨_, rfl, rfl, _⟩⟩
      · refine ⟨A.buf, A.len, fun h => ?_⟩
        obtain ⟨y, T, ctr, a1, a2, a3, a4⟩ := A.live h
        exact ⟨y, T, ctr, a1.skip quiet_nil.1 quiet_nil.2, a2, a3, a4⟩
      · exact ⟨A.buf, Nat.zero_le _, fun h => absurd rfl h⟩
      · refine ⟨A.buf, A.len, fun h => ?_⟩
        obtain ⟨y, T, ctr, a1, a2, a3, a4⟩ := A.live h
        exact ⟨y, T, ctr, a1.skip quiet_failed.1 quiet_failed.2, a2, a3, a4⟩
    | clear =>
      cases hs
      exact ⟨A.buf, Nat.zero_le _, fun h => absurd rfl h⟩

theorem Hist.cut {c : Cfg} : ∀ {l1 : List Call} {x : Call} {l2 : List Call} {s : AuthToken.St}, Hist c (l1 ++ x :: l2) s →
    ∃ s1 s2, Hist c l2 s1 ∧ Call.WF c x.op x.env ∧ step c s1 x.env x.op = (s2, x.evs, x.out) := by
  intro l1
  induction l1 with
  | nil =>
    intro x l2 s H
    cases H with
    | call H1 cw hs => exact ⟨_, _, H1, cw, hs⟩
  | cons z l1 ih =>
    intro x l2 s H
    cases H with
    | call H1 _ _ => exact ih H1

/-- Only a request with authenticated data reaches the security manager with it. -/
theorem unlocks_apply {c : Cfg} (wf : c.WF) {past : List Call} {s s' : AuthToken.St} (H : Hist c past s) {op : Op} {e : Env} {evs : List Ev} {out : R Bytes}
    (cw : Call.WF c op e) (hs : step c s e op = (s', evs, out)) {d : Bytes} {ok : Bool} (hu : .unlock d ok ∈ evs) :
    op = .apply d ∧ authenticate c s e d = .ok () := by
  have A := agrees wf H
  cases op with
  | getToken buf =>
    rcases getToken_cases wf cw A.buf hs with ⟨rfl, _⟩ | ⟨_, _, _, _, _, _, rfl, _⟩
    · cases hu
    · simp at hu
  | apply d' =>
    rcases apply_cases wf (cw.data d' rfl) A.len hs with ⟨rfl, _⟩ | ⟨ha, ⟨_, rfl, _⟩ | ⟨_, rfl, _⟩⟩
    · cases hu
    · simp at hu; obtain ⟨rfl, _⟩ := hu; exact ⟨rfl, ha⟩
    · simp at hu; obtain ⟨rfl, _⟩ := hu; exact ⟨rfl, ha⟩
  | clear => cases hs; simp at hu

theorem authenticate_carries {c : Cfg} (wf : c.WF) {s : AuthToken.St} {e : Env} {d T : Bytes} {t : Nat} (hd : d.length < 2 ^ 31)
    (hl : s.tokenLen ≤ c.tok.bufLen) (L : Live c.tok s T t) (h : authenticate c s e d = .ok ()) :
    Carries c T d ∧ (c.tok.validity ≠ 0 → e.tok.now < t + c.tok.validity) := by
  obtain ⟨tl, pl, g1, g2, g3, g4, g5, g6, hsz, hv⟩ := authenticate_ok wf hd hl h
  obtain ⟨h0, h1, h2, h3, h4⟩ := AuthToken.verifyData_ok hsz hv
  obtain ⟨e1, e2⟩ := AuthToken.split3 d 2 s.tokenLen (2 + pl) (by omega)
  rw [h3, L.bytes] at e1 e2
  refine ⟨⟨_, _, _, e1, ?_, ?_, ?_, ?_⟩, ?_⟩
  · rw [window_length]; omega
  · rw [window_length]; omega
  · intro hc
    have := congrArg List.length hc
    rw [window_length] at this
    simp at this; omega
  · rw [← e2]; exact h4
  · intro hv
    have := AuthToken.timerCheck_none h2 hv
    rw [L.exp hv] at this; exact this

/-- C97: at any point of any history, the security manager is asked to unlock the device only with data that carries the token made last and a signature of the
authority over it; that token was made while the device was locked, the device was neither unlocked nor locked since, and the token has not
expired. -/
theorem unlock_authorised {c : Cfg} (wf : c.WF) {l1 l2 : List Call} {x : Call} {s : AuthToken.St} (H : Hist c (l1 ++ x :: l2) s) {d : Bytes}
    (hu : x.Unlocks d) :
    x.op = .apply d ∧ ∃ y T ctr, LastToken l2 y T ∧ MakesToken c y ctr T ∧ Carries c T d ∧
      (c.tok.validity ≠ 0 → x.env.tok.now < y.env.tok.now + c.tok.validity) := by
  obtain ⟨s1, s2, H1, cw, hs⟩ := H.cut
  obtain ⟨ok, hu⟩ := hu
  obtain ⟨h1, h2⟩ := unlocks_apply wf H1 cw hs hu
  have A := agrees wf H1
  obtain ⟨tl, pl, _, _, _, _, _, _, hsz, hv⟩ := authenticate_ok wf (cw.data d h1) A.len h2
  obtain ⟨y, T, ctr, a1, a2, a3, _⟩ := A.live (AuthToken.verifyData_ok hsz hv).1
  obtain ⟨c1, c2⟩ := authenticate_carries wf (cw.data d h1) A.len a2 h2
  exact ⟨h1, y, T, ctr, a1, a3, c1, c2⟩

theorem toLE2_inj {a b : Nat} (ha : a < 65536) (hb : b < 65536) (h : toLE 2 a = toLE 2 b) : a = b := by
  have := congrArg leNat h
  rw [leNat_toLE, leNat_toLE] at this
  omega

theorem container_length (T P : Bytes) : (container T P).length = 4 + T.length + P.length := by
  simp only [container, List.length_append, toLE_length]; omega

/-- C97: if the authority signs nothing but containers, then what the security manager gets is a container for the token made last, and the functions it uses
to look into the data give the signed policy and the counter and nonce of that token. -/
theorem unlock_data_honest {c : Cfg} (wf : c.WF) (ho : Honest c) {l1 l2 : List Call} {x : Call} {s : AuthToken.St} (H : Hist c (l1 ++ x :: l2) s) {d : Bytes}
    (hu : x.Unlocks d) :
    ∃ y T ctr policy sig, LastToken l2 y T ∧ MakesToken c y ctr T ∧ d = container T policy ++ sig ∧
      c.tok.sigOk c.tok.authHash (container T policy) sig = true ∧
      getUnlockPolicy d = .ok policy ∧ getUnlockCounter d = .ok ctr ∧ getNonce d = .ok y.env.tok.rngOut := by
  obtain ⟨s1, s2, H1, cw, hs⟩ := H.cut
  obtain ⟨ok, hu⟩ := hu
  obtain ⟨h1, h2⟩ := unlocks_apply wf H1 cw hs hu
  have A := agrees wf H1
  have hd := cw.data d h1
  obtain ⟨tl, pl, g1, g2, g3, g4, g5, g6, hsz, hv⟩ := authenticate_ok wf hd A.len h2
  obtain ⟨v0, v1, v2, v3, v4⟩ := AuthToken.verifyData_ok hsz hv
  obtain ⟨y, T, ctr, a1, L, a3, cw'⟩ := A.live v0
  obtain ⟨T2, P, t1, t2, hm⟩ := ho _ _ v4
  -- the data is this container and a signature
  have hdd : d = container T2 P ++ window d (2 + s1.tokenLen + (2 + pl)) (d.length - (2 + s1.tokenLen + (2 + pl))) := by
    rw [← hm]
    have := window_concat d 0 (2 + s1.tokenLen + (2 + pl)) (d.length - (2 + s1.tokenLen + (2 + pl)))
    rw [Nat.zero_add] at this
    rw [this, window, List.drop_zero, List.take_of_length_le (by omega)]
  generalize window d (2 + s1.tokenLen + (2 + pl)) (d.length - (2 + s1.tokenLen + (2 + pl))) = sig at hdd v4
  have hcl : (container T2 P).length = 2 + s1.tokenLen + (2 + pl) := by rw [← hm, window_length]; omega
  rw [container_length] at hcl
  have e1 : tl = T2.length := by
    apply toLE2_inj g3 t1
    rw [← g5, hdd, container, List.append_assoc, List.append_assoc, List.append_assoc, window_prefix _ _ _ _ (by simp), window_self _ _ (by simp)]
  have e2 : pl = P.length := by
    apply toLE2_inj g2 t2
    have : d = (toLE 2 T2.length ++ T2) ++ (toLE 2 P.length ++ (P ++ sig)) := by rw [hdd]; simp [container]
    rw [← g6, this]
    have h := window_after (toLE 2 T2.length ++ T2) (toLE 2 P.length ++ (P ++ sig)) 0 2
    rw [show 2 + tl = (toLE 2 T2.length ++ T2).length + 0 by simp [e1], h, window_prefix _ _ _ _ (by simp), window_self _ _ (by simp)]
  have e3 : T2.length = s1.tokenLen := by omega
  have e4 : T2 = T := by
    rw [← L.bytes, ← v3]
    have : d = toLE 2 T2.length ++ (T2 ++ (toLE 2 P.length ++ P ++ sig)) := by rw [hdd]; simp [container]
    rw [this]
    have h := window_after (toLE 2 T2.length) (T2 ++ (toLE 2 P.length ++ P ++ sig)) 0 s1.tokenLen
    rw [toLE_length, Nat.add_zero] at h
    rw [h, window_prefix _ _ _ _ (by omega), window_self _ _ (by omega)]
  subst e4
  have hsig : sig.length < 2 ^ 31 := by
    have := congrArg List.length hdd
    rw [List.length_append] at this; omega
  have hT : T2.length < 65536 := t1
  have m3 := a3
  obtain ⟨buf, old, b1, b2, b3, b4, b5, u, dsig, b6, b7, b8⟩ := m3
  have hul := cw'.uuid u b6
  have hno : y.env.tok.rngOut.length = 32 := by rw [cw'.nonce, wf.nonce]
  have hc256 : ctr.length < 256 := by rw [b5]; exact wf.counter.2
  have hpt := parseToken_token (sig := dsig) wf.oid.2 hul hc256 hno (by rw [← b8]; exact hT)
  rw [← b8] at hpt
  have hpa : parseAll d = .ok (T2, ⟨2 + c.oid.length + 19, ctr.length, 2 + c.oid.length + 19 + ctr.length⟩) := by
    unfold parseAll
    rw [g1]
    simp only [Res.ok_bind]
    have hr := rdN_behind (ε := Err) (toLE 2 T2.length) T2 (toLE 2 P.length ++ P ++ sig) 2 tl (by simp) e1
    have : d = toLE 2 T2.length ++ (T2 ++ (toLE 2 P.length ++ P ++ sig)) := by rw [hdd]; simp [container]
    rw [← this] at hr
    rw [hr]
    simp only [Res.ok_bind, hpt, Res.pure_eq]
  refine ⟨y, T2, ctr, P, sig, a1, a3, hdd, by rw [← hm]; exact v4, ?_, ?_, ?_⟩
  · unfold getUnlockPolicy
    rw [g1]
    simp only [Res.ok_bind]
    have : d = (toLE 2 T2.length ++ T2 ++ toLE 2 P.length) ++ (P ++ sig) := by rw [hdd]; simp [container]
    rw [this]
    exact rdN_behind _ _ _ _ _ (by simp [e1]; omega) e2
  · unfold getUnlockCounter
    rw [hpa]
    simp only [Res.ok_bind]
    have : T2 = ([0x06, UInt8.ofNat c.oid.length] ++ c.oid ++ [1, 0] ++ pad16 u ++ [UInt8.ofNat ctr.length]) ++ (ctr ++ (y.env.tok.rngOut ++ dsig)) := by
      rw [b8]; simp [contextOf]
    rw [this]
    exact rdN_behind _ _ _ _ _ (by simp [pad16_length hul]; omega) rfl
  · unfold getNonce
    rw [hpa]
    simp only [Res.ok_bind]
    have : T2 = contextOf c.oid u ctr ++ (y.env.tok.rngOut ++ dsig) := by rw [b8]; simp
    rw [this]
    exact rdN_behind _ _ _ _ _ (by rw [contextOf_length hul]) hno.symm

end Verif.Unlock
