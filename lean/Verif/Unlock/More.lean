import Verif.Unlock.Props
/-! Replays, refusals, and what works when everybody does their part. -/
namespace Verif.Unlock
open ManifestFlash (window_prefix window_after window_self)
open AuthToken (Live)
open CommonMath (bitAt IsFirstClear)

/-- The nonce is found at the same place of the data, whatever the token. -/
theorem carried_nonce {c : Cfg} (wf : c.WF) {y : Call} {ctr T d : Bytes} (hw : Call.WF c y.op y.env) (hm : MakesToken c y ctr T) (hc : Carries c T d) :
    window d (2 + c.dataLength) 32 = y.env.tok.rngOut := by
  obtain ⟨buf, old, b1, b2, b3, b4, b5, u, dsig, b6, b7, b8⟩ := hm
  obtain ⟨len, rest, sig, e1, e2, e3, e4, e5⟩ := hc
  have hul := hw.uuid u b6
  have hno : y.env.tok.rngOut.length = 32 := by rw [hw.nonce, wf.nonce]
  have hd : c.dataLength = 2 + c.oid.length + 2 + 16 + 1 + c.counterLen := rfl
  have e : d = (len ++ contextOf c.oid u ctr) ++ (y.env.tok.rngOut ++ (dsig ++ rest ++ sig)) := by rw [e1, b8]; simp
  rw [e]
  have h := window_after (len ++ contextOf c.oid u ctr) (y.env.tok.rngOut ++ (dsig ++ rest ++ sig)) 0 32
  rw [Nat.add_zero, List.length_append, contextOf_length hul] at h
  rw [show 2 + c.dataLength = len.length + (2 + c.oid.length + 2 + 16 + 1 + ctr.length) by omega, h, window_prefix _ _ _ _ (by omega),
    window_self _ _ (by omega)]

theorem Hist.mem_wf {c : Cfg} {past : List Call} {s : AuthToken.St} (H : Hist c past s) : ∀ x ∈ past, Call.WF c x.op x.env := by
  induction H with
  | init => intro x h; cases h
  | call _ cw _ ih =>
    intro x h
    rcases List.mem_cons.mp h with rfl | h
    · exact cw
    · exact ih x h

/-- C97: data that has unlocked the device once never reaches the security manager again, as long as the random generator never repeats a nonce. -/
theorem no_replay {c : Cfg} (wf : c.WF) {l1 l2 l3 : List Call} {x1 x2 : Call} {s : AuthToken.St} (H : Hist c (l1 ++ x2 :: (l2 ++ x1 :: l3)) s)
    (fresh : (l1 ++ x2 :: (l2 ++ x1 :: l3)).Pairwise
      (fun a b => (∃ T, a.Issues T) → (∃ T, b.Issues T) → a.env.tok.rngOut ≠ b.env.tok.rngOut))
    {d : Bytes} (h1 : .unlock d true ∈ x1.evs) : ¬ x2.Unlocks d := by
  intro h2
  have H1 : Hist c ((l1 ++ x2 :: l2) ++ x1 :: l3) s := by simpa using H
  obtain ⟨p0, y1, T1, c1, p1, p2, p3, _⟩ := unlock_authorised wf H1 ⟨true, h1⟩
  obtain ⟨_, y2, T2, c2, q1, q2, q3, _⟩ := unlock_authorised wf H h2
  obtain ⟨a1, b1, e1, i1, _⟩ := p1
  obtain ⟨a2, b2, e2, i2, n2⟩ := q1
  have hne : x1 ≠ y2 := by
    intro he
    obtain ⟨buf, _, hop, _⟩ := q2
    rw [← he, p0] at hop; cases hop
  have hmem : y2 ∈ l2 := by
    rcases List.append_eq_append_iff.mp e2 with ⟨a', g1, g2⟩ | ⟨c', g1, g2⟩
    · cases a' with
      | nil => exact absurd (List.cons.inj g2).1 hne
      | cons z a' =>
        have hz := (List.cons.inj g2).1
        refine absurd (.inl ⟨d, h1⟩) (n2 x1 ?_).2
        rw [g1, hz]; simp
    · cases c' with
      | nil => exact absurd (List.cons.inj g2).1.symm hne
      | cons z c' =>
        have hz := (List.cons.inj g2).1
        rw [g1, hz]; simp
  have hm1 : y1 ∈ l3 := by rw [e1]; simp
  have hw := H.mem_wf
  have w1 := carried_nonce wf (hw y1 (by simp [hm1])) p2 p3
  have w2 := carried_nonce wf (hw y2 (by simp [hmem])) q2 q3
  have fr : y2.env.tok.rngOut ≠ y1.env.tok.rngOut := by
    have f1 := (List.pairwise_cons.mp (List.pairwise_append.mp fresh).2.1).2
    exact (List.pairwise_append.mp f1).2.2 y2 hmem y1 (by simp [hm1]) ⟨T2, i2⟩ ⟨T1, i1⟩
  exact fr (by rw [← w2, ← w1])

/-- C98: whatever token a call makes or hands out: the call asked for a token, the device was locked, and the token is made of the type and identifier of
the device, the next counter value and the nonce, all signed by the device. A token that is handed out is the one made. -/
theorem token_content {c : Cfg} (wf : c.WF) {l1 l2 : List Call} {x : Call} {s : AuthToken.St} (H : Hist c (l1 ++ x :: l2) s) :
    (∀ T, x.Issues T → ∃ ctr, MakesToken c x ctr T) ∧
    (∀ buf T, x.op = .getToken buf → x.out = .ok T → x.evs = [.issued T] ∧ T.length ≤ buf.length) ∧
    (∀ buf old, x.op = .getToken buf → x.env.counter = some old → ¬ Locked old → x.evs = [] ∧ ∃ e, x.out = .err e) := by
  obtain ⟨s1, s2, H1, cw, hs⟩ := H.cut
  have A := agrees wf H1
  obtain ⟨op, e, evs, out⟩ := x
  simp only at cw hs
  cases op with
  | getToken buf =>
    rcases getToken_cases wf cw A.buf hs with ⟨rfl, ⟨er, rfl⟩, _⟩ | ⟨old, ctr, T, k1, k2, k3, rfl, k5, k6, _, _, _, rfl⟩
    · refine ⟨fun T h => (nomatch h), fun b T _ h => (nomatch h), fun b old _ _ _ => ⟨rfl, er, rfl⟩⟩
    · refine ⟨fun T' h => ?_, fun b T' hb h => ?_, fun b o hb ho hn => ?_⟩
      · simp [Call.Issues] at h
        subst h
        exact ⟨ctr, buf, old, rfl, k1, k2, k3, k5, k6⟩
      · cases hb
        simp only at h
        split at h
        · cases h; exact ⟨rfl, by assumption⟩
        · cases h
      · simp only at ho
        rw [k1] at ho; cases ho
        exact absurd k2 hn
  | apply d =>
    refine ⟨fun T h => ?_, fun b T hb => (nomatch hb), fun b o hb => (nomatch hb)⟩
    rcases apply_cases wf (cw.data d rfl) A.len hs with ⟨rfl, _⟩ | ⟨_, ⟨_, rfl, _⟩ | ⟨_, rfl, _⟩⟩
    · cases h
    · simp [Call.Issues] at h
    · simp [Call.Issues] at h
  | clear =>
    cases hs
    refine ⟨fun T h => ?_, fun b T hb => (nomatch hb), fun b o hb => (nomatch hb)⟩
    simp [Call.Issues] at h

/-- C98: no call and none of the functions that look into the data reads or writes outside its buffers. -/
theorem unlock_in_bounds {c : Cfg} (wf : c.WF) {l1 l2 : List Call} {x : Call} {s : AuthToken.St} (H : Hist c (l1 ++ x :: l2) s) : x.out ≠ .oob := by
  obtain ⟨s1, s2, H1, cw, hs⟩ := H.cut
  have A := agrees wf H1
  obtain ⟨op, e, evs, out⟩ := x
  simp only at cw hs ⊢
  cases op with
  | getToken buf =>
    rcases getToken_cases wf cw A.buf hs with ⟨_, ⟨er, rfl⟩, _⟩ | ⟨old, ctr, T, k1, k2, k3, _, k5, k6, _, _, _, rfl⟩
    · simp
    · split <;> simp
  | apply d =>
    rcases apply_cases wf (cw.data d rfl) A.len hs with ⟨_, _, er, rfl⟩ | ⟨_, ⟨_, _, _, rfl⟩ | ⟨_, _, _, rfl⟩⟩ <;> simp
  | clear => cases hs; split <;> simp

theorem parseContainer_safe {d : Bytes} (hd : d.length < 2 ^ 31) :
    Res.Safe (parseContainer d) (fun p => p.tokenOff + p.tokenLen ≤ d.length ∧ p.policyOff + p.policyLen ≤ d.length ∧ p.tokenLen < 65536) := by
  rcases parseContainer_cases hd with g | ⟨tl, pl, g1, g2, g3, g4, _, _⟩
  · rw [g]; trivial
  · rw [g1]; exact ⟨by show 2 + tl ≤ _; omega, by show 2 + tl + 2 + pl ≤ _; omega, g2⟩

theorem parseAll_safe {d : Bytes} (hd : d.length < 2 ^ 31) :
    Res.Safe (parseAll d) (fun p => p.2.counterOff + p.2.counterLen ≤ p.1.length ∧ p.2.nonceOff + 32 ≤ p.1.length) := by
  unfold parseAll
  refine (parseContainer_safe hd).bind fun p ⟨h1, h2, h3⟩ => ?_
  refine (rdN_safe h1).bind fun t ⟨_, h4⟩ => ?_
  refine (parseToken_safe (by omega)).bind fun f hf => ?_
  exact hf

/-- C98: the functions that look into signed data are safe for any data. -/
theorem getters_in_bounds (d : Bytes) (hd : d.length < 2 ^ 31) : getUnlockCounter d ≠ .oob ∧ getNonce d ≠ .oob ∧ getUnlockPolicy d ≠ .oob := by
  refine ⟨?_, ?_, ?_⟩
  · refine Res.Safe.ne_oob (Q := fun _ => True) ?_
    unfold getUnlockCounter
    refine (parseAll_safe hd).bind fun p hp => ?_
    exact (rdN_safe hp.1).mono fun _ _ => trivial
  · refine Res.Safe.ne_oob (Q := fun _ => True) ?_
    unfold getNonce
    refine (parseAll_safe hd).bind fun p hp => ?_
    exact (rdN_safe hp.2).mono fun _ _ => trivial
  · refine Res.Safe.ne_oob (Q := fun _ => True) ?_
    unfold getUnlockPolicy
    refine (parseContainer_safe hd).bind fun p hp => ?_
    exact (rdN_safe hp.2.1).mono fun _ _ => trivial

/-! ### When everybody does their part -/

theorem nextOdd_clean {old : Bytes} {m : Nat} (hf : IsFirstClear old m) (he : m % 2 = 0) (hm : m < 8 * old.length)
    (hcl : ∀ j, m ≤ j → bitAt old j = false) : ∃ new, CommonMath.setNextBitOddCount old = (.ok, new) ∧ new.length = old.length := by
  obtain ⟨l', g1, g2, g3⟩ := (CommonMath.setNextBit_exact old).1 m hm hf
  have hc := (CommonMath.numContiguousInArray_exact old m).mpr hf
  unfold CommonMath.setNextBit at g1
  have hf' : IsFirstClear l' (m + 1) := by
    refine ⟨by omega, fun j hj => ?_, fun _ => ?_⟩
    · rw [g3]
      by_cases h : j = m
      · rw [if_pos h]
      · rw [if_neg h]; exact hf.2.1 j (by omega)
    · rw [g3, if_neg (by omega)]; exact hcl _ (by omega)
  have hc' := (CommonMath.numContiguousInArray_exact l' _).mpr hf'
  refine ⟨l', ?_, g2⟩
  unfold CommonMath.setNextBitOddCount
  rw [show 8 * old.length + 1 = (8 * old.length - 1 + 1) + 1 by omega, CommonMath.toCountLoop, hc, if_pos he]
  rw [hc] at g1
  simp only [g1]
  rw [CommonMath.toCountLoop, hc', if_neg (by omega)]

/-- C98: a locked device whose counter still has room gives a token when its engines work and the buffer is large enough. -/
theorem token_available {c : Cfg} (wf : c.WF) {past : List Call} {s : AuthToken.St} (H : Hist c past s) {e : Env} {buf old u sig : Bytes} {m : Nat}
    (cw : Call.WF c (.getToken buf) e) (hmem : e.memory = true) (hc : e.counter = some old) (hl : old.length = c.counterLen) (hf : IsFirstClear old m)
    (he : m % 2 = 0) (hm : m < 8 * old.length) (hcl : ∀ j, m ≤ j → bitAt old j = false) (hu : e.uuid = some u) (hr : e.tok.rngOk = true)
    (hs : ∀ x, e.tok.sign x = some sig) (ht : e.tok.timerFails = false) (hb : c.tok.bufLen ≤ buf.length) :
    ∃ T ctr, (step c s e (.getToken buf)).2 = ([.issued T], .ok T) ∧ NextOdd old ctr ∧ MadeFrom c e ctr T := by
  have A := agrees wf H
  have hd : c.tok.dataLen = c.dataLength := wf.data
  have hrm := wf.room
  cases hst : step c s e (.getToken buf) with
  | mk s' p =>
    obtain ⟨evs, out⟩ := p
    have hst' : policyGetToken c s e buf = (s', evs, out) := hst
    rcases getToken_cases wf cw A.buf hst' with ⟨rfl, ⟨er, rfl⟩, _⟩ | ⟨old', ctr, T, k1, k2, k3, rfl, k5, k6, k7, _, k9, rfl⟩
    · exfalso
      obtain ⟨new, n1, n2⟩ := nextOdd_clean hf he hm hcl
      have hul := cw.uuid u hu
      unfold policyGetToken at hst'
      rw [hmem, if_neg (by simp), hc] at hst'
      simp only at hst'
      rw [(CommonMath.numContiguousInArray_exact old m).mpr hf, if_neg (by omega), n1, if_neg (by simp)] at hst'
      simp only at hst'
      unfold generate at hst'
      rw [if_neg (by omega), if_neg (by omega), hu, tokenContext_some wf hul (by omega) (by omega)] at hst'
      simp only at hst'
      have hcx : (contextOf c.oid u new).length = c.dataLength := by rw [contextOf_length hul, n2, hl]; rfl
      rw [List.take_left' hcx] at hst'
      unfold AuthToken.newToken at hst'
      rw [if_neg (by simp only [AuthToken.tooLong, hcx, hd]; simp)] at hst'
      simp only [hr, hs, ht] at hst'
      simp at hst'
      repeat' split at hst'
      all_goals (injection hst' with _ h; injection h with h _; cases h)
    · have h1 : T.length ≤ buf.length := by rw [k7.len]; omega
      rw [if_pos h1]
      rw [hc] at k1; cases k1
      exact ⟨T, ctr, rfl, k3, k6⟩

/-- A token handed out stays usable while nothing but attempts to unlock happens, none of which succeeds. -/
theorem live_kept {c : Cfg} (wf : c.WF) {x : Call} {buf T : Bytes} (hop : x.op = .getToken buf) (hout : x.out = .ok T) {before : List Call} :
    ∀ {since : List Call} {s : AuthToken.St}, Hist c (since ++ x :: before) s → (∀ z ∈ since, (∃ d, z.op = .apply d) ∧ ¬ z.Ends) →
      Live c.tok s T x.env.tok.now := by
  intro since
  induction since with
  | nil =>
    intro s H _
    cases H with
    | call H1 cw hs =>
      have A := agrees wf H1
      subst hop hout
      rcases getToken_cases wf cw A.buf hs with ⟨_, ⟨er, h⟩, _⟩ | ⟨old, ctr, T', k1, k2, k3, _, k5, k6, k7, _, k9, h⟩
      · cases h
      · split at h
        · cases h; exact k7
        · cases h
  | cons z since ih =>
    intro s H hz
    cases H with
    | call H1 cw hs =>
      have L := ih H1 (fun w hw => hz w (List.mem_cons_of_mem _ hw))
      have A := agrees wf H1
      obtain ⟨⟨d, hd⟩, hne⟩ := hz _ List.mem_cons_self
      simp only at hd
      subst hd
      rcases apply_cases wf (cw.data d rfl) A.len hs with ⟨rfl, rfl, _⟩ | ⟨_, ⟨_, rfl, rfl, _⟩ | ⟨_, rfl, rfl, _⟩⟩
      · exact L
      · exact absurd (.inl ⟨d, by simp⟩) hne
      · exact L

/-- C97: a container for the token handed out, signed by the authority, unlocks the device, whatever unsuccessful attempts came in between. -/
theorem signed_container_unlocks {c : Cfg} (wf : c.WF) {x : Call} {buf T : Bytes} {since before : List Call} {s : AuthToken.St}
    (H : Hist c (since ++ x :: before) s) (hop : x.op = .getToken buf) (hout : x.out = .ok T)
    (hz : ∀ z ∈ since, (∃ d, z.op = .apply d) ∧ ¬ z.Ends) {e : Env} {policy sig : Bytes} (hp : policy.length < 65536) (hs0 : sig ≠ [])
    (hsl : sig.length < 2 ^ 30) (hsig : c.tok.sigOk c.tok.authHash (container T policy) sig = true)
    (ht : c.tok.validity ≠ 0 → e.tok.now < x.env.tok.now + c.tok.validity) (h1 : e.tok.timerFails = false) (h2 : e.tok.engineFails = false)
    (hu : e.unlockOk = true) :
    (step c s e (.apply (container T policy ++ sig))).2 = ([.unlock (container T policy ++ sig) true], .ok []) := by
  have L := live_kept wf hop hout H hz
  have A := agrees wf H
  have hsm := wf.small
  have hT : T.length < 65536 := by have := L.len; have := A.len; omega
  have hTe : T.length ≠ 0 := by
    obtain ⟨s1, s2, H1, cw, hs⟩ := H.cut
    have A1 := agrees wf H1
    rw [hop] at hs cw
    rcases getToken_cases wf cw A1.buf hs with ⟨_, ⟨er, h⟩, _⟩ | ⟨old, ctr, T', k1, k2, k3, _, k5, ⟨u, ds, m1, m2, m3⟩, _, _, k9, h⟩
    · rw [hout] at h; cases h
    · rw [hout] at h
      split at h
      · cases h
        rw [m3, List.length_append, List.length_append, contextOf_length (cw.uuid u m1)]; omega
      · cases h
  have hs1 : 0 < sig.length := List.length_pos_iff.mpr hs0
  have hcl := container_length T policy
  have hl := L.len
  have hsz : (2 + s.tokenLen + (2 + policy.length)) % AuthToken.SZ = (container T policy).length := by
    rw [hcl, Nat.mod_eq_of_lt (by unfold AuthToken.SZ; omega)]; omega
  have htc : AuthToken.timerCheck c.tok s e.tok = none := by
    unfold AuthToken.timerCheck
    by_cases hv : c.tok.validity = 0
    · rw [if_pos hv]
    · have := ht hv; have := L.exp hv
      rw [if_neg hv, h1, if_neg (by simp), if_neg (by omega)]
  have hwin : window (container T policy ++ sig) 2 s.tokenLen = window s.buffer 0 s.tokenLen := by
    rw [L.bytes, ← hl]
    have : container T policy ++ sig = toLE 2 T.length ++ (T ++ (toLE 2 policy.length ++ policy ++ sig)) := by simp [container]
    rw [this]
    have h := window_after (toLE 2 T.length) (T ++ (toLE 2 policy.length ++ policy ++ sig)) 0 T.length
    rw [toLE_length, Nat.add_zero] at h
    rw [h, window_prefix _ _ _ _ (by omega), window_self _ _ rfl]
  have hv : AuthToken.verifyData c.tok s e.tok (container T policy ++ sig) 2 (2 + policy.length) = .ok () := by
    unfold AuthToken.verifyData
    simp only [hsz, htc]
    rw [if_pos (by rw [List.length_append]; omega), if_neg (by rw [List.length_append]; omega), if_neg (by rw [hwin]; simp),
      h2, if_neg (by simp), window_prefix _ _ _ _ (by omega), window_self _ _ rfl]
    have := window_after (container T policy) sig 0 sig.length
    rw [Nat.add_zero] at this
    rw [List.length_append, Nat.add_sub_cancel_left, this, window_self _ _ rfl, hsig, if_pos rfl]
  have ha : authenticate c s e (container T policy ++ sig) = .ok () := by
    unfold authenticate
    rw [parseContainer_container hT hp hsl]
    simp only [Res.ok_bind, hv]
  show (policyApply c s e _).2 = _
  unfold policyApply
  rw [ha]
  simp only [hu, if_pos]

end Verif.Unlock
