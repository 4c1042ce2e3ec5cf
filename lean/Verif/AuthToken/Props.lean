import Verif.AuthToken.Lemmas
/-! C47 and C48. -/
namespace Verif.AuthToken
open ManifestFlash (window_prefix window_after window_self)

/-! ### A history keeps the token that it should keep -/

/-- The state of handler `h` agrees with the history. -/
structure Agrees (y : Sys) (h : Nat) (past : List (Call × Out)) (s : St) : Prop where
  buf : s.buffer.length = (y.handler h).bufLen
  len : s.tokenLen ≤ (y.handler h).bufLen
  live : s.tokenLen ≠ 0 → ∃ T t, active y h past = some (T, t) ∧ Live (y.handler h) s T t

/-- One request, seen from one handler. -/
theorem agrees_step {y : Sys} (wf : ∀ h, (y.handler h).WF) {past : List (Call × Out)} {s s' : Nat → St} {c : Call} {out : Out} (cw : c.WF y)
    (hs : authorizeOperation y s c.id c.env c.payload = (s', out)) (h : Nat) (A : Agrees y h past (s h)) : Agrees y h ((c, out) :: past) (s' h) := by
  unfold authorizeOperation at hs
  have other : handlerOf y c ≠ some h → s' h = s h → Agrees y h ((c, out) :: past) (s' h) := by
    intro h1 h2
    rw [h2]
    refine ⟨A.buf, A.len, ?_⟩
    rw [active, if_neg h1]; exact A.live
  cases hf : findOp y.ops c.id with
  | none =>
    simp only [hf] at hs
    cases hs
    exact other (by simp [handlerOf, hf]) rfl
  | some o =>
    simp only [hf] at hs
    obtain ⟨oid, oa, od, oe⟩ := o
    cases oa with
    | none =>
      simp only at hs
      cases hs
      exact other (by simp [handlerOf, hf]) rfl
    | some a =>
      simp only at hs
      cases a with
      | allowed => cases hs; exact other (by simp [handlerOf, hf]) rfl
      | disallowed => cases hs; exact other (by simp [handlerOf, hf]) rfl
      | global g => cases hs; exact other (by simp [handlerOf, hf]) rfl
      | challenge k =>
        have hk : handlerOf y c = some k := by simp [handlerOf, hf]
        simp only [askAuth] at hs
        generalize hr : authorize (y.handler k) (s k) c.env c.payload = r at hs
        cases hs
        by_cases hkh : h = k
        case neg => exact other (by rw [hk]; intro e; cases e; exact hkh rfl) (by simp [hkh])
        subst hkh
        simp only [↓reduceIte]
        cases hp : c.payload with
        | none =>
          rw [hp] at hr
          simp only [authorize, challenge] at hr
          have ht : tooLong (y.handler h) (y.handler h).tag = false := by
            cases hg : (y.handler h).tag with
            | none => rfl
            | some x =>
              have := (wf h).tag x hg
              simp only [tooLong, decide_eq_false_iff_not]; omega
          cases hn : newToken (y.handler h) (s h) c.env (y.handler h).tag with
          | mk s1 q =>
            obtain ⟨n1, n2⟩ := newToken_ok (wf h) A.buf (cw.nonce h hk) (cw.sig h hk) ht hn
            rcases n2 with ⟨x, n3, n4⟩ | ⟨sig, n3, n4, n5, n6, n7, n8⟩
            · rw [hn, n3] at hr
              simp only at hr
              subst hr
              exact ⟨n1, by simp only; omega, fun h0 => absurd n4 h0⟩
            · rw [hn, n4] at hr
              simp only at hr
              subst hr
              refine ⟨n1, n6, fun _ => ⟨_, c.env.now, ?_, n7, n5.symm, n8⟩⟩
              rw [active, if_pos hk]; simp only [outOf, activeStep, hp]
        | some d =>
          rw [hp] at hr
          simp only [authorize] at hr
          rcases respond_cases (wf h) A.len (e := c.env) (d := d) hr with ⟨x, h1, h2⟩ | ⟨h1, h2, _⟩
          · rw [h2]
            refine ⟨A.buf, A.len, ?_⟩
            rw [active, if_pos hk]
            simp only [outOf, activeStep, hp, h1]
            exact A.live
          · rw [h2]
            exact ⟨A.buf, by simp [invalidate], fun h0 => absurd rfl h0⟩

theorem agrees {y : Sys} (wf : ∀ h, (y.handler h).WF) {past : List (Call × Out)} {s : Nat → St} (H : Hist y past s) (h : Nat) :
    Agrees y h past (s h) := by
  induction H with
  | init h0 => exact ⟨(h0 h).2, by rw [(h0 h).1]; omega, fun hc => absurd (h0 h).1 hc⟩
  | step _ cw hs ih => exact agrees_step wf cw hs h ih

theorem handlerOf_some {y : Sys} {c : Call} {h : Nat} (hk : handlerOf y c = some h) :
    ∃ o, findOp y.ops c.id = some o ∧ o.auth = some (.challenge h) ∧ ∀ s : Nat → St,
      authorizeOperation y s c.id c.env c.payload = (fun i => if i = h then (authorize (y.handler h) (s h) c.env c.payload).1 else s i,
        outOf o c.payload (authorize (y.handler h) (s h) c.env c.payload).2) := by
  unfold handlerOf at hk
  split at hk
  · rename_i k ho
    cases hk
    refine ⟨_, ho, rfl, fun s => ?_⟩
    unfold authorizeOperation
    rw [ho]; rfl
  · cases hk

theorem context_granted {o : Op} {p : Option Bytes} {ctx : Ctx} (h : context o p = .granted ctx) : opData o p = .ok ctx.data := by
  unfold context at h
  split at h
  · cases h
  · rename_i data hd
    split at h
    · cases h; exact hd
    · split at h
      · cases h; exact hd
      · cases h

theorem outOf_granted {o : Op} {p : Option Bytes} {a : Ans} {ctx : Ctx} (h : outOf o p a = .granted ctx) : a = .granted ∧ opData o p = .ok ctx.data := by
  cases a with
  | granted => exact ⟨rfl, context_granted h⟩
  | challenge t => cases h
  | refused x => cases h

theorem outOf_challenge {o : Op} {p : Option Bytes} {a : Ans} {T : Bytes} (h : outOf o p a = .challenge T) : a = .challenge T := by
  cases a with
  | granted =>
    exfalso
    simp only [outOf, context] at h
    split at h
    · cases h
    · split at h
      · cases h
      · split at h <;> cases h
  | challenge t => cases h; rfl
  | refused x => cases h

/-- What the handler did when an operation was granted. -/
theorem granted_verified {y : Sys} (wf : ∀ h, (y.handler h).WF) {past : List (Call × Out)} {s s' : Nat → St} (H : Hist y past s) {c : Call} {ctx : Ctx}
    (hs : authorizeOperation y s c.id c.env c.payload = (s', .granted ctx)) {h : Nat} (hk : handlerOf y c = some h) :
    ∃ d off aad, c.payload = some d ∧ tokenOffset (y.handler h).fmt d = .ok off ∧ aadLength (y.handler h).fmt d = .ok aad ∧
      off + (s h).tokenLen + aad < SZ ∧ verifyData (y.handler h) (s h) c.env d off aad = .ok () := by
  obtain ⟨o, ho, ha, hq⟩ := handlerOf_some hk
  rw [hq s] at hs
  have A := agrees wf H h
  have g := (outOf_granted (Prod.mk.inj hs).2).1
  cases hp : c.payload with
  | none =>
    rw [hp] at g
    simp only [authorize, challenge] at g
    split at g <;> cases g
  | some d =>
    rw [hp] at g
    simp only [authorize] at g
    generalize hres : respond (y.handler h) (s h) c.env d = res at g
    rcases respond_cases (wf h) A.len (s' := res.1) (a := res.2) hres with ⟨x, h1, _⟩ | ⟨_, _, off, aad, h3, h4, h5, h6⟩
    · rw [h1] at g; cases g
    · exact ⟨d, off, aad, rfl, h3, h4, h5, h6⟩

/-! ### C47 -/

/-- C47. Whatever was asked before: an operation that needs a challenge is granted only for a payload that carries the token of the latest challenge of
this handler, not used since, within its time, with a signature of the authority over the token and everything else before the signature. -/
theorem granted_carries_active {y : Sys} (wf : ∀ h, (y.handler h).WF) {past : List (Call × Out)} {s s' : Nat → St} (H : Hist y past s) {c : Call}
    {ctx : Ctx} (hs : authorizeOperation y s c.id c.env c.payload = (s', .granted ctx)) {h : Nat} (hk : handlerOf y c = some h) :
    ∃ d T t, c.payload = some d ∧ active y h past = some (T, t) ∧ Carries (y.handler h) T d ∧
      ((y.handler h).validity ≠ 0 → c.env.now < t + (y.handler h).validity) := by
  obtain ⟨d, off, aad, h1, h2, h3, h4, h5⟩ := granted_verified wf H hs hk
  obtain ⟨T, t, a1, L⟩ := (agrees wf H h).live (verifyData_ok h4 h5).1
  obtain ⟨c1, c2⟩ := accepted_carries (tokenOffset_ok h2).1 L h4 h5
  exact ⟨d, T, t, h1, a1, c1, c2⟩

theorem challenge_live {y : Sys} (wf : ∀ h, (y.handler h).WF) {past : List (Call × Out)} {s s' : Nat → St} (H : Hist y past s) {c : Call}
    (cw : c.WF y) {T : Bytes} (hs : authorizeOperation y s c.id c.env c.payload = (s', .challenge T)) {h : Nat} (hk : handlerOf y c = some h) :
    c.payload = none ∧ MadeFrom (y.handler h) c.env T ∧ Live (y.handler h) (s' h) T c.env.now := by
  obtain ⟨o, ho, ha, hq⟩ := handlerOf_some hk
  rw [hq s] at hs
  have A := agrees wf H h
  have g := outOf_challenge (Prod.mk.inj hs).2
  cases hp : c.payload with
  | some d =>
    rw [hp] at g
    simp only [authorize] at g
    generalize hres : respond (y.handler h) (s h) c.env d = res at g
    rcases respond_cases (wf h) A.len (s' := res.1) (a := res.2) hres with ⟨x, h1, _⟩ | ⟨h1, _⟩ <;> (rw [h1] at g; cases g)
  | none =>
    rw [hp] at g
    simp only [authorize, challenge] at g
    refine ⟨rfl, ?_⟩
    have es : s' h = (newToken (y.handler h) (s h) c.env (y.handler h).tag).1 := by
      have := congrFun (Prod.mk.inj hs).1 h
      simp only [↓reduceIte, hp, authorize, challenge] at this
      rw [← this]; split <;> (rename_i hq; rw [hq])
    have ht : tooLong (y.handler h) (y.handler h).tag = false := by
      cases hg : (y.handler h).tag with
      | none => rfl
      | some x =>
        have := (wf h).tag x hg
        simp only [tooLong, decide_eq_false_iff_not]; omega
    cases hn : newToken (y.handler h) (s h) c.env (y.handler h).tag with
    | mk s1 q =>
      obtain ⟨_, n2⟩ := newToken_ok (wf h) A.buf (cw.nonce h hk) (cw.sig h hk) ht hn
      rcases n2 with ⟨x, n3, n4⟩ | ⟨sig, n3, n4, n5, n6, n7, n8⟩
      · rw [hn, n3] at g; cases g
      · rw [hn, n4] at g; cases g
        rw [es, hn]
        exact ⟨⟨sig, n3, rfl⟩, n7, n5.symm, n8⟩

/-- C47. A challenge is made of the tag of its handler, a fresh nonce and a signature of the device over them. -/
theorem challenge_made_from {y : Sys} (wf : ∀ h, (y.handler h).WF) {past : List (Call × Out)} {s s' : Nat → St} (H : Hist y past s) {c : Call}
    (cw : c.WF y) {T : Bytes} (hs : authorizeOperation y s c.id c.env c.payload = (s', .challenge T)) {h : Nat} (hk : handlerOf y c = some h) :
    c.payload = none ∧ MadeFrom (y.handler h) c.env T :=
  ⟨(challenge_live wf H cw hs hk).1, (challenge_live wf H cw hs hk).2.1⟩

/-- An active token was issued by a challenge, and no operation was granted since. -/
theorem active_some {y : Sys} {h : Nat} : ∀ {past : List (Call × Out)} {T : Bytes} {t : Nat}, active y h past = some (T, t) →
    ∃ l1 c l2, past = l1 ++ (c, .challenge T) :: l2 ∧ handlerOf y c = some h ∧ c.payload = none ∧ c.env.now = t ∧ 
      (∀ x ∈ l1, ¬ Issues y h x) ∧ (∀ x ∈ l1, x.1.payload ≠ none → ¬ Grants y h x) := by
  intro past
  induction past with
  | nil => intro T t h; cases h
  | cons x past ih =>
    obtain ⟨c, out⟩ := x
    intro T t ha
    rw [active] at ha
    by_cases hk : handlerOf y c = some h
    · rw [if_pos hk] at ha
      cases hp : c.payload with
      | none =>
        cases out with
        | challenge T' =>
          simp only [activeStep, hp, Option.some.injEq, Prod.mk.injEq] at ha
          obtain ⟨rfl, rfl⟩ := ha
          exact ⟨[], c, past, rfl, hk, hp, rfl, by simp, by simp⟩
        | granted ctx => simp only [activeStep, hp] at ha; cases ha
        | refused e => simp only [activeStep, hp] at ha; cases ha
      | some d =>
        cases out with
        | granted ctx => simp only [activeStep, hp] at ha; cases ha
        | challenge T' =>
          simp only [activeStep, hp] at ha
          obtain ⟨l1, c', l2, e1, e2, e3, e4, e5, e6⟩ := ih ha
          refine ⟨(c, .challenge T') :: l1, c', l2, by rw [e1]; rfl, e2, e3, e4, ?_, ?_⟩
          · intro x hx
            rcases List.mem_cons.mp hx with rfl | hx
            · intro hi; rw [hi.2.1] at hp; cases hp
            · exact e5 x hx
          · intro x hx
            rcases List.mem_cons.mp hx with rfl | hx
            · rintro _ ⟨_, ctx, hg⟩; cases hg
            · exact e6 x hx
        | refused e =>
          simp only [activeStep, hp] at ha
          obtain ⟨l1, c', l2, e1, e2, e3, e4, e5, e6⟩ := ih ha
          refine ⟨(c, .refused e) :: l1, c', l2, by rw [e1]; rfl, e2, e3, e4, ?_, ?_⟩
          · intro x hx
            rcases List.mem_cons.mp hx with rfl | hx
            · rintro ⟨_, _, T, hg⟩; cases hg
            · exact e5 x hx
          · intro x hx
            rcases List.mem_cons.mp hx with rfl | hx
            · rintro _ ⟨_, ctx, hg⟩; cases hg
            · exact e6 x hx
    · rw [if_neg hk] at ha
      obtain ⟨l1, c', l2, e1, e2, e3, e4, e5, e6⟩ := ih ha
      refine ⟨(c, out) :: l1, c', l2, by rw [e1]; rfl, e2, e3, e4, ?_, ?_⟩
      · intro x hx
        rcases List.mem_cons.mp hx with rfl | hx
        · intro hi; exact hk hi.1
        · exact e5 x hx
      · intro x hx
        rcases List.mem_cons.mp hx with rfl | hx
        · intro _ hi; exact hk hi.1
        · exact e6 x hx

/-- Every suffix of a history is a history, and its next request was answered from there. -/
theorem Hist.cut {y : Sys} : ∀ {l1 : List (Call × Out)} {c : Call} {out : Out} {l2 : List (Call × Out)} {s : Nat → St}, Hist y (l1 ++ (c, out) :: l2) s →
    ∃ s1 s2, Hist y l2 s1 ∧ c.WF y ∧ authorizeOperation y s1 c.id c.env c.payload = (s2, out) := by
  intro l1
  induction l1 with
  | nil =>
    intro c out l2 s H
    cases H with
    | step H1 cw hs => exact ⟨_, _, H1, cw, hs⟩
  | cons x l1 ih =>
    intro c out l2 s H
    cases H with
    | step H1 cw hs => exact ih H1

/-- C47, in terms of requests and answers only: before every granted request there was a challenge of the same handler whose token the payload carries,
and between the two this handler neither granted an operation nor issued another challenge. So a token grants at most one operation. -/
theorem single_use {y : Sys} (wf : ∀ h, (y.handler h).WF) {l1 l2 : List (Call × Out)} {s : Nat → St} {c : Call} {ctx : Ctx}
    (H : Hist y (l1 ++ (c, .granted ctx) :: l2) s) {h : Nat} (hk : handlerOf y c = some h) :
    ∃ d T l3 c' l4, c.payload = some d ∧ l2 = l3 ++ (c', .challenge T) :: l4 ∧ handlerOf y c' = some h ∧ MadeFrom (y.handler h) c'.env T ∧
      Carries (y.handler h) T d ∧ ((y.handler h).validity ≠ 0 → c.env.now < c'.env.now + (y.handler h).validity) ∧
      (∀ x ∈ l3, ¬ Issues y h x ∧ ¬ Grants y h x) := by
  obtain ⟨s1, s2, H1, cw, hs⟩ := H.cut
  obtain ⟨d, T, t, h1, h2, h3, h4⟩ := granted_carries_active wf H1 hs hk
  obtain ⟨l3, c', l4, e1, e2, e3, e4, e5, e6⟩ := active_some h2
  subst e1
  obtain ⟨s3, s4, H3, cw', hs'⟩ := H1.cut
  refine ⟨d, T, l3, c', l4, h1, rfl, e2, (challenge_made_from wf H3 cw' hs' e2).2, h3, by rw [e4]; exact h4, ?_⟩
  intro x hx
  refine ⟨e5 x hx, fun hg => ?_⟩
  refine e6 x hx ?_ hg
  obtain ⟨a, b, rfl⟩ := List.append_of_mem hx
  obtain ⟨cx, ox⟩ := x
  obtain ⟨hgk, ctx', hgo⟩ := hg
  simp only at hgo hgk
  subst hgo
  rw [List.append_assoc] at H1
  obtain ⟨_, _, H5, _, hs5⟩ := Hist.cut (l1 := a) (by simpa using H1)
  obtain ⟨d', _, _, k1, _⟩ := granted_carries_active wf H5 hs5 hgk
  simp [k1]

/-- C47. If no nonce is used twice, a payload that was granted once is never granted again by the same handler. -/
theorem no_replay {y : Sys} (wf : ∀ h, (y.handler h).WF) {l1 l2 l3 : List (Call × Out)} {s : Nat → St} {c1 c2 : Call} {ctx1 ctx2 : Ctx} {h : Nat}
    (H : Hist y (l1 ++ (c2, .granted ctx2) :: (l2 ++ (c1, .granted ctx1) :: l3)) s) (k1 : handlerOf y c1 = some h) (k2 : handlerOf y c2 = some h)
    (fresh : (l1 ++ (c2, .granted ctx2) :: (l2 ++ (c1, .granted ctx1) :: l3)).Pairwise
      (fun a b => Issues y h a → Issues y h b → a.1.env.rngOut ≠ b.1.env.rngOut)) :
    c1.payload ≠ c2.payload := by
  intro he
  obtain ⟨d, T, a, c', b, p1, p2, p3, p4, p5, p6, p7⟩ := single_use wf H k2
  have H1 : Hist y ((l1 ++ (c2, .granted ctx2) :: l2) ++ (c1, .granted ctx1) :: l3) s := by simpa using H
  obtain ⟨d', T', a', c'', b', q1, q2, q3, q4, q5, q6, q7⟩ := single_use wf H1 k1
  have hd : d' = d := by rw [he, p1] at q1; cases q1; rfl
  subst hd
  -- the challenge for the second grant came after the first grant
  have hpos : ∃ m, l2 = a ++ (c', .challenge T) :: m := by
    rcases List.append_eq_append_iff.mp p2 with ⟨m, e1, e2⟩ | ⟨m, e1, e2⟩
    · cases m with
      | nil => simp at e2
      | cons x m =>
        rw [List.cons_append, List.cons.injEq] at e2
        exfalso
        have := (p7 (c1, .granted ctx1) (by rw [e1, e2.1]; simp)).2
        exact this ⟨k1, ctx1, rfl⟩
    · cases m with
      | nil => simp at e2
      | cons x m =>
        rw [List.cons_append, List.cons.injEq] at e2
        exact ⟨m, by rw [e1, e2.1]⟩
  obtain ⟨m, rfl⟩ := hpos
  subst q2
  -- so the nonces of both are different
  have hne : c'.env.rngOut ≠ c''.env.rngOut := by
    have f1 := (List.pairwise_append.mp fresh).2.1
    rw [List.pairwise_cons] at f1
    have f2 := f1.2
    rw [List.append_assoc] at f2
    have f3 := (List.pairwise_append.mp f2).2.1
    rw [List.cons_append, List.pairwise_cons] at f3
    have i1 : Issues y h (c', .challenge T) := by
      refine ⟨p3, ?_, T, rfl⟩
      obtain ⟨s1, s2, H2, cw, hs⟩ := Hist.cut (l1 := l1 ++ (c2, .granted ctx2) :: a) (c := c') (out := .challenge T)
        (l2 := m ++ (c1, .granted ctx1) :: (a' ++ (c'', .challenge T') :: b')) (by simpa using H)
      exact (challenge_made_from wf H2 cw hs p3).1
    have i2 : Issues y h (c'', .challenge T') := by
      refine ⟨q3, ?_, T', rfl⟩
      obtain ⟨s1, s2, H2, cw, hs⟩ := Hist.cut (l1 := l1 ++ (c2, .granted ctx2) :: (a ++ (c', .challenge T) :: m) ++ (c1, .granted ctx1) :: a')
        (c := c'') (out := .challenge T') (l2 := b') (by simpa using H)
      exact (challenge_made_from wf H2 cw hs q3).1
    exact f3.1 (c'', .challenge T') (by simp) i1 i2
  apply hne
  -- but both are at the same place of the payload
  have key : ∀ (c : Call) (T : Bytes), c.env.rngOut.length = (y.handler h).nonceLen → MadeFrom (y.handler h) c.env T → Carries (y.handler h) T d' →
      window d' (tokenPos (y.handler h).fmt + (y.handler h).dataLen) (y.handler h).nonceLen = c.env.rngOut := by
    rintro c T hn ⟨sig, _, rfl⟩ ⟨pre, aad, sg, e, hpre, _⟩
    have hp : (padded (y.handler h) (y.handler h).tag).length = (y.handler h).dataLen := by
      apply padded_length
      cases hg : (y.handler h).tag with
      | none => rfl
      | some x =>
        have := (wf h).tag x hg
        simp only [tooLong, decide_eq_false_iff_not]; omega
    have e' : d' = pre ++ (padded (y.handler h) (y.handler h).tag ++ (c.env.rngOut ++ (sig ++ aad ++ sg))) := by
      rw [e]; simp only [List.append_assoc]
    rw [e', ← hpre, window_after, ← hp]
    have := window_after (padded (y.handler h) (y.handler h).tag) (c.env.rngOut ++ (sig ++ aad ++ sg)) 0 (y.handler h).nonceLen
    rw [Nat.add_zero] at this
    rw [this, window_prefix _ _ _ _ (by omega), window_self _ _ hn]
  have w1 : c'.env.rngOut.length = (y.handler h).nonceLen := by
    obtain ⟨s1, s2, H2, cw, hs⟩ := Hist.cut (l1 := l1 ++ (c2, .granted ctx2) :: a) (c := c') (out := .challenge T)
        (l2 := m ++ (c1, .granted ctx1) :: (a' ++ (c'', .challenge T') :: b')) (by simpa using H)
    exact cw.nonce h p3
  have w2 : c''.env.rngOut.length = (y.handler h).nonceLen := by
    obtain ⟨s1, s2, H2, cw, hs⟩ := Hist.cut (l1 := l1 ++ (c2, .granted ctx2) :: (a ++ (c', .challenge T) :: m) ++ (c1, .granted ctx1) :: a')
        (c := c'') (out := .challenge T') (l2 := b') (by simpa using H)
    exact cw.nonce h q3
  rw [← key c' T w1 p4 p5, ← key c'' T' w2 q4 q5]

theorem message_parts {f : Fmt} {T aad sig : Bytes} (h1 : T.length < 65536) (h2 : aad.length < 65536) (h3 : f = .tokenOnly → aad = []) (h0 : T ≠ []) :
    (message f T aad).length = tokenPos f + T.length + aad.length ∧ window (message f T aad ++ sig) (tokenPos f) T.length = T ∧
    tokenOffset f (message f T aad ++ sig) = .ok (tokenPos f) ∧ aadLength f (message f T aad ++ sig) = .ok aad.length ∧
    authenticatedData f (message f T aad ++ sig) = .ok (if aad = [] then none else some aad) := by
  have hT : 0 < T.length := List.length_pos_iff.mpr h0
  cases f with
  | tokenOnly =>
    have ha := h3 rfl
    subst ha
    have hl : ¬ (T ++ sig).length = 0 := by rw [List.length_append]; omega
    refine ⟨by simp [message, tokenPos], ?_, ?_, ?_, ?_⟩
    · simp only [message, tokenPos]; rw [window_prefix _ _ _ _ (by omega), window_self _ _ rfl]
    · rw [show message .tokenOnly T [] = T from rfl]; simp only [tokenOffset]; rw [if_neg hl]; rfl
    · rw [show message .tokenOnly T [] = T from rfl]; simp only [aadLength]; rw [if_neg hl]; rfl
    · rw [show message .tokenOnly T [] = T from rfl]; simp only [authenticatedData]; rw [if_neg hl]; rfl
  | withAad =>
    have hm : message .withAad T aad ++ sig = (toLE 2 T.length ++ toLE 2 aad.length) ++ (T ++ (aad ++ sig)) := by
      simp only [message, List.append_assoc]
    have ht : hdrTok (message .withAad T aad ++ sig) = T.length := by
      have e : message .withAad T aad ++ sig = toLE 2 T.length ++ (toLE 2 aad.length ++ (T ++ (aad ++ sig))) := by rw [hm, List.append_assoc]
      unfold hdrTok u16
      rw [e, window_prefix _ _ _ _ (by simp), window_self _ _ (by simp), leNat_toLE, Nat.mod_eq_of_lt (by omega)]
    have ha : hdrAad (message .withAad T aad ++ sig) = aad.length := by
      have e : message .withAad T aad ++ sig = toLE 2 T.length ++ (toLE 2 aad.length ++ (T ++ (aad ++ sig))) := by rw [hm, List.append_assoc]
      unfold hdrAad u16
      have := window_after (toLE 2 T.length) (toLE 2 aad.length ++ (T ++ (aad ++ sig))) 0 2
      rw [toLE_length, Nat.add_zero] at this
      rw [e, this, window_prefix _ _ _ _ (by simp), window_self _ _ (by simp), leNat_toLE, Nat.mod_eq_of_lt (by omega)]
    have hl : (message .withAad T aad ++ sig).length = 4 + T.length + aad.length + sig.length := by
      rw [hm]; simp only [List.length_append, toLE_length]; omega
    have hg : getHeader (message .withAad T aad ++ sig) = .ok () := by
      unfold getHeader
      rw [ht, ha, if_neg (by omega), if_neg (by omega)]
    refine ⟨?_, ?_, ?_, ?_, ?_⟩
    · rw [List.length_append] at hl; simp only [tokenPos]; omega
    · have := window_after (toLE 2 T.length ++ toLE 2 aad.length) (T ++ (aad ++ sig)) 0 T.length
      simp only [List.length_append, toLE_length, Nat.add_zero] at this
      rw [hm]; simp only [tokenPos]
      rw [this, window_prefix _ _ _ _ (by omega), window_self _ _ rfl]
    · simp only [tokenOffset, hg]
      rw [if_pos (by rw [ht]; omega)]; rfl
    · simp only [aadLength, hg, ha]
    · simp only [authenticatedData, hg]
      by_cases h : aad = []
      · rw [if_neg (by rw [ha, h]; simp), if_pos h]
      · rw [if_pos (by rw [ha]; simpa using h), if_neg h, ht, ha]
        have e : message .withAad T aad ++ sig = (toLE 2 T.length ++ toLE 2 aad.length ++ T) ++ (aad ++ sig) := by
          rw [hm]; simp only [List.append_assoc]
        have := window_after (toLE 2 T.length ++ toLE 2 aad.length ++ T) (aad ++ sig) 0 aad.length
        have e4 : (toLE 2 T.length ++ toLE 2 aad.length ++ T).length = 4 + T.length := by simp only [List.length_append, toLE_length]
        rw [e4, Nat.add_zero] at this
        rw [e, this, window_prefix _ _ _ _ (by omega), window_self _ _ rfl]

/-- C47. The right answer to a challenge is accepted: with a signature of the authority, in time and if nothing fails. -/
theorem honest_granted {y : Sys} (wf : ∀ h, (y.handler h).WF) {past : List (Call × Out)} {s s' : Nat → St} (H : Hist y past s) {c : Call} (cw : c.WF y)
    {T : Bytes} {h : Nat} (hk : handlerOf y c = some h) (hs : authorizeOperation y s c.id c.env c.payload = (s', .challenge T)) (h0 : T ≠ [])
    (h64 : T.length < 65536) {aad sig : Bytes} (ha : aad.length < 65536) (hf : (y.handler h).fmt = .tokenOnly → aad = []) {e : Env} (hsig : sig ≠ [])
    (hok : (y.handler h).sigOk (y.handler h).authHash (message (y.handler h).fmt T aad) sig = true)
    (htime : (y.handler h).validity ≠ 0 → e.now < c.env.now + (y.handler h).validity) (h1 : e.timerFails = false) (h2 : e.engineFails = false) :
    (authorize (y.handler h) (s' h) e (some (message (y.handler h).fmt T aad ++ sig))).2 = .granted := by
  obtain ⟨hp, _, L⟩ := challenge_live wf H cw hs hk
  obtain ⟨m1, m2, m3, m4, _⟩ := message_parts (sig := sig) h64 ha hf h0
  have hT : 0 < T.length := List.length_pos_iff.mpr h0
  have hs1 : 0 < sig.length := List.length_pos_iff.mpr hsig
  have h4 : tokenPos (y.handler h).fmt ≤ 4 := by cases (y.handler h).fmt <;> decide
  have hl := L.len
  have hsz : (tokenPos (y.handler h).fmt + (s' h).tokenLen + aad.length) % SZ = (message (y.handler h).fmt T aad).length := by
    rw [m1, Nat.mod_eq_of_lt (by unfold SZ; omega)]; omega
  have ht : timerCheck (y.handler h) (s' h) e = none := by
    unfold timerCheck
    by_cases hv : (y.handler h).validity = 0
    · rw [if_pos hv]
    · have := htime hv; have := L.exp hv
      rw [if_neg hv, h1, if_neg (by simp), if_neg (by omega)]
  have hv : verifyData (y.handler h) (s' h) e (message (y.handler h).fmt T aad ++ sig) (tokenPos (y.handler h).fmt) aad.length = .ok () := by
    unfold verifyData
    simp only [hsz, ht]
    rw [if_pos (by rw [List.length_append]; omega), if_neg (by rw [List.length_append]; omega), if_neg (by rw [← hl, m2, L.len, L.bytes]; simp),
      h2, if_neg (by simp), window_prefix _ _ _ _ (by omega), window_self _ _ rfl]
    have := window_after (message (y.handler h).fmt T aad) sig 0 sig.length
    rw [Nat.add_zero] at this
    rw [List.length_append, Nat.add_sub_cancel_left, this, window_self _ _ rfl, hok, if_pos rfl]
  simp only [authorize, respond, m3, m4, hv]

theorem getHeader_err {d : Bytes} {x : Err} (h : getHeader d = .error x) : x = .badData := by
  unfold getHeader at h
  split at h
  · cases h; rfl
  · split at h <;> cases h; rfl

theorem verifyData_inside {c : Cfg} {s : St} {e : Env} {d : Bytes} {off aad : Nat} (hsz : off + s.tokenLen + aad < SZ) :
    verifyData c s e d off aad ≠ .error .overread := by
  unfold verifyData
  simp only [Nat.mod_eq_of_lt hsz]
  intro h
  split at h
  · rename_i h1
    split at h
    · rename_i x h2
      cases h
      unfold timerCheck at h2
      split at h2
      · cases h2
      · split at h2
        · cases h2
        · split at h2 <;> cases h2
    · split at h
      · omega
      · split at h
        · cases h
        · split at h
          · cases h
          · split at h <;> cases h
  · cases h

/-- C47. No request makes a challenge handler read outside the payload. -/
theorem no_overread {y : Sys} (wf : ∀ h, (y.handler h).WF) {past : List (Call × Out)} {s s' : Nat → St} (H : Hist y past s) {c : Call} {h : Nat}
    (hk : handlerOf y c = some h) : authorizeOperation y s c.id c.env c.payload ≠ (s', .refused .overread) := by
  obtain ⟨o, ho, ha, hq⟩ := handlerOf_some hk
  intro hs
  rw [hq s] at hs
  have A := agrees wf H h
  have hout := (Prod.mk.inj hs).2
  have hctx : context o c.payload ≠ .refused .overread := by
    intro hc
    unfold context at hc
    split at hc
    · rename_i x hx
      cases hc
      unfold opData at hx
      split at hx
      · rename_i d f _ _
        unfold authenticatedData at hx
        split at hx
        · split at hx <;> cases hx
        · split at hx
          · rename_i hg; cases hx; cases getHeader_err hg
          · split at hx <;> cases hx
      · cases hx
    · split at hc
      · cases hc
      · split at hc <;> cases hc
  cases hp : c.payload with
  | none =>
    rw [hp] at hout hctx
    simp only [authorize, challenge] at hout
    split at hout
    · cases hout
    · rename_i x hn
      cases hout
      unfold newToken at hn
      split at hn
      · cases hn
      · simp only at hn
        split at hn
        · cases hn
        · split at hn
          · cases hn
          · split at hn <;> cases hn
  | some d =>
    rw [hp] at hout hctx
    simp only [authorize, respond] at hout
    split at hout
    · rename_i x hx
      cases hout
      unfold tokenOffset at hx
      split at hx
      · split at hx <;> cases hx
      · split at hx
        · rename_i hg; cases hx; cases getHeader_err hg
        · split at hx <;> cases hx
    · rename_i off hoff
      split at hout
      · rename_i x hx
        cases hout
        unfold aadLength at hx
        split at hx
        · split at hx <;> cases hx
        · split at hx
          · rename_i hg; cases hx; cases getHeader_err hg
          · cases hx
      · rename_i aad haad
        have h1 := (tokenOffset_ok hoff).1
        have h2 := (aadLength_ok haad).1
        have h3 := (wf h).small
        have h4 : tokenPos (y.handler h).fmt ≤ 4 := by cases (y.handler h).fmt <;> decide
        have h5 := A.len
        split at hout
        · exact hctx hout
        · cases hout
        · rename_i hv
          cases hout
          exact verifyData_inside (by omega) hv

/-! ### C48 -/

/-- What the authority signs has a header that tells the truth: a token of the length it says, then the additional data, and nothing else. -/
def TruthfulAuthority (c : Cfg) : Prop :=
  ∀ m sig, c.sigOk c.authHash m sig = true → m.length = 4 + hdrTok m + hdrAad m

/-- C48 in full: the additional data of a granted operation is a part of a message the authority signed. -/
def DataSigned (c : Cfg) (d x : Bytes) : Prop :=
  ∃ n sig off, c.sigOk c.authHash (window d 0 n) sig = true ∧ off + x.length ≤ n ∧ n ≤ d.length ∧ x = window d off x.length

theorem u16_take (d : Bytes) (n o : Nat) (h : o + 2 ≤ n) : u16 (window d 0 n) o = u16 d o := by
  unfold u16
  rw [ManifestFlash.window_window _ _ _ _ _ h, Nat.zero_add]

/-- C48. With an authority that signs only properly formed messages, the data an operation gets was signed. What is missing is that nothing checks the
token length of the header against the token, see `data_unsigned`. -/
theorem data_signed_partial {y : Sys} (wf : ∀ h, (y.handler h).WF) {past : List (Call × Out)} {s s' : Nat → St} (H : Hist y past s) {c : Call}
    {ctx : Ctx} (hs : authorizeOperation y s c.id c.env c.payload = (s', .granted ctx)) {h : Nat} (hk : handlerOf y c = some h)
    (hfmt : ∀ o, findOp y.ops c.id = some o → ∀ f, o.data = some f → f = (y.handler h).fmt) (ta : TruthfulAuthority (y.handler h)) {x : Bytes}
    (hx : ctx.data = some x) : ∃ d, c.payload = some d ∧ DataSigned (y.handler h) d x := by
  obtain ⟨d, off, aad, p1, p2, p3, p4, p5⟩ := granted_verified wf H hs hk
  obtain ⟨o, ho, ha, hq⟩ := handlerOf_some hk
  rw [hq s] at hs
  have g := (outOf_granted (Prod.mk.inj hs).2).2
  rw [p1] at g
  unfold opData at g
  cases hf : o.data with
  | none => rw [hf] at g; simp only at g; rw [hx] at g; cases g
  | some f =>
    have hff := hfmt o ho f hf
    rw [hf] at g
    simp only at g
    subst hff
    cases hw : (y.handler h).fmt with
    | tokenOnly =>
      rw [hw] at g
      simp only [authenticatedData] at g
      split at g
      · cases g
      · rw [hx] at g; cases g
    | withAad =>
      rw [hw] at g p2 p3
      simp only [authenticatedData] at g
      split at g
      · cases g
      · split at g
        · rw [hx] at g
          cases g
          obtain ⟨v0, v1, v2, v3, v4⟩ := verifyData_ok p4 p5
          have e1 := (tokenOffset_ok p2).1
          have e2 := (aadLength_ok p3).2.1 rfl
          have e3 := ta _ _ v4
          simp only [tokenPos] at e1
          have l1 : (window d 0 (off + (s h).tokenLen + aad)).length = off + (s h).tokenLen + aad := by rw [window_length]; omega
          have t1 : hdrTok (window d 0 (off + (s h).tokenLen + aad)) = hdrTok d := u16_take _ _ _ (by omega)
          have t2 : hdrAad (window d 0 (off + (s h).tokenLen + aad)) = hdrAad d := u16_take _ _ _ (by omega)
          rw [l1, t1, t2] at e3
          have l2 : (window d (4 + hdrTok d) (hdrAad d)).length = hdrAad d := by rw [window_length]; omega
          exact ⟨d, p1, _, _, 4 + hdrTok d, v4, by rw [l2]; omega, by omega, by rw [l2]⟩
        · rw [hx] at g; cases g

/-- C48 for operations authorized with signed data without a token: the data was signed, without any condition on the authority. -/
theorem global_data_signed {y : Sys} {s s' : Nat → St} {id : Nat} {e : Env} {p : Option Bytes} {ctx : Ctx}
    (hs : authorizeOperation y s id e p = (s', .granted ctx)) {o : Op} (ho : findOp y.ops id = some o) {g : GCfg} (hg : o.auth = some (.global g))
    {x : Bytes} (hx : ctx.data = some x) :
    ∃ d n sig off, p = some d ∧ g.sigOk g.hash (window d 0 n) sig = true ∧ off + x.length ≤ n ∧ n ≤ d.length ∧ x = window d off x.length := by
  unfold authorizeOperation at hs
  rw [ho] at hs
  simp only [hg, askAuth] at hs
  obtain ⟨q1, q2⟩ := outOf_granted (Prod.mk.inj hs).2
  cases p with
  | none => cases q1
  | some d =>
    simp only [globalAuthorize] at q1
    split at q1
    · cases q1
    · split at q1
      · cases q1
      · rename_i sl hsl
        split at q1
        · cases q1
        · split at q1
          · rename_i hok
            simp only [signatureLength] at hsl
            split at hsl
            · cases hsl
            · rename_i hh
              have hb := getHeader_ok hh
              split at hsl
              · cases hsl
              · cases hsl
                unfold opData at q2
                cases hf : o.data with
                | none => rw [hf] at q2; simp only at q2; rw [hx] at q2; cases q2
                | some f =>
                  rw [hf] at q2
                  simp only at q2
                  cases f with
                  | tokenOnly =>
                    simp only [authenticatedData] at q2
                    split at q2
                    · cases q2
                    · rw [hx] at q2; cases q2
                  | withAad =>
                    simp only [authenticatedData, hh] at q2
                    split at q2
                    · rw [hx] at q2
                      cases q2
                      have l2 : (window d (4 + hdrTok d) (hdrAad d)).length = hdrAad d := by rw [window_length]; omega
                      exact ⟨d, _, _, 4 + hdrTok d, rfl, hok, by rw [l2]; omega, by omega, by rw [l2]⟩
                    · rw [hx] at q2; cases q2
          · cases q1

/-! ### A concrete device -/

namespace Ex

/-- The authority accepts one signature, `[0xaa]`, for any message of the right form; nonces of two bytes, signatures of one byte. -/
def cfg : Cfg where
  dataLen := 5
  nonceLen := 2
  sigMax := 1
  bufLen := 8
  validity := 100
  tag := some [1, 2, 3, 4]
  fmt := .withAad
  authHash := 1
  sigOk := fun _ m s => s == [0xaa] && m.length == 4 + hdrTok m + hdrAad m

def y : Sys := ⟨fun _ => cfg, [⟨7, some (.challenge 3), some .withAad, some (9, fun d => d == some [0x42])⟩]⟩

def s0 : Nat → St := fun _ => ⟨0, List.replicate 8 0, 0⟩

def env (now : Nat) (n : Bytes) : Env := ⟨now, true, n, fun m => some [UInt8.ofNat m.length], false, false⟩

def ask : Call := ⟨7, none, env 1000 [0x11, 0x12]⟩
def token : Bytes := [1, 2, 3, 4, 0, 0x11, 0x12, 7]
def reply : Bytes := [8, 0, 1, 0] ++ token ++ [0x42] ++ [0xaa]
def bad : Call := ⟨7, some [8, 0, 1, 0, 0, 1], env 1010 [1, 1]⟩
def good : Call := ⟨7, some reply, env 1099 [1, 1]⟩
def late : Call := ⟨7, some reply, env 1100 [1, 1]⟩

theorem cfgWF : cfg.WF := ⟨by decide, by intro x hx; cases hx; decide, by decide⟩
theorem wf : ∀ h, (y.handler h).WF := fun _ => cfgWF

theorem callWF (c : Call) (h1 : c.env.rngOut.length = 2) (h2 : c.env.sign = fun m => some [UInt8.ofNat m.length]) (h3 : ∀ d, c.payload = some d → d.length < SZ) :
    c.WF y :=
  ⟨fun _ _ => h1, fun _ _ m s hs => by rw [h2] at hs; cases hs; exact Nat.le_refl 1, h3⟩

/-- The next state and answer. -/
def next (s : Nat → St) (c : Call) : (Nat → St) × Out := authorizeOperation y s c.id c.env c.payload

theorem hist_next {past : List (Call × Out)} {s : Nat → St} (H : Hist y past s) {c : Call} (cw : c.WF y) : Hist y ((c, (next s c).2) :: past) (next s c).1 :=
  Hist.step H cw rfl

theorem h0 : Hist y [] s0 := .init fun _ => ⟨rfl, rfl⟩
theorem askWF : ask.WF y := callWF _ rfl rfl (by intro d hd; cases hd)
theorem h1 : Hist y [(ask, .challenge token)] (next s0 ask).1 := by
  have := hist_next h0 askWF
  rwa [show (next s0 ask).2 = .challenge token by decide +kernel] at this
theorem badWF : bad.WF y := callWF _ rfl rfl (by intro d hd; cases hd; decide)
theorem h2 : Hist y [(bad, .refused .badData), (ask, .challenge token)] (next (next s0 ask).1 bad).1 := by
  have := hist_next h1 badWF
  rwa [show (next (next s0 ask).1 bad).2 = .refused .badData by decide +kernel] at this
theorem goodWF : good.WF y := callWF _ rfl rfl (by intro d hd; cases hd; decide)
theorem good_out : (next (next (next s0 ask).1 bad).1 good).2 = .granted ⟨some 9, some [0x42]⟩ := by decide +kernel
theorem h3 : Hist y [(good, .granted ⟨some 9, some [0x42]⟩), (bad, .refused .badData), (ask, .challenge token)] (next (next (next s0 ask).1 bad).1 good).1 := by
  have := hist_next h2 goodWF
  rwa [good_out] at this

def ask2 : Call := ⟨7, none, env 2000 [0x21, 0x22]⟩
def token2 : Bytes := [1, 2, 3, 4, 0, 0x21, 0x22, 7]
def good2 : Call := ⟨7, some ([8, 0, 1, 0] ++ token2 ++ [0x42] ++ [0xaa]), env 2001 [1, 1]⟩
def s3 : Nat → St := (next (next (next s0 ask).1 bad).1 good).1
theorem h5 : ∃ s, Hist y [(good2, .granted ⟨some 9, some [0x42]⟩), (ask2, .challenge token2), (good, .granted ⟨some 9, some [0x42]⟩),
    (bad, .refused .badData), (ask, .challenge token)] s := by
  have a : ask2.WF y := callWF _ rfl rfl (by intro d hd; cases hd)
  have b : good2.WF y := callWF _ rfl rfl (by intro d hd; cases hd; decide)
  have h4 := hist_next (show Hist y _ s3 from h3) a
  rw [show (next s3 ask2).2 = .challenge token2 by decide +kernel] at h4
  have h5 := hist_next h4 b
  rw [show (next (next s3 ask2).1 good2).2 = .granted ⟨some 9, some [0x42]⟩ by decide +kernel] at h5
  exact ⟨_, h5⟩

end Ex

example : Ex.good.payload ≠ Ex.good2.payload := by
  obtain ⟨s, H⟩ := Ex.h5
  refine no_replay Ex.wf (l1 := []) (l2 := [(Ex.ask2, .challenge Ex.token2)]) (h := 3) H (by decide +kernel) (by decide +kernel) ?_
  have ng : ∀ (c : Call) ctx, ¬ Issues Ex.y 3 (c, .granted ctx) := by rintro c ctx ⟨_, _, T, h⟩; cases h
  have nr : ∀ (c : Call) e, ¬ Issues Ex.y 3 (c, .refused e) := by rintro c e ⟨_, _, T, h⟩; cases h
  simp only [List.nil_append, List.cons_append, List.pairwise_cons, List.mem_cons, List.not_mem_nil, or_false, List.Pairwise.nil, and_true]
  refine ⟨fun b _ h => absurd h (ng _ _), ?_, fun b _ h => absurd h (ng _ _), fun b _ h => absurd h (nr _ _), fun b h => (nomatch h)⟩
  rintro b (rfl | rfl | rfl) _ h
  · exact absurd h (ng _ _)
  · exact absurd h (nr _ _)
  · decide

-- a challenge, a bad answer, the right answer one tick before the end
example : ∃ d T t, Ex.good.payload = some d ∧ active Ex.y 3 [(Ex.bad, .refused .badData), (Ex.ask, .challenge Ex.token)] = some (T, t) ∧
    Carries Ex.cfg T d ∧ (Ex.cfg.validity ≠ 0 → Ex.good.env.now < t + Ex.cfg.validity) :=
  granted_carries_active Ex.wf Ex.h2 (c := Ex.good) (ctx := ⟨some 9, some [0x42]⟩) (h := 3)
    (Prod.ext rfl Ex.good_out) (by decide +kernel)

example := single_use Ex.wf (l1 := []) Ex.h3 (h := 3) (by decide +kernel)
example : MadeFrom Ex.cfg Ex.ask.env Ex.token :=
  (challenge_made_from Ex.wf Ex.h0 Ex.askWF (T := Ex.token) (h := 3) (s' := (Ex.next Ex.s0 Ex.ask).1)
    (Prod.ext rfl (by decide +kernel)) (by decide +kernel)).2
example : authorizeOperation Ex.y (Ex.next Ex.s0 Ex.ask).1 Ex.bad.id Ex.bad.env Ex.bad.payload ≠ (Ex.s0, .refused .overread) :=
  no_overread Ex.wf Ex.h1 (h := 3) (by decide +kernel)
-- one tick later, and a second time: refused
example : (Ex.next (Ex.next Ex.s0 Ex.ask).1 Ex.late).2 = .refused .notAuthorized := by decide +kernel
example : (Ex.next (Ex.next (Ex.next (Ex.next Ex.s0 Ex.ask).1 Ex.bad).1 Ex.good).1 Ex.good).2 = .refused .notAuthorized := by decide +kernel
example : (authorize Ex.cfg ((Ex.next Ex.s0 Ex.ask).1 3) (Ex.env 1050 []) (some (message .withAad Ex.token [5, 6] ++ [0xaa]))).2 = .granted :=
  honest_granted Ex.wf Ex.h0 Ex.askWF (T := Ex.token) (h := 3) (by decide +kernel) (Prod.ext rfl (by decide +kernel)) (by decide) (by decide) (by decide)
    (by decide) (by decide) (by decide +kernel) (by decide) rfl rfl
theorem Ex.truthful : TruthfulAuthority Ex.cfg := by
  intro m sig h
  simp only [Ex.cfg, Bool.and_eq_true, beq_iff_eq] at h
  exact h.2
example : ∃ d, Ex.good.payload = some d ∧ DataSigned Ex.cfg d [0x42] :=
  data_signed_partial Ex.wf Ex.h2 (c := Ex.good) (ctx := ⟨some 9, some [0x42]⟩) (h := 3) (Prod.ext rfl Ex.good_out) (by decide +kernel)
    (by intro o ho f hf; cases ho; cases hf; rfl) Ex.truthful rfl

example : ∃ d n sig off, some [1, 0, 2, 0, 9, 5, 6, 0xaa] = some d ∧ (fun (_ : Nat) (_ s : Bytes) => s == [0xaa]) 1 (window d 0 n) sig = true ∧
    off + [(5 : UInt8), 6].length ≤ n ∧ n ≤ d.length ∧ [5, 6] = window d off [(5 : UInt8), 6].length :=
  global_data_signed (y := ⟨fun _ => Ex.cfg, [⟨1, some (.global ⟨1, fun _ _ s => s == [0xaa]⟩), some .withAad, none⟩]⟩) (s := Ex.s0) (id := 1)
    (e := Ex.env 0 []) (ctx := ⟨none, some [5, 6]⟩) (Prod.ext rfl (by decide +kernel)) rfl rfl rfl

/-- C48 fails for a signed header whose token length is larger than the token: the operation gets a byte of the signature as its data. -/
theorem data_unsigned : ∃ (y : Sys) (past : List (Call × Out)) (s s' : Nat → St) (c : Call) (h : Nat) (ctx : Ctx) (d x : Bytes),
    (∀ h, (y.handler h).WF) ∧ Hist y past s ∧ c.WF y ∧ handlerOf y c = some h ∧ authorizeOperation y s c.id c.env c.payload = (s', .granted ctx) ∧
    c.payload = some d ∧ ctx.data = some x ∧ ¬ DataSigned (y.handler h) d x := by
  let d : Bytes := [5, 0, 1, 0, 7, 8, 9, 0x33, 0x55, 0x66]
  let cfg : Cfg := ⟨0, 2, 1, 3, 0, none, .withAad, 1, fun _ m s => m == [5, 0, 1, 0, 7, 8, 9, 0x33] && s == [0x55, 0x66]⟩
  let y : Sys := ⟨fun _ => cfg, [⟨0, some (.challenge 0), some .withAad, none⟩]⟩
  let s0 : Nat → St := fun _ => ⟨0, [0, 0, 0], 0⟩
  let e : Env := ⟨0, true, [7, 8], fun _ => some [9], false, false⟩
  let c0 : Call := ⟨0, none, e⟩
  let c1 : Call := ⟨0, some d, e⟩
  have cw : ∀ c : Call, c.env = e → (∀ d, c.payload = some d → d.length < SZ) → c.WF y := by
    intro c hc hd
    refine ⟨fun _ _ => by rw [hc]; rfl, fun _ _ m s hs => ?_, hd⟩
    rw [hc] at hs; cases hs; exact Nat.le_refl 1
  refine ⟨y, [(c0, (authorizeOperation y s0 0 e none).2)], (authorizeOperation y s0 0 e none).1,
    (authorizeOperation y (authorizeOperation y s0 0 e none).1 0 e (some d)).1, c1, 0, ⟨none, some [0x66]⟩, d, [0x66], ?_, ?_, ?_, ?_, ?_, rfl, rfl, ?_⟩
  · have : cfg.WF := ⟨by decide, (by intro x hx; cases hx), by decide⟩
    exact fun _ => this
  · exact Hist.step (c := c0) (.init fun _ => ⟨rfl, rfl⟩) (cw c0 rfl (by intro d hd; cases hd)) rfl
  · exact cw c1 rfl (by intro d hd; cases hd; decide)
  · decide +kernel
  · exact Prod.ext rfl (by decide +kernel)
  · rintro ⟨n, sig, off, h1, h2, h3, h4⟩
    have h1 : (window d 0 n == [5, 0, 1, 0, 7, 8, 9, 0x33] && sig == [0x55, 0x66]) = true := h1
    simp only [Bool.and_eq_true, beq_iff_eq] at h1
    have hn : n = 8 := by
      have := congrArg List.length h1.1
      rw [window_length] at this
      simp only [List.length_cons, List.length_nil] at this h3
      have : d.length = 10 := rfl
      omega
    subst hn
    have ho : off < 8 := by simp at h2; omega
    have : ∀ k : Fin 8, [(0x66 : UInt8)] ≠ window d k.val 1 := by decide +kernel
    exact this ⟨off, ho⟩ h4

end Verif.AuthToken
