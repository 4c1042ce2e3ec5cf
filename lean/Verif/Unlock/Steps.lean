import Verif.Unlock.Lemmas
/-! What single calls do. -/
namespace Verif.Unlock
open ManifestFlash (window_prefix window_after window_self)
open AuthToken (Live)

theorem Cfg.WF.toTok {c : Cfg} (wf : c.WF) : c.tok.WF :=
  ⟨wf.room, (by intro x h; rw [wf.tag] at h; cases h), by have := wf.small; unfold AuthToken.SZ; omega⟩

/-- What `generate` does. -/
theorem generate_cases {c : Cfg} (wf : c.WF) {s s' : AuthToken.St} {e : Env} {ctr buf : Bytes} {evs : List Ev} {out : R Bytes}
    (cw : ∀ op, (∀ d, op ≠ .apply d) → Call.WF c op e) (hb : s.buffer.length = c.tok.bufLen) (h : generate c s e ctr buf = (s', evs, out)) :
    (evs = [] ∧ (∃ x, out = .err x) ∧ (s' = s ∨ s'.tokenLen = 0) ∧ s'.buffer.length = c.tok.bufLen) ∨
    (∃ T, evs = [.issued T] ∧ ctr.length = c.counterLen ∧ MadeFrom c e ctr T ∧ Live c.tok s' T e.tok.now ∧ s'.buffer.length = c.tok.bufLen ∧
      s'.tokenLen ≤ c.tok.bufLen ∧ (out = if T.length ≤ buf.length then .ok T else .err .smallBuffer)) := by
  have cw := cw .clear (by intro d hd; cases hd)
  unfold generate at h
  split at h
  · cases h; exact .inl ⟨rfl, ⟨_, rfl⟩, .inl rfl, hb⟩
  rename_i hc
  split at h
  · cases h; exact .inl ⟨rfl, ⟨_, rfl⟩, .inl rfl, hb⟩
  rename_i hbl
  have hcl : ctr.length = c.counterLen := by omega
  cases hu : e.uuid with
  | none =>
    rw [hu, tokenContext_none wf (by omega)] at h
    cases h; exact .inl ⟨rfl, ⟨_, rfl⟩, .inl rfl, hb⟩
  | some u =>
    have hul := cw.uuid u hu
    rw [hu, tokenContext_some wf hul hcl (by omega)] at h
    simp only at h
    have hcx : (contextOf c.oid u ctr).length = c.dataLength := by rw [contextOf_length hul, hcl]; rfl
    rw [List.take_left' hcx] at h
    have htl : AuthToken.tooLong c.tok (some (contextOf c.oid u ctr)) = false := by
      simp only [AuthToken.tooLong, hcx, wf.data]; simp
    have hpad : AuthToken.padded c.tok (some (contextOf c.oid u ctr)) = contextOf c.oid u ctr := by
      simp only [AuthToken.padded, hcx, wf.data, Nat.sub_self, List.replicate_zero, List.append_nil]
    cases hnt : AuthToken.newToken c.tok s e.tok (some (contextOf c.oid u ctr)) with
    | mk s1 r =>
      obtain ⟨b1, b2⟩ := AuthToken.newToken_ok wf.toTok hb cw.nonce cw.sig htl hnt
      rw [hnt] at h
      rcases b2 with ⟨x, rfl, b3⟩ | ⟨sig, g1, rfl, g3, g4, g5, g6⟩
      · cases h; exact .inl ⟨rfl, ⟨_, rfl⟩, .inr b3, b1⟩
      · rw [hpad] at g1 g3 g5 h
        simp only at h
        have L : Live c.tok s1 (contextOf c.oid u ctr ++ e.tok.rngOut ++ sig) e.tok.now := ⟨g5, g3.symm, g6⟩
        have M : MadeFrom c e ctr (contextOf c.oid u ctr ++ e.tok.rngOut ++ sig) := ⟨u, sig, hu, g1, rfl⟩
        split at h
        · rename_i hs
          cases h
          exact .inr ⟨_, rfl, hcl, M, L, b1, g4, by rw [if_neg (by omega)]⟩
        · rename_i hs
          cases h
          refine .inr ⟨_, rfl, hcl, M, L, b1, g4, ?_⟩
          rw [if_pos (by omega)]
          have hw := wrN_behind (ε := Err) [] (contextOf c.oid u ctr ++ buf.drop c.dataLength) (contextOf c.oid u ctr ++ e.tok.rngOut ++ sig) 0 rfl
            (by simp only [List.length_append, List.length_drop, hcx] at hs ⊢; omega)
          rw [List.nil_append] at hw
          rw [hw]
          simp only [Res.ok_bind, Res.pure_eq, List.nil_append]
          rw [List.take_left]

/-- What asking for a token does. -/
theorem getToken_cases {c : Cfg} (wf : c.WF) {s s' : AuthToken.St} {e : Env} {buf : Bytes} {evs : List Ev} {out : R Bytes}
    (cw : Call.WF c (.getToken buf) e) (hb : s.buffer.length = c.tok.bufLen) (h : policyGetToken c s e buf = (s', evs, out)) :
    (evs = [] ∧ (∃ x, out = .err x) ∧ (s' = s ∨ s'.tokenLen = 0) ∧ s'.buffer.length = c.tok.bufLen) ∨
    (∃ old ctr T, e.counter = some old ∧ Locked old ∧ NextOdd old ctr ∧ evs = [.issued T] ∧ ctr.length = c.counterLen ∧ MadeFrom c e ctr T ∧
      Live c.tok s' T e.tok.now ∧ s'.buffer.length = c.tok.bufLen ∧
      s'.tokenLen ≤ c.tok.bufLen ∧ (out = if T.length ≤ buf.length then .ok T else .err .smallBuffer)) := by
  unfold policyGetToken at h
  split at h
  · cases h; exact .inl ⟨rfl, ⟨_, rfl⟩, .inl rfl, hb⟩
  split at h
  · cases h; exact .inl ⟨rfl, ⟨_, rfl⟩, .inl rfl, hb⟩
  rename_i old hold
  split at h
  · cases h; exact .inl ⟨rfl, ⟨_, rfl⟩, .inl rfl, hb⟩
  rename_i hlk
  simp only at h
  split at h
  · cases h; exact .inl ⟨rfl, ⟨_, rfl⟩, .inl rfl, hb⟩
  rename_i hst
  have hL : Locked old := ⟨_, (CommonMath.numContiguousInArray_exact old _).mp rfl, by omega⟩
  obtain ⟨st, l', m, q1, q2, q3, q4, q5, q6⟩ := CommonMath.setNextBitOddCount_exact old
  rw [q1] at h hst
  have hN : NextOdd old l' := by
    refine ⟨q2, q4, m, q3, ?_, q5⟩
    rcases q6 with ⟨_, h⟩ | ⟨h, _⟩
    · exact h
    · exact absurd h hst
  rcases generate_cases wf (fun op hop => ⟨cw.nonce, cw.sig, cw.uuid, fun d hd => absurd hd (hop d)⟩) hb h with g | ⟨T, g1, g2, g3, g4, g5, g6, g7⟩
  · exact .inl g
  · exact .inr ⟨old, l', T, hold, hL, hN, g1, g2, g3, g4, g5, g6, g7⟩

/-- What authenticated data looks like. -/
theorem authenticate_ok {c : Cfg} (wf : c.WF) {s : AuthToken.St} {e : Env} {d : Bytes} (hd : d.length < 2 ^ 31) (hl : s.tokenLen ≤ c.tok.bufLen)
    (h : authenticate c s e d = .ok ()) :
    ∃ tl pl, parseContainer d = .ok ⟨2, tl, 2 + tl + 2, pl⟩ ∧ pl < 65536 ∧ tl < 65536 ∧ 2 + tl + 2 + pl ≤ d.length ∧
      window d 0 2 = toLE 2 tl ∧ window d (2 + tl) 2 = toLE 2 pl ∧ 2 + s.tokenLen + (2 + pl) < AuthToken.SZ ∧
      AuthToken.verifyData c.tok s e.tok d 2 (2 + pl) = .ok () := by
  have hsm := wf.small
  unfold authenticate at h
  rcases parseContainer_cases hd with g | ⟨tl, pl, g1, g2, g3, g4, g5, g6⟩
  · rw [g] at h; cases h
  · rw [g1] at h
    simp only [Res.ok_bind] at h
    split at h
    · rename_i hv
      exact ⟨tl, pl, g1, g3, g2, g4, g5, g6, by unfold AuthToken.SZ; omega, hv⟩
    · cases h
    · cases h

/-- `verify_data` reads only inside the data. -/
theorem verifyData_no_overread {c : AuthToken.Cfg} {s : AuthToken.St} {e : AuthToken.Env} {d : Bytes} {off aad : Nat}
    (hsz : off + s.tokenLen + aad < AuthToken.SZ) : AuthToken.verifyData c s e d off aad ≠ .error .overread := by
  intro h
  unfold AuthToken.verifyData at h
  simp only [Nat.mod_eq_of_lt hsz] at h
  split at h
  · rename_i h1
    split at h
    · rename_i x ht
      unfold AuthToken.timerCheck at ht
      split at ht
      · cases ht
      · split at ht
        · cases ht; cases h
        · split at ht
          · cases ht; cases h
          · cases ht
    · split at h
      · omega
      · split at h
        · cases h
        · split at h
          · cases h
          · split at h <;> cases h
  · cases h

theorem authenticate_ne_oob {c : Cfg} (wf : c.WF) {s : AuthToken.St} {e : Env} {d : Bytes} (hd : d.length < 2 ^ 31) (hl : s.tokenLen ≤ c.tok.bufLen) :
    authenticate c s e d ≠ .oob := by
  have hsm := wf.small
  unfold authenticate
  rcases parseContainer_cases hd with g | ⟨tl, pl, g1, g2, g3, g4, g5, g6⟩
  · rw [g]; simp
  · rw [g1]
    simp only [Res.ok_bind]
    have := verifyData_no_overread (c := c.tok) (s := s) (e := e.tok) (d := d) (off := 2) (aad := 2 + pl) (by unfold AuthToken.SZ; omega)
    split
    · simp
    · rename_i hv; exact absurd hv this
    · simp

/-- What applying a policy does. -/
theorem apply_cases {c : Cfg} (wf : c.WF) {s s' : AuthToken.St} {e : Env} {d : Bytes} {evs : List Ev} {out : R Bytes} (hd : d.length < 2 ^ 31)
    (hl : s.tokenLen ≤ c.tok.bufLen) (h : policyApply c s e d = (s', evs, out)) :
    (evs = [] ∧ s' = s ∧ ∃ x, out = .err x) ∨
    (authenticate c s e d = .ok () ∧
      ((e.unlockOk = true ∧ evs = [.unlock d true] ∧ s' = AuthToken.invalidate s ∧ out = .ok []) ∨
       (e.unlockOk = false ∧ evs = [.unlock d false] ∧ s' = s ∧ out = .err .manager))) := by
  unfold policyApply at h
  split at h
  · cases h; exact .inl ⟨rfl, rfl, _, rfl⟩
  · rename_i ha; exact absurd ha (authenticate_ne_oob wf hd hl)
  · rename_i ha
    split at h
    · rename_i hu; cases h; exact .inr ⟨ha, .inl ⟨hu, rfl, rfl, rfl⟩⟩
    · rename_i hu; cases h; exact .inr ⟨ha, .inr ⟨by simpa using hu, rfl, rfl, rfl⟩⟩

end Verif.Unlock
