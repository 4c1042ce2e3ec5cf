import Verif.Requester.Fetch
import Verif.Requester.Keys
/-! What a successful attestation rests on. -/
namespace Verif.Requester

variable {env : Env} {eid : Nat} {c : Component}

theorem Recorded.mono {tr tr' : List Ev} {op : Nat} {raw : Bool} {v : Bytes} (h : tr <:+ tr') (r : Recorded tr op raw v) : Recorded tr' op raw v := by
  obtain ⟨sig, rsp, hm⟩ := r
  exact ⟨sig, rsp, h.subset hm⟩

theorem Met.mono {H : Nat → Bytes → Bytes} {tr tr' : List Ev} {vs : Nat} (h : tr <:+ tr') : ∀ {i : Item}, Met H tr vs i → Met H tr' vs i
  | .digest _ _, .inl m => .inl m
  | .digest _ _, .inr ⟨v, t, d, r, m⟩ => .inr ⟨v, t, d, r.mono h, m⟩
  | .data _ _, .inl m => .inl m
  | .data _ _, .inr ⟨v, r, m⟩ => .inr ⟨v, r.mono h, m⟩
  | .aggregated _ _ _, .inl m => .inl m
  | .aggregated _ _ _, .inr ⟨vals, hl, hr, m⟩ => .inr ⟨vals, hl, fun p hp => (hr p hp).mono h, m⟩

theorem Keep.inv {s s' : St} (h : Keep s s') (hi : Inv env eid c s) (ht : s'.trace = s.trace) (hm : s'.txn.minor = s.txn.minor) (hth : s'.txn.thash = s.txn.thash)
    (hs : s'.txn.slot = s.txn.slot) (hc : s'.txn.cert = s.txn.cert) : Inv env eid c s' :=
  ⟨by rw [hm]; exact hi.minor, by rw [hth]; exact hi.thash, by rw [hs]; exact hi.slot, by rw [ht, hc]; exact hi.certs, by rw [ht, aliasOf_congr h.alias]; exact hi.sound⟩

theorem judgeDigests_ok {l : List DigestEntry} {d : Bytes} {type : Nat} {a : Unit} {s s' : St} (h : judgeDigests l d type s = (.ok a, s')) :
    ∃ v, verifyDigests l d type s.txn.vs = (.ok (), v) ∧ s' = { s with txn := { s.txn with vs := v } } := by
  unfold judgeDigests at h
  nx h t s1 h1
  nx h a2 s2 h2
  obtain ⟨rfl, rfl⟩ := txn_ok h1
  have e2 := setTxn_ok h2
  obtain ⟨hv, rfl⟩ := ofResult_ok h
  refine ⟨_, ?_, e2⟩
  rw [← hv]

theorem judgeData_ok {l : List DataCheck} {d : Bytes} {a : Unit} {s s' : St} (h : judgeData l d s = (.ok a, s')) :
    ∃ v, verifyDataBlock l d s.txn.vs = (.ok (), v) ∧ s' = { s with txn := { s.txn with vs := v } } := by
  unfold judgeData at h
  nx h t s1 h1
  nx h a2 s2 h2
  obtain ⟨rfl, rfl⟩ := txn_ok h1
  have e2 := setTxn_ok h2
  obtain ⟨hv, rfl⟩ := ofResult_ok h
  refine ⟨_, ?_, e2⟩
  rw [← hv]

theorem fetchAll_ok : ∀ {ids : List Nat} {a : Unit} {s s' : St} {t : Nat} {x : Bytes}, fetchAll env eid ids s = (.ok a, s') → Inv env eid c s → s.prim = some (t, x) →
    Inv env eid c s' ∧ Keep s s' ∧ s'.txn.vs = s.txn.vs ∧ ∃ vals : List Bytes, vals.length = ids.length ∧ (∀ p ∈ ids.zip vals, Recorded s'.trace p.1 false p.2) ∧
      s'.prim = some (t, x ++ vals.flatten)
  | [], a, s, s', t, x, h, hi, hp => by
    obtain ⟨-, rfl⟩ := pure_ok h
    exact ⟨hi, .rfl, rfl, [], rfl, by simp, by simpa using hp⟩
  | i :: rest, a, s, s', t, x, h, hi, hp => by
    rw [fetchAll] at h
    nx h a1 s1 h1
    nx h t2 s2 h2
    nx h a3 s3 h3
    obtain ⟨i1, k1, v1, p1, v, w, r1, b1, l1⟩ := fetch_ok h1 hi
    obtain ⟨rfl, rfl⟩ := txn_ok h2
    obtain ⟨t', x', p3, rfl⟩ := primUpdate_ok h3
    rw [p1, hp] at p3
    cases p3
    have k3 : Keep s2 { s2 with k := s2.k + 1, prim := some (t, x ++ window s2.txn.buf 0 s2.txn.len) } := ⟨rfl, rfl, rfl, rfl, List.suffix_rfl⟩
    obtain ⟨i4, k4, v4, vals, hl, hr, p4⟩ := fetchAll_ok h (k3.inv i1 rfl rfl rfl rfl rfl) rfl
    have hv : window s2.txn.buf 0 s2.txn.len = v := by rw [b1, l1]; simp [window]
    refine ⟨i4, k1.trans (k3.trans k4), by rw [v4]; exact v1, v :: vals, by simp [hl], ?_, ?_⟩
    · intro p hp'
      simp only [List.zip_cons_cons, List.mem_cons] at hp'
      rcases hp' with rfl | hp'
      · exact r1.mono (k3.trans k4).trace
      · exact hr p hp'
    · rw [p4, hv]
      simp

theorem digestsApply_not {l : List DigestEntry} {vs : Nat} (h : ¬ digestsApply l vs = true) : vs ≠ 0 ∧ ∀ e ∈ l, e.vs ≠ 0 ∧ e.vs ≠ vs := by
  unfold digestsApply at h
  simp only [Bool.or_eq_true, beq_iff_eq, List.any_eq_true, not_or, not_exists, not_and] at h
  exact ⟨h.1, fun e he => h.2 e he⟩

theorem dataApply_not {l : List DataCheck} {vs : Nat} (h : ¬ dataApply l vs = true) : vs ≠ 0 ∧ ∀ d ∈ l, applicable d vs = [] := by
  unfold dataApply at h
  simp only [Bool.or_eq_true, beq_iff_eq, List.any_eq_true, not_or, not_exists, not_and] at h
  refine ⟨h.1, fun d hd => ?_⟩
  unfold applicable
  rw [List.filter_eq_nil_iff]
  intro e he
  have := h.2 d hd e he
  simpa using this

theorem prefix_of_take {v w : Bytes} {n : Nat} : v <+: window (v ++ w) 0 n ∨ window (v ++ w) 0 n <+: v := by
  unfold window
  rw [List.drop_zero]
  by_cases h : n ≤ v.length
  · right
    rw [List.take_append_of_le_length h]
    exact List.take_prefix _ _
  · left
    rw [List.take_append, List.take_of_length_le (by omega)]
    exact List.prefix_append _ _

theorem checkItem_ok {i : Item} {a : Unit} {s s' : St} (h : checkItem env eid i s = (.ok a, s')) (hi : Inv env eid c s) :
    Inv env eid c s' ∧ Keep s s' ∧ s'.txn.vs ≠ 0 ∧ (s.txn.vs ≠ 0 → s'.txn.vs = s.txn.vs) ∧ Met env.hash s'.trace s'.txn.vs i ∧
      (s.txn.vs = 0 → ∃ op raw v, Recorded s'.trace op raw v) := by
  unfold checkItem at h
  nx h t s0 h0
  obtain ⟨rfl, rfl⟩ := txn_ok h0
  cases i with
  | digest id l =>
    simp only at h
    split at h
    · rename_i hap
      nx h a1 s1 h1
      nx h t2 s2 h2
      obtain ⟨i1, k1, v1, -, v, w, r1, b1, -⟩ := fetch_ok h1 hi
      obtain ⟨rfl, rfl⟩ := txn_ok h2
      obtain ⟨vs, hv, rfl⟩ := judgeDigests_ok h
      rw [v1] at hv
      obtain ⟨n0, n1, n2⟩ := digest_accepted hv hap
      refine ⟨⟨i1.minor, i1.thash, i1.slot, i1.certs, i1.sound⟩, ⟨k1.alias, k1.chain, k1.dev, k1.succ, k1.trace⟩, n0, n1, .inr ⟨v, _, _, r1, n2, ?_⟩, fun _ => ⟨_, _, v, r1⟩⟩
      rw [b1]
      exact prefix_of_take
    · rename_i hap
      obtain ⟨-, rfl⟩ := pure_ok h
      obtain ⟨n0, n1⟩ := digestsApply_not hap
      exact ⟨hi, .rfl, n0, fun _ => rfl, .inl n1, fun h0 => absurd h0 n0⟩
  | data id l =>
    simp only at h
    split at h
    · nx h a1 s1 h1
      nx h t2 s2 h2
      obtain ⟨i1, k1, v1, -, v, w, r1, b1, l1⟩ := fetch_ok h1 hi
      obtain ⟨rfl, rfl⟩ := txn_ok h2
      obtain ⟨vs, hv, rfl⟩ := judgeData_ok h
      have hw : window s2.txn.buf 0 s2.txn.len = v := by rw [b1, l1]; simp [window]
      rw [v1, hw] at hv
      obtain ⟨n0, n1, -⟩ := version_set_from_data hv
      refine ⟨⟨i1.minor, i1.thash, i1.slot, i1.certs, i1.sound⟩, ⟨k1.alias, k1.chain, k1.dev, k1.succ, k1.trace⟩, n0, n1, .inr ⟨v, r1, _, ?_, hv⟩, fun _ => ⟨_, _, v, r1⟩⟩
      by_cases hz : s0.txn.vs = 0
      · exact .inl hz
      · exact .inr (n1 hz).symm
    · rename_i hap
      obtain ⟨-, rfl⟩ := pure_ok h
      obtain ⟨n0, n1⟩ := dataApply_not hap
      exact ⟨hi, .rfl, n0, fun _ => rfl, .inl n1, fun h0 => absurd h0 n0⟩
  | aggregated type ids l =>
    simp only at h
    split at h
    · exact (fail_ok h).elim
    · split at h
      · rename_i hap
        nx h a1 s1 h1
        nx h a2 s2 h2
        nx h d s3 h3
        have e1 := primStart_ok h1
        have h2 := onError_ok h2
        nx h2 a4 s4 h4
        obtain ⟨hne, e2⟩ := check_ok h2
        subst e1 e2
        have k1 : Keep s0 { s0 with k := s0.k + 1, prim := some (type, []) } := ⟨rfl, rfl, rfl, rfl, List.suffix_rfl⟩
        obtain ⟨i4, k4, v4, vals, hl, hr, p4⟩ := fetchAll_ok h4 (k1.inv hi rfl rfl rfl rfl rfl) rfl
        obtain ⟨t', x', p3, hd, rfl⟩ := primFinish_ok (onError_ok h3)
        rw [p4] at p3
        cases p3
        obtain ⟨vs, hv, rfl⟩ := judgeDigests_ok h
        have hv' : verifyDigests l d type s0.txn.vs = (.ok (), vs) := by rw [← hv]; exact congrArg _ v4.symm
        obtain ⟨n0, n1, n2⟩ := digest_accepted hv' hap
        have k5 := k1.trans k4
        refine ⟨⟨i4.minor, i4.thash, i4.slot, i4.certs, i4.sound⟩, ⟨k5.alias, k5.chain, k5.dev, k5.succ, k5.trace⟩, n0, n1, .inr ⟨vals, hl, hr, ?_⟩, fun _ => ?_⟩
        · rw [hd] at n2
          simpa [Allowed] using n2
        · cases ids with
          | nil => simp at hne
          | cons i ids =>
            cases vals with
            | nil => simp at hl
            | cons v vals => exact ⟨i, false, v, hr (i, v) (by simp)⟩
      · rename_i hap
        obtain ⟨-, rfl⟩ := pure_ok h
        obtain ⟨n0, n1⟩ := digestsApply_not hap
        exact ⟨hi, .rfl, n0, fun _ => rfl, .inl n1, fun h0 => absurd h0 n0⟩

theorem checkItems_ok : ∀ {l : List Item} {a : Unit} {s s' : St}, checkItems env eid l s = (.ok a, s') → Inv env eid c s →
    Inv env eid c s' ∧ Keep s s' ∧ (s.txn.vs ≠ 0 → s'.txn.vs = s.txn.vs) ∧ ∀ i ∈ l, Met env.hash s'.trace s'.txn.vs i
  | [], a, s, s', h, hi => by
    obtain ⟨-, rfl⟩ := pure_ok h
    exact ⟨hi, .rfl, fun _ => rfl, by simp⟩
  | i :: rest, a, s, s', h, hi => by
    rw [checkItems] at h
    nx h a1 s1 h1
    obtain ⟨i1, k1, n1, v1, m1, -⟩ := checkItem_ok h1 hi
    obtain ⟨i2, k2, v2, m2⟩ := checkItems_ok h i1
    refine ⟨i2, k1.trans k2, fun h0 => by rw [v2 n1, v1 h0], fun x hx => ?_⟩
    rcases List.mem_cons.mp hx with rfl | hx
    · rw [v2 n1]
      exact m1.mono k2.trace
    · exact m2 x hx

theorem checkContents_ok {l : List Item} {a : Unit} {s s' : St} (h : checkContents env eid l s = (.ok a, s')) (hi : Inv env eid c s) (hz : s.txn.vs = 0) :
    Inv env eid c s' ∧ ∃ vs, vs ≠ 0 ∧ (∃ op raw v, Recorded s'.trace op raw v) ∧ ∀ i ∈ l, Met env.hash s'.trace vs i := by
  unfold checkContents at h
  split at h
  · cases h
  · rename_i hl
    split at h
    · cases h
    · cases l with
      | nil => exact absurd List.isEmpty_nil hl
      | cons i rest =>
        obtain ⟨i1, -, -, m⟩ := checkItems_ok h hi
        rw [checkItems] at h
        nx h a1 s1 h1
        obtain ⟨j1, -, n1, -, -, r⟩ := checkItem_ok h1 hi
        obtain ⟨-, k2, v2, -⟩ := checkItems_ok h j1
        obtain ⟨op, raw, v, hr⟩ := r hz
        exact ⟨i1, _, by rw [v2 n1]; exact n1, ⟨op, raw, v, hr.mono k2.trace⟩, m⟩

theorem verifyDigest_ok {p : Digests} {d : Bytes} {type : Nat} (h : verifyDigest p d type = .ok ()) : p.type = type ∧ d ∈ p.list := by
  unfold verifyDigest at h
  split at h
  · cases h
  · rename_i h1
    split at h
    · cases h
    · split at h
      · exact ⟨Decidable.of_not_not h1, by assumption⟩
      · cases h

theorem checkAllBlocks_ok {p : Digests} {a : Unit} {s s' : St} (h : checkAllBlocks env eid p s = (.ok a, s')) (hi : Inv env eid c s) :
    Inv env eid c s' ∧ MetPmr env.hash s'.trace p := by
  unfold checkAllBlocks at h
  nx h a1 s1 h1
  nx h t2 s2 h2
  nx h a3 s3 h3
  nx h a4 s4 h4
  obtain ⟨i1, k1, v1, -, v, w, r1, b1, l1⟩ := fetch_ok h1 hi
  obtain ⟨rfl, rfl⟩ := txn_ok h2
  obtain ⟨-, rfl⟩ := check_ok h3
  have e4 := engine_ok h4
  obtain ⟨hv, e⟩ := ofResult_ok (onError_ok h)
  obtain ⟨ht, hd⟩ := verifyDigest_ok hv
  have hw : window s3.txn.buf 0 s3.txn.len = v := by rw [b1, l1]; simp [window]
  rw [hw, ← ht] at hd
  subst e e4
  exact ⟨⟨i1.minor, i1.thash, i1.slot, i1.certs, i1.sound⟩, .inr ⟨v, r1, hd⟩⟩

theorem challengeLen_eq {t : Txn} : challengeLen t = signedPartChallenge (hashLen t.thash) t.buf := by
  simp only [challengeLen, signedPartChallenge, u16_two]
  rw [show 4 + hashLen t.thash + 32 + hashLen t.thash = 36 + 2 * hashLen t.thash by omega]
  omega

theorem signedPartChallenge_of_take {h : Nat} {a b : Bytes} (e : a.take (signedPartChallenge h b) = b.take (signedPartChallenge h b)) :
    signedPartChallenge h a = signedPartChallenge h b := by
  unfold signedPartChallenge
  congr 1
  unfold two
  rw [getD_of_take e (i := 36 + 2 * h) (by unfold signedPartChallenge; omega), getD_of_take e (i := 36 + 2 * h + 1) (by unfold signedPartChallenge; omega)]

theorem challengePost_ok {a : Unit} {s s' : St} (h : challengePost eid s = (.ok a, s')) : s' = s := by
  unfold challengePost at h
  nx h t s1 h1
  nx h a2 s2 h2
  nx h a3 s3 h3
  nx h a4 s4 h4
  nx h a5 s5 h5
  obtain ⟨rfl, rfl⟩ := txn_ok h1
  obtain ⟨-, e2⟩ := check_ok h2
  obtain ⟨-, e3⟩ := check_ok h3
  obtain ⟨-, e4⟩ := check_ok h4
  obtain ⟨-, e5⟩ := check_ok h5
  unfold checkChain at h
  split at h
  · cases h
    rw [e5, e4, e3, e2]
  · cases h

theorem random_ok {x : Bytes} {s s' : St} (h : random env s = (.ok x, s')) : s' = { s with k := s.k + 1, trace := .nonce x :: s.trace } := by
  unfold random at h
  split at h
  · cases h
  · cases h
    rfl

theorem processChallenge_ok {a : Unit} {s s' : St} {x nonce : Bytes} {rest : List Ev} (h : processChallenge env eid s = (.ok a, s')) (hi : Inv env eid c s)
    (hs : s.sec = some (c.thash, x ++ challengeMsg s.txn.minor c.slot nonce ++ window s.txn.buf 0 (challengeLen s.txn))) (hc : s.txn.cert = true)
    (htr : s.trace = .nonce nonce :: rest) (hn : challengeLen s.txn ≤ s.txn.buf.length) :
    Inv env eid c s' ∧ s'.txn.vs = s.txn.vs ∧ ∃ sig rsp v, .summary sig rsp v ∈ s'.trace ∧ window s'.txn.buf 0 (hashLen c.thash) = v := by
  unfold processChallenge at h
  nx h t4 s4 h4
  nx h sig s5 h5
  nx h u s6 h6
  nx h a7 s7 h7
  obtain ⟨rfl, rfl⟩ := txn_ok h4
  obtain ⟨t', x', j, b, hs', rfl, hb, -, hy⟩ := verifySig_ok h5
  obtain ⟨rfl, rfl⟩ := txn_ok h6
  have e7 := setTxn_ok h7
  have e8 := modify_ok h
  subst e7 e8
  rw [hs] at hs'
  cases hs'
  obtain ⟨k, hk, -, rfl, sl, hsl⟩ := hy hc
  have hth : s4.txn.thash = c.thash := hi.thash
  have hcl : challengeLen s4.txn = signedPartChallenge (hashLen c.thash) s4.txn.buf := by rw [challengeLen_eq, hth]
  rw [hcl] at hb hn
  have hp := signedPartChallenge_of_take hb
  have hle : 38 + 2 * hashLen c.thash ≤ signedPartChallenge (hashLen c.thash) s4.txn.buf := by unfold signedPartChallenge; omega
  have hlen : signedPartChallenge (hashLen c.thash) s4.txn.buf ≤ b.length := by
    have := congrArg List.length hb
    simp only [List.length_take] at this
    omega
  refine ⟨⟨hi.minor, hi.thash, hi.slot, by simpa [hasCerts] using hi.certs, ⟨?_, hi.sound⟩⟩, rfl, _, _, _, List.mem_cons_self, ?_⟩
  · refine ⟨_, k, _, s4.txn.minor, nonce, x, rest, rfl, rfl, hk, hi.minor, htr, ?_, ?_, sl, ?_⟩
    · simp only [hth]
      unfold window
      rw [show 4 + hashLen c.thash + 32 = 36 + hashLen c.thash by omega]
    · simp only [hp, hb, hcl]
      rfl
    · rw [signedDigest_eq true hi.minor, hcl] at hsl
      simp only [hp, hcl]
      exact hsl
  · simp only [hth]
    have hwl : (window b (4 + hashLen c.thash + 32) (hashLen c.thash)).length = hashLen c.thash := by
      rw [window_length]
      omega
    generalize window b (4 + hashLen c.thash + 32) (hashLen c.thash) = v at *
    unfold window
    rw [List.drop_zero, List.take_append_of_le_length (by omega), List.take_of_length_le (by omega)]

/-- After a challenge, the summary of the measurements is at the begin of the buffer; it is signed. -/
theorem challenge_ok {a : Unit} {s s' : St} (h : challenge env eid s = (.ok a, s')) (hi : Inv env eid c s) (hc : s.txn.cert = true) (ht : ∃ x, s.sec = some (c.thash, x)) :
    Inv env eid c s' ∧ s'.txn.vs = s.txn.vs ∧ ∃ sig rsp v, .summary sig rsp v ∈ s'.trace ∧ window s'.txn.buf 0 (hashLen c.thash) = v := by
  unfold challenge at h
  nx h nonce s1 h1
  nx h t2 s2 h2
  nx h a3 s3 h3
  have e1 := random_ok h1
  obtain ⟨rfl, rfl⟩ := txn_ok h2
  subst e1
  obtain ⟨t', x', k', r', b, l, v, hbl, hx, hp, hcnt, k2, t2, y2, hv, rfl⟩ := sendCommand_ok h3
  have ev := challengePost_ok hp
  subst ev
  obtain ⟨x, hsx⟩ := ht
  rw [show (s.sec) = _ from hsx] at hx
  cases hx
  simp only [Option.some.injEq, Prod.mk.injEq] at hv
  obtain ⟨rfl, rfl⟩ := hv
  have key := processChallenge_ok (nonce := nonce) (rest := s.trace) (x := x') h ⟨hi.minor, hi.thash, hi.slot, hi.certs, ⟨trivial, hi.sound⟩⟩
    (by simp only [← hi.slot]; rfl) hc rfl (Nat.le_trans hcnt (Nat.le_of_eq hbl.symm))
  exact ⟨key.1, key.2.1, key.2.2⟩

/-- What getting the certificates leaves as it is. -/
def Mute (s s' : St) : Prop := s'.trace = s.trace ∧ s'.sec.map Prod.fst = s.sec.map Prod.fst ∧ s'.txn.minor = s.txn.minor ∧ s'.txn.thash = s.txn.thash ∧
  s'.txn.slot = s.txn.slot ∧ s'.txn.cert = s.txn.cert ∧ s'.txn.chal = s.txn.chal ∧ s'.txn.vs = s.txn.vs

theorem closed_mute : Closed eid Mute where
  refl := fun _ => ⟨rfl, rfl, rfl, rfl, rfl, rfl, rfl, rfl⟩
  trans := fun h k => ⟨k.1.trans h.1, k.2.1.trans h.2.1, k.2.2.1.trans h.2.2.1, k.2.2.2.1.trans h.2.2.2.1, k.2.2.2.2.1.trans h.2.2.2.2.1, k.2.2.2.2.2.1.trans h.2.2.2.2.2.1, k.2.2.2.2.2.2.1.trans h.2.2.2.2.2.2.1,
    k.2.2.2.2.2.2.2.trans h.2.2.2.2.2.2.2⟩
  k := fun _ _ => ⟨rfl, rfl, rfl, rfl, rfl, rfl, rfl, rfl⟩
  prim := fun _ _ => ⟨rfl, rfl, rfl, rfl, rfl, rfl, rfl, rfl⟩
  up := fun _ _ _ _ h => ⟨rfl, by rw [h]; rfl, rfl, rfl, rfl, rfl, rfl, rfl⟩
  msg := fun _ _ _ _ => ⟨rfl, rfl, rfl, rfl, rfl, rfl, rfl, rfl⟩
  dev := fun _ _ _ _ => ⟨rfl, rfl, rfl, rfl, rfl, rfl, rfl, rfl⟩

theorem mute_alias {s s' : St} (h : ∃ a b, s' = { s with alias := a, chain := b }) : Mute s s' := by
  obtain ⟨a, b, rfl⟩ := h
  exact ⟨rfl, rfl, rfl, rfl, rfl, rfl, rfl, rfl⟩

theorem clearAlias_eq (s : St) : ∃ a, clearAlias eid s = { s with alias := a } := by
  unfold clearAlias
  split
  · split
    · exact ⟨_, rfl⟩
    · exact ⟨_, rfl⟩
  · exact ⟨_, rfl⟩

theorem clearChain_eq (s : St) : ∃ a, clearChain eid s = { s with chain := a } := by
  unfold clearChain
  split
  · split
    · exact ⟨_, rfl⟩
    · exact ⟨_, rfl⟩
  · exact ⟨_, rfl⟩

theorem updateChain_eq (d : Bytes) (s : St) : ∃ a b, (updateChain eid d s).2 = { s with alias := a, chain := b } := by
  show ∃ a b, (match aliasOf s eid with
    | none => { s with chain := some (eid, d) }
    | some _ => if chainIs s eid d then s else { clearAlias eid s with chain := some (eid, d) }) = { s with alias := a, chain := b }
  split
  · exact ⟨_, _, rfl⟩
  · split
    · exact ⟨_, _, rfl⟩
    · obtain ⟨a, e⟩ := clearAlias_eq (eid := eid) s
      rw [e]
      exact ⟨_, _, rfl⟩

theorem all_certificates {R : St → St → Prop} (C : Closed eid R) (A : ∀ s a b, R s { s with alias := a, chain := b }) (c : Component) :
    AllR R (certificates env eid c) := by
  unfold certificates
  refine all_bind C (all_txn C) fun _ => all_bind C (all_sendCommand C ?_ (by simp) (by simp)) fun _ => all_bind C (all_getAlias C) fun a => all_doIf C (all_onError C ?_ ?_)
  · unfold digestsPost
    refine all_bind C (all_txn C) fun _ => all_bind C (all_check C _ _) fun _ => all_bind C (all_check C _ _) fun _ => fun s => ?_
    obtain ⟨a, b, e⟩ := updateChain_eq (eid := eid) _ s
    rw [e]
    exact A s a b
  · unfold loadLeaf
    refine all_bind C (all_txn C) fun _ => all_bind C (all_portion C _ _) fun _ => all_bind C (all_individual C _) fun _ => all_bind C (all_verifyRoot C _ _ _) fun _ =>
      all_bind C (all_loadChain C _ _ _ _ _) fun _ => all_bind C (all_orFail C _ _) fun _ => ?_
    exact all_bind C (all_primCancel C (all_primFinish C)) fun _ => all_bind C (all_onDev C (all_checkChain C _) (by simp) (by simp)) fun _ =>
      all_bind C (all_engine C) fun _ => all_bind C (all_engine C) fun _ => all_bind C (all_orFail C _ _) fun _ => all_modify C fun s => A s _ s.chain
  · intro s
    obtain ⟨a, e⟩ := clearAlias_eq (eid := eid) s
    obtain ⟨b, f⟩ := clearChain_eq (eid := eid) (clearAlias eid s)
    rw [f, e]
    exact A s a b

theorem certificates_mute (c : Component) : AllR Mute (certificates env eid c) :=
  all_certificates closed_mute (fun _ _ _ => mute_alias ⟨_, _, rfl⟩) c

theorem measurements_ok {a : Unit} {s s' : St} (h : measurements env eid c s = (.ok a, s')) (hi : Inv env eid c s) (hc : s.txn.chal = true → s.txn.cert = true)
    (ht : ∃ x, s.sec = some (c.thash, x)) (hz : s.txn.vs = 0) : Inv env eid c s' ∧ MetAll env.hash s'.trace c := by
  unfold measurements at h
  nx h t s1 h1
  obtain ⟨rfl, rfl⟩ := txn_ok h1
  split at h
  · rename_i hch
    nx h a2 s2 h2
    obtain ⟨i2, z2, sig, rsp, v, hm, hv⟩ := challenge_ok h2 hi (hc hch) ht
    unfold afterChallenge at h
    cases hp : c.pmr0 with
    | some p =>
      simp only [hp] at h
      unfold verifyPmr at h
      nx h t3 s3 h3
      obtain ⟨rfl, rfl⟩ := txn_ok h3
      obtain ⟨hd, rfl⟩ := ofResult_ok (onError_ok h)
      obtain ⟨-, hmem⟩ := verifyDigest_ok hd
      refine ⟨i2, ?_⟩
      unfold MetAll
      rw [hp]
      rw [i2.thash, hv] at hmem
      exact .inl ⟨sig, rsp, v, hm, hmem⟩
    | none =>
      simp only [hp] at h
      obtain ⟨i3, m⟩ := checkContents_ok h i2 (z2.trans hz)
      refine ⟨i3, ?_⟩
      unfold MetAll
      rw [hp]
      exact m
  · unfold withoutChallenge at h
    cases hp : c.pmr0 with
    | some p =>
      simp only [hp] at h
      obtain ⟨i3, m⟩ := checkAllBlocks_ok h hi
      refine ⟨i3, ?_⟩
      unfold MetAll
      rw [hp]
      exact m
    | none =>
      simp only [hp] at h
      obtain ⟨i3, m⟩ := checkContents_ok h hi hz
      refine ⟨i3, ?_⟩
      unfold MetAll
      rw [hp]
      exact m

theorem doCertificates_mute {b : Bool} {a : Unit} {s s' : St} (h : doIf b (certificates env eid c) s = (.ok a, s')) : Mute s s' := by
  rcases doIf_ok h with ⟨-, h⟩ | ⟨-, rfl⟩
  · have := certificates_mute (env := env) (eid := eid) c s
    rw [h] at this
    exact this
  · exact (closed_mute (eid := eid)).refl _

theorem sound_caps {e : Bool} {k : Option Key} : Sound env c k [.caps e] := ⟨trivial, trivial⟩

theorem byComponent_ok {d : DevState} {a : Unit} {s s' : St} (h : byComponent env eid d (some c) s = (.ok a, s')) :
    Inv env eid c s' ∧ MetAll env.hash s'.trace c := by
  unfold byComponent at h
  nx h a1 s1 h1
  nx h a2 s2 h2
  nx h a3 s3 h3
  have e2 := modify_ok h2
  obtain ⟨-, e3⟩ := check_ok h3
  unfold attestSpdm at h
  nx h a4 s4 h4
  nx h a5 s5 h5
  obtain ⟨-, e4⟩ := check_ok h4
  have e5 := secStart_ok h5
  subst e2 e3 e4 e5
  unfold always at h
  simp only [Prod.mk.injEq] at h
  obtain ⟨h, e⟩ := h
  generalize hr : (do
    setup env eid
    let t ← txn
    doIf t.cert (certificates env eid c)
    measurements env eid c : M Unit) _ = r at h e
  cases r with
  | mk r u =>
    simp only at h e
    subst h
    nx hr a6 s6 h6
    nx hr t s7 h7
    nx hr a8 s8 h8
    obtain ⟨t', x, k, r, x', b, l, m, ct, ch, sl, mh, hx, hcc, hm, rfl⟩ := setup_ok h6
    cases hx
    obtain ⟨rfl, rfl⟩ := txn_ok h7
    have key := doCertificates_mute h8
    obtain ⟨k1, k2, k3, k4, k5, k6, k7, k8⟩ := key
    have hi : Inv env eid c s8 := ⟨by rw [k3]; exact hm, k4, k5, by rw [k1, k6]; rfl, by rw [k1]; exact sound_caps⟩
    have hsec : ∃ x, s8.sec = some (c.thash, x) := by
      cases hs : s8.sec with
      | none => rw [hs] at k2; cases k2
      | some p =>
        rw [hs] at k2
        cases p with
        | mk p q =>
          simp only [Option.map_some, Option.some.injEq] at k2
          subst k2
          exact ⟨q, rfl⟩
    obtain ⟨i9, m9⟩ := measurements_ok hr hi (by rw [k7, k6]; exact hcc) hsec (by rw [k8])
    subst e
    split
    · exact ⟨i9, m9⟩
    · exact ⟨⟨i9.minor, i9.thash, i9.slot, i9.certs, i9.sound⟩, m9⟩

theorem components_ok {d : DevState} : ∀ {l : List (Option Component)} {e : Err} {r : Option Component} {s s' : St}, components env eid d l e s = (.ok r, s') →
    ∃ c, r = some c ∧ some c ∈ l ∧ Inv env eid c s' ∧ MetAll env.hash s'.trace c
  | [], _, _, _, _, h => (fail_ok h).elim
  | x :: rest, e, r, s, s', h => by
    simp only [components] at h
    split at h
    · rename_i u hb
      cases h
      cases x with
      | none =>
        unfold byComponent at hb
        nx hb a1 s1 h1
        exact (fail_ok (onError_ok hb)).elim
      | some c =>
        obtain ⟨i, m⟩ := byComponent_ok hb
        exact ⟨c, rfl, by simp, i, m⟩
    · cases h
    · obtain ⟨c, i1, i2, i3⟩ := components_ok h
      exact ⟨c, i1, by simp [i2], i3⟩

end Verif.Requester
