import Verif.Requester.Model
/-! What successful steps of an attestation do, step by step. -/
namespace Verif.Requester

variable {env : Env} {eid : Nat}

theorem bind_ok {m : M α} {f : α → M β} {s s' : St} {b : β} (h : (m >>= f) s = (.ok b, s')) : ∃ a u, m s = (.ok a, u) ∧ f a u = (.ok b, s') := by
  have h' : (match m s with | (.ok a, s) => f a s | (.error e, s) => (.error e, s)) = (.ok b, s') := h
  cases hm : m s with
  | mk r u =>
    rw [hm] at h'
    cases r with
    | error e => cases h'
    | ok a => exact ⟨a, u, rfl, h'⟩

/-- Takes the first step of a successful run. -/
macro "nx " h:ident a:ident u:ident h1:ident : tactic => `(tactic| (replace $h:ident := bind_ok $h; obtain ⟨$a:ident, $u:ident, $h1:ident, $h:ident⟩ := $h))

theorem pure_ok {a b : α} {s s' : St} (h : (pure a : M α) s = (.ok b, s')) : b = a ∧ s' = s := by
  have h' : ((.ok a, s) : Except Err α × St) = (.ok b, s') := h
  cases h'
  exact ⟨rfl, rfl⟩

theorem fail_ok {e : Err} {b : α} {s s' : St} (h : (fail e : M α) s = (.ok b, s')) : False := by cases h

theorem modify_ok {f : St → St} {a : Unit} {s s' : St} (h : modify f s = (.ok a, s')) : s' = f s := by cases h; rfl

theorem setTxn_ok {f : Txn → Txn} {a : Unit} {s s' : St} (h : setTxn f s = (.ok a, s')) : s' = { s with txn := f s.txn } := modify_ok h

theorem txn_ok {t : Txn} {s s' : St} (h : txn s = (.ok t, s')) : t = s.txn ∧ s' = s := by cases h; exact ⟨rfl, rfl⟩

theorem check_ok {b : Bool} {e : Err} {a : Unit} {s s' : St} (h : check b e s = (.ok a, s')) : b = true ∧ s' = s := by
  unfold check at h
  cases b
  · cases h
  · cases h; exact ⟨rfl, rfl⟩

theorem onError_ok {m : M α} {f : St → St} {a : α} {s s' : St} (h : onError m f s = (.ok a, s')) : m s = (.ok a, s') := by
  unfold onError at h
  cases hm : m s with
  | mk r u =>
    rw [hm] at h
    cases r with
    | error e => cases h
    | ok b => cases h; rfl

theorem engine_ok {a : Unit} {s s' : St} (h : engine env s = (.ok a, s')) : s' = { s with k := s.k + 1 } := by
  unfold engine at h
  split at h
  · cases h
  · cases h; rfl

theorem ofResult_ok {r : Except Err α} {a : α} {s s' : St} (h : ofResult r s = (.ok a, s')) : r = .ok a ∧ s' = s := by
  unfold ofResult at h
  cases r with
  | error e => cases h
  | ok u => cases h; exact ⟨rfl, rfl⟩

theorem orFail_ok {o : Option α} {e : Err} {a : α} {s s' : St} (h : orFail o e s = (.ok a, s')) : o = some a ∧ s' = s := by
  unfold orFail at h
  cases o with
  | none => cases h
  | some u => cases h; exact ⟨rfl, rfl⟩

theorem doIf_ok {b : Bool} {m : M Unit} {a : Unit} {s s' : St} (h : doIf b m s = (.ok a, s')) : (b = true ∧ m s = (.ok (), s')) ∨ (b = false ∧ s' = s) := by
  unfold doIf at h
  cases b
  · cases h; exact .inr ⟨rfl, rfl⟩
  · exact .inl ⟨rfl, h⟩

theorem secStart_ok {t : Nat} {a : Unit} {s s' : St} (h : secStart env t s = (.ok a, s')) : s' = { s with k := s.k + 1, sec := some (t, []) } := by
  unfold secStart at h
  nx h a0 u h1
  nx h a0 v h2
  have := check_ok h1; have := engine_ok h2; have := modify_ok h
  grind

theorem secUpdate_ok {d : Bytes} {a : Unit} {s s' : St} (h : secUpdate env d s = (.ok a, s')) :
    ∃ t x, s.sec = some (t, x) ∧ s' = { s with k := s.k + 1, sec := some (t, x ++ d) } := by
  unfold secUpdate at h
  split at h
  · cases h
  · rename_i t x hs
    nx h a0 u h1
    have := engine_ok h1; have := modify_ok h
    refine ⟨t, x, hs, ?_⟩
    grind

theorem secFinish_ok {p : Nat × Bytes} {s s' : St} (h : secFinish env s = (.ok p, s')) : s.sec = some p ∧ s' = { s with k := s.k + 1, sec := none } := by
  unfold secFinish at h
  split at h
  · cases h
  · rename_i t x hs
    nx h a0 u h1
    nx h a0 v h2
    have := engine_ok h1; have := modify_ok h2; have := pure_ok h
    grind

theorem primStart_ok {t : Nat} {a : Unit} {s s' : St} (h : primStart env t s = (.ok a, s')) : s' = { s with k := s.k + 1, prim := some (t, []) } := by
  unfold primStart at h
  nx h a0 u h1
  nx h a0 v h2
  have := check_ok h1; have := engine_ok h2; have := modify_ok h
  grind

theorem primUpdate_ok {d : Bytes} {a : Unit} {s s' : St} (h : primUpdate env d s = (.ok a, s')) :
    ∃ t x, s.prim = some (t, x) ∧ s' = { s with k := s.k + 1, prim := some (t, x ++ d) } := by
  unfold primUpdate at h
  split at h
  · cases h
  · rename_i t x hs
    nx h a0 u h1
    have := engine_ok h1; have := modify_ok h
    refine ⟨t, x, hs, ?_⟩
    grind

theorem primFinish_ok {d : Bytes} {s s' : St} (h : primFinish env s = (.ok d, s')) :
    ∃ t x, s.prim = some (t, x) ∧ d = env.hash t x ∧ s' = { s with k := s.k + 1, prim := none } := by
  unfold primFinish at h
  split at h
  · cases h
  · rename_i t x hs
    nx h a0 u h1
    nx h a0 v h2
    have := engine_ok h1; have := modify_ok h2; have := pure_ok h
    exact ⟨t, x, hs, by grind⟩

/-- A successful exchange changes only the message buffer. -/
theorem exchange_ok {a : Unit} {s s' : St} (h : exchange env eid s = (.ok a, s')) : ∃ b l, b.length = env.n ∧ s' = { s with r := s.r + 1, txn := { s.txn with buf := b, len := l } } := by
  unfold exchange at h
  simp only at h
  split at h
  · cases h
  · cases h
  · cases h
  · cases h; exact ⟨_, _, by simp [fit], rfl⟩

theorem processResponse_ok {cmd : Nat} {t : Option Nat} {s s' : St} (h : processResponse eid cmd s = (.ok t, s')) : s' = s := by
  unfold processResponse at h
  simp only at h
  repeat' (split at h)
  all_goals cases h
  all_goals rfl

theorem requestLoop_ok {cmd : Nat} : ∀ {n : Nat} {a : Unit} {s s' : St}, requestLoop env eid cmd n s = (.ok a, s') →
    ∃ r b l, b.length = env.n ∧ s' = { s with r := r, txn := { s.txn with buf := b, len := l } }
  | 0, a, s, s', h => by
    rw [requestLoop] at h
    nx h a0 u h1
    nx h t v h2
    obtain ⟨b, l, hb, rfl⟩ := exchange_ok h1
    have := processResponse_ok h2
    subst this
    split at h
    · exact (fail_ok (onError_ok h)).elim
    · have := (pure_ok h).2
      exact ⟨_, b, l, hb, this⟩
  | n + 1, a, s, s', h => by
    rw [requestLoop] at h
    nx h a0 u h1
    nx h t v h2
    obtain ⟨b, l, hb, rfl⟩ := exchange_ok h1
    have := processResponse_ok h2
    subst this
    split at h
    · obtain ⟨r', b', l', hb', e⟩ := requestLoop_ok h
      exact ⟨r', b', l', hb', e⟩
    · have := (pure_ok h).2
      exact ⟨_, b, l, hb, this⟩

/-- A successful command: the request and the counted part of the response have been added to the transcript. -/
theorem sendCommand_ok {cmd : Nat} {req : Bytes} {d : DevState} {post : M Unit} {count : Txn → Nat} {a : Unit} {s s' : St}
    (h : sendCommand env eid cmd req d post count s = (.ok a, s')) :
    ∃ t x k r b l v, b.length = env.n ∧ s.sec = some (t, x) ∧
      post { s with k := k, r := r, sec := some (t, x ++ req), txn := { s.txn with buf := b, len := l } } = (.ok (), v) ∧
      count v.txn ≤ env.n ∧ ∃ k' t' y, v.sec = some (t', y) ∧ s' = { v with k := k', sec := some (t', y ++ window v.txn.buf 0 (count v.txn)) } := by
  unfold sendCommand at h
  nx h a0 s1 h1
  nx h a0 s2 h2
  nx h a0 s3 h3
  nx h t0 s4 h4
  nx h a0 s5 h5
  obtain ⟨t, x, hx, rfl⟩ := secUpdate_ok h1
  obtain ⟨r, b, l, hb, rfl⟩ := requestLoop_ok h2
  have h3 := onError_ok h3
  obtain ⟨rfl, rfl⟩ := txn_ok h4
  obtain ⟨hc, rfl⟩ := check_ok h5
  obtain ⟨t', y, hy, rfl⟩ := secUpdate_ok h
  exact ⟨t, x, _, r, b, l, _, hb, hx, h3, by simpa using hc, _, t', y, hy, rfl⟩

theorem bestVersion_le {b : Bytes} : ∀ {l : List Nat} {m : Option Nat} {v : Nat}, (∀ x, m = some x → x ≤ 2) → bestVersion b l m = some v → v ≤ 2
  | [], m, v, hm, h => hm v h
  | i :: rest, m, v, hm, h => by
    rw [bestVersion] at h
    refine bestVersion_le (fun x hx => ?_) h
    split at hx
    · rename_i hc
      cases hx
      exact hc.2.2.2
    · exact hm x hx

theorem versionPost_ok {a : Unit} {s s' : St} (h : versionPost env s = (.ok a, s')) : ∃ m, m ≤ 2 ∧ s' = { s with txn := { s.txn with minor := m } } := by
  unfold versionPost at h
  nx h a0 s1 h1
  nx h a1 s2 h2
  nx h m s3 h3
  obtain ⟨rfl, rfl⟩ := txn_ok h1
  obtain ⟨-, rfl⟩ := check_ok h2
  obtain ⟨hm, rfl⟩ := orFail_ok h3
  exact ⟨_, bestVersion_le (by simp) hm, setTxn_ok h⟩

theorem capabilitiesPost_ok {a : Unit} {s s' : St} (h : capabilitiesPost s = (.ok a, s')) :
    ∃ c ch, (ch = true → c = true) ∧ s' = { s with txn := { s.txn with cert := c, chal := ch }, trace := .caps c :: s.trace } := by
  unfold capabilitiesPost at h
  nx h a0 s1 h1
  obtain ⟨rfl, rfl⟩ := txn_ok h1
  simp only at h
  nx h a0 s2 h2
  nx h a0 s3 h3
  nx h a0 s4 h4
  nx h a0 s5 h5
  have e2 := modify_ok h2
  obtain ⟨-, rfl⟩ := check_ok h3
  obtain ⟨-, rfl⟩ := check_ok h4
  obtain ⟨hc, rfl⟩ := check_ok h5
  subst e2
  refine ⟨_, _, ?_, setTxn_ok h⟩
  intro hch
  simpa [hch] using hc

theorem asymPost_ok {a : Unit} {s s' : St} (h : asymPost s = (.ok a, s')) : ∃ l, s' = { s with txn := { s.txn with sigLen := l } } := by
  unfold asymPost at h
  nx h a0 s1 h1
  obtain ⟨rfl, rfl⟩ := txn_ok h1
  split at h
  · nx h l s3 h3
    nx h a1 s4 h4
    obtain ⟨-, rfl⟩ := orFail_ok h3
    have e4 := setTxn_ok h4
    obtain ⟨-, rfl⟩ := check_ok h
    exact ⟨_, e4⟩
  · obtain ⟨-, rfl⟩ := check_ok h
    exact ⟨_, rfl⟩

theorem algorithmsPost_ok {a : Unit} {s s' : St} (h : algorithmsPost s = (.ok a, s')) : ∃ l m, s' = { s with txn := { s.txn with sigLen := l, mhash := m } } := by
  unfold algorithmsPost at h
  nx h a0 s1 h1
  nx h a1 s2 h2
  nx h a2 s3 h3
  nx h m s4 h4
  obtain ⟨rfl, rfl⟩ := txn_ok h1
  obtain ⟨-, rfl⟩ := check_ok h2
  obtain ⟨l, rfl⟩ := asymPost_ok h3
  obtain ⟨-, rfl⟩ := orFail_ok h4
  exact ⟨l, m, setTxn_ok h⟩

/-- The three commands at the begin change nothing but what they are for. -/
theorem setup_ok {a : Unit} {s s' : St} (h : setup env eid s = (.ok a, s')) :
    ∃ t x k r x' b l m c ch sl mh, s.sec = some (t, x) ∧ (ch = true → c = true) ∧ m ≤ 2 ∧
      s' = { s with k := k, r := r, sec := some (t, x'), txn := { s.txn with buf := b, len := l, minor := m, cert := c, chal := ch, sigLen := sl, mhash := mh },
                    trace := .caps c :: s.trace } := by
  unfold setup at h
  nx h a0 s1 h1
  nx h t1 u1 e1
  nx h a0 s2 h2
  nx h t2 u2 e2
  nx h a0 s3 h3
  obtain ⟨rfl, rfl⟩ := txn_ok e1
  obtain ⟨rfl, rfl⟩ := txn_ok e2
  obtain ⟨-, rfl⟩ := check_ok h3
  obtain ⟨t, x, k, r, b, l, v, -, hx, hp, -, k', t', y, hv, rfl⟩ := sendCommand_ok h1
  obtain ⟨m, hm, rfl⟩ := versionPost_ok hp
  obtain ⟨u, z, k2, r2, b2, l2, v2, -, hx2, hp2, -, k2', u', y2, hv2, rfl⟩ := sendCommand_ok h2
  obtain ⟨c, ch, hc, rfl⟩ := capabilitiesPost_ok hp2
  obtain ⟨w, z3, k3, r3, b3, l3, v3, -, hx3, hp3, -, k3', u3', y3, hv3, rfl⟩ := sendCommand_ok h
  obtain ⟨sl, mh, rfl⟩ := algorithmsPost_ok hp3
  simp only [Option.some.injEq, Prod.mk.injEq] at hv hx2 hv2 hx3 hv3
  obtain ⟨rfl, rfl⟩ := hv
  obtain ⟨rfl, rfl⟩ := hx2
  obtain ⟨rfl, rfl⟩ := hv2
  obtain ⟨rfl, rfl⟩ := hx3
  obtain ⟨rfl, rfl⟩ := hv3
  exact ⟨t, x, k3', r3, _, b3, l3, m, c, ch, sl, mh, hx, hc, hm, rfl⟩

theorem formatDigest_ok {t : Nat} {a : Unit} {s s' : St} (h : formatDigest env t s = (.ok a, s')) : ∃ k, s' = { s with k := k, sec := none } := by
  unfold formatDigest at h
  have h := onError_ok h
  nx h a0 s1 h1
  nx h a0 s2 h2
  nx h a0 s3 h3
  nx h a0 s4 h4
  have e1 := secStart_ok h1
  obtain ⟨_, _, -, e2⟩ := secUpdate_ok h2
  obtain ⟨_, _, -, e3⟩ := secUpdate_ok h3
  obtain ⟨-, e4⟩ := secFinish_ok h4
  obtain ⟨-, e5⟩ := pure_ok h
  subst e1 e2 e3 e4 e5
  exact ⟨_, rfl⟩

theorem verifyEcdsa_ok {off : Nat} {d : Bytes} {k : Key} {b : Bool} {s s' : St} (h : verifyEcdsa env off d k s = (.ok b, s')) :
    (∃ j, s' = { s with k := j }) ∧ b = env.sigOk k d (window s.txn.buf off s.txn.sigLen) (window s.txn.buf (off + s.txn.sigLen) s.txn.sigLen) := by
  unfold verifyEcdsa at h
  nx h a0 s1 h1
  nx h a0 s2 h2
  nx h a0 s3 h3
  nx h a0 s4 h4
  nx h a0 s5 h5
  obtain ⟨rfl, rfl⟩ := txn_ok h1
  obtain ⟨-, rfl⟩ := check_ok h2
  have e3 := engine_ok h3
  have e4 := engine_ok h4
  have e5 := engine_ok h5
  obtain ⟨hb, e6⟩ := pure_ok h
  subst e3 e4 e5 e6
  exact ⟨⟨_, rfl⟩, hb⟩

theorem swapHalves_take (b : Bytes) (off h : Nat) : (swapHalves b off h).take off = b.take off := by
  unfold swapHalves
  by_cases hl : off ≤ b.length
  · rw [List.append_assoc, List.append_assoc, List.take_append_of_le_length (by rw [List.length_take]; omega), List.take_take, Nat.min_self]
  · have e1 : b.drop off = [] := List.drop_eq_nil_of_le (by omega)
    have e2 : b.drop (off + h) = [] := List.drop_eq_nil_of_le (by omega)
    have e3 : b.drop (off + 2 * h) = [] := List.drop_eq_nil_of_le (by omega)
    simp only [window, e1, e2, e3, List.take_nil, List.append_nil, List.reverse_nil]
    rw [List.take_take, Nat.min_self]

theorem checkSig_ok {off len : Nat} {d : Bytes} {k : Key} {a : Unit} {s s' : St} (h : checkSig env off len d k s = (.ok a, s')) :
    (∃ j b, s' = { s with k := j, txn := { s.txn with buf := b } } ∧ b.take off = s.txn.buf.take off) ∧
      env.sigOk k d (window s'.txn.buf off s.txn.sigLen) (window s'.txn.buf (off + s.txn.sigLen) s.txn.sigLen) = true := by
  unfold checkSig at h
  nx h ok s1 h1
  obtain ⟨⟨j, rfl⟩, hb⟩ := verifyEcdsa_ok h1
  split at h
  · rename_i hok
    obtain ⟨-, rfl⟩ := pure_ok h
    exact ⟨⟨j, _, rfl, rfl⟩, by rw [← hb]; exact hok⟩
  · nx h a0 s2 h2
    nx h a0 s3 h3
    nx h a0 s4 h4
    nx h a0 s5 h5
    nx h ok2 s6 h6
    obtain ⟨rfl, rfl⟩ := txn_ok h2
    obtain ⟨-, rfl⟩ := check_ok h3
    obtain ⟨-, rfl⟩ := check_ok h4
    have e5 := setTxn_ok h5
    subst e5
    obtain ⟨⟨i, rfl⟩, hb2⟩ := verifyEcdsa_ok h6
    obtain ⟨hok, rfl⟩ := check_ok h
    exact ⟨⟨i, _, rfl, swapHalves_take _ _ _⟩, by rw [← hb2]; exact hok⟩

/-- A signature was checked exactly if certificates are supported; then it is right for the key of the device and everything in the transcript. -/
theorem verifySig_ok {ch : Bool} {off len : Nat} {sig : Option (Key × Bytes)} {s s' : St} (h : verifySig env eid ch off len s = (.ok sig, s')) :
    ∃ t x j b, s.sec = some (t, x) ∧ s' = { s with k := j, sec := none, txn := { s.txn with finished := true, buf := b } } ∧ b.take off = s.txn.buf.take off ∧
      (s.txn.cert = false → sig = none) ∧
      (s.txn.cert = true → ∃ k, aliasOf s eid = some k ∧ k.ecc = true ∧ sig = some (k, x) ∧
        ∃ l, env.sigOk k (signedDigest env s.txn.minor ch t x) (window b off l) (window b (off + l) l) = true) := by
  unfold verifySig at h
  nx h p s1 h1
  nx h a0 s2 h2
  nx h a0 s3 h3
  obtain ⟨hs, e1⟩ := secFinish_ok h1
  have e2 := setTxn_ok h2
  obtain ⟨rfl, rfl⟩ := txn_ok h3
  subst e1 e2
  refine ⟨p.1, p.2, ?_⟩
  simp only at h
  split at h
  · rename_i hc
    nx h a0 s4 h4
    nx h al s5 h5
    nx h k s8 h8
    nx h a1 s6 h6
    nx h a2 s7 h7
    have e4 : ∃ j, s4 = { s with k := j, sec := none, txn := { s.txn with finished := true } } := by
      rcases doIf_ok h4 with ⟨-, h4⟩ | ⟨-, h4⟩
      · obtain ⟨j, e⟩ := formatDigest_ok h4
        exact ⟨j, e⟩
      · exact ⟨_, h4⟩
    obtain ⟨j, rfl⟩ := e4
    cases h5
    obtain ⟨hk, rfl⟩ := orFail_ok h8
    obtain ⟨he, rfl⟩ := check_ok h6
    obtain ⟨⟨j', b, rfl, hb⟩, hr⟩ := checkSig_ok h7
    obtain ⟨rfl, rfl⟩ := pure_ok h
    refine ⟨j', b, hs, rfl, hb, fun h0 => ?_, fun _ => ⟨k, hk, he, rfl, _, hr⟩⟩
    rw [hc] at h0
    cases h0
  · rename_i hc
    obtain ⟨rfl, rfl⟩ := pure_ok h
    exact ⟨_, _, hs, rfl, rfl, fun _ => rfl, fun h0 => absurd h0 hc⟩

end Verif.Requester
