import Verif.Requester.All
import Verif.Requester.KeySpec
/-! Keys that are used come from chains of certificates that were checked. -/
namespace Verif.Requester

variable {env : Env} {eid : Nat} {P : Component → Prop}

theorem certificatePost_ok {a : Unit} {s s' : St} (h : certificatePost s = (.ok a, s')) : s' = s := by
  unfold certificatePost at h
  nx h a0 s1 h1
  obtain ⟨rfl, rfl⟩ := txn_ok h1
  exact (check_ok h).2

theorem portionLoop_prim : ∀ {n offset length readLen : Nat} {acc : Option Bytes} {d : Bytes} {s s' : St},
    portionLoop env eid n offset length readLen acc s = (.ok d, s') → s'.prim = s.prim
  | 0, _, _, _, _, _, _, _, h => (fail_ok h).elim
  | n + 1, offset, length, readLen, acc, d, s, s', h => by
    rw [portionLoop] at h
    nx h a0 s1 h1
    nx h a1 s2 h2
    nx h t s3 h3
    nx h a3 s4 h4
    nx h a4 s5 h5
    obtain ⟨_, e1⟩ := txn_ok h1
    obtain ⟨_, e3⟩ := txn_ok h3
    obtain ⟨-, e4⟩ := check_ok (onError_ok h4)
    obtain ⟨-, e5⟩ := check_ok h5
    obtain ⟨_, _, _, _, _, _, v, -, -, hp, -, _, _, _, -, e2⟩ := sendCommand_ok h2
    have ev := certificatePost_ok hp
    have e : s5.prim = s.prim := by rw [e5, e4, e3, e2, ev, e1]
    rw [← e]
    split at h
    · split at h
      · rw [(pure_ok h).2]
      · nx h a6 s6 h6
        have := portionLoop_prim h
        rw [this, engine_ok h6]
    · split at h
      · nx h a6 s6 h6
        rw [(pure_ok h).2, setTxn_ok h6]
      · exact portionLoop_prim h

theorem portion_prim {offset length : Nat} {d : Bytes} {s s' : St} (h : portion env eid offset length s = (.ok d, s')) : s'.prim = s.prim := by
  unfold portion at h
  nx h a1 s1 h1
  nx h a2 s2 h2
  rw [portionLoop_prim h, (check_ok h2).2, (check_ok (onError_ok h1)).2]

theorem individual_prim {offset : Nat} {d : Bytes} {s s' : St} (h : individual env eid offset s = (.ok d, s')) : s'.prim = s.prim := by
  unfold individual at h
  nx h b s1 h1
  nx h l s2 h2
  nx h a3 s3 h3
  have e : s3.prim = s.prim := by rw [(check_ok (onError_ok h3)).2, (orFail_ok h2).2, portion_prim h1]
  split at h
  · rw [(pure_ok h).2, e]
  · nx h r s4 h4
    rw [(pure_ok h).2, portion_prim h4, e]

theorem checkRoot_ok {r : Option Digests} {root : Bytes} {a : Unit} {s s' : St} (h : checkRoot env eid r root s = (.ok a, s')) :
    ∀ q, r = some q → env.hash q.type root ∈ q.list := by
  intro q hq
  subst hq
  unfold checkRoot at h
  nx h a1 s1 h1
  nx h a2 s2 h2
  obtain ⟨hv, -⟩ := ofResult_ok (onError_ok h)
  unfold verifyDigest at hv
  simp only [ne_eq, not_true_eq_false, if_false] at hv
  split at hv
  · cases hv
  · split at hv
    · assumption
    · cases hv

theorem verifyRoot_ok {c : Component} {header root anchor : Bytes} {s s' : St} (h : verifyRoot env eid c header root s = (.ok anchor, s')) :
    TrustedRoot env c root anchor ∧ ∃ t, s'.prim = some (t, header ++ root) := by
  unfold verifyRoot at h
  nx h a1 s1 h1
  nx h a2 s2 h2
  nx h a3 s3 h3
  nx h a4 s4 h4
  nx h t s5 h5
  nx h a6 s6 h6
  nx h a7 s7 h7
  obtain ⟨e, e8⟩ := pure_ok h
  obtain ⟨hr, -⟩ := check_ok h4
  have h7 := onError_ok h7
  nx h7 a8 s8 h8
  obtain ⟨t1, x1, p1, q1⟩ := primUpdate_ok h8
  obtain ⟨t2, x2, p2, q2⟩ := primUpdate_ok h7
  have e6 := primStart_ok h6
  refine ⟨⟨e ▸ hr, ?_⟩, t1, ?_⟩
  · have hc := checkRoot_ok h1
    subst e
    cases hcr : c.root with
    | some r => exact ⟨by simp [anchorOf], hc r hcr⟩
    | none =>
      cases hl : env.localRoot with
      | some l => simp [anchorOf, hl]
      | none => simp [anchorOf, hl]
  · subst e6
    simp only [Option.some.injEq, Prod.mk.injEq] at p1
    obtain ⟨rfl, rfl⟩ := p1
    subst q1
    simp only [Option.some.injEq, Prod.mk.injEq] at p2
    obtain ⟨rfl, rfl⟩ := p2
    subst e8 q2
    simp

theorem verifyCert_ok {anchor cert : Bytes} {leaf : Bool} {a : Unit} {s s' : St} (h : verifyCert env eid anchor cert leaf s = (.ok a, s')) :
    env.certOk cert = true ∧ env.auth anchor cert = true ∧ (leaf = false → env.caOk cert = true) ∧ ∃ t x, s.prim = some (t, x) ∧ s'.prim = some (t, x ++ cert) := by
  unfold verifyCert at h
  have h := onError_ok h
  nx h a1 s1 h1
  nx h a2 s2 h2
  nx h a3 s3 h3
  nx h a4 s4 h4
  obtain ⟨t, x, p1, e1⟩ := primUpdate_ok h1
  have e2 := engine_ok h2
  obtain ⟨hc, e3⟩ := check_ok h3
  have h4 := onError_ok h4
  nx h4 a5 s5 h5
  have e5 := engine_ok h5
  obtain ⟨ha, e4⟩ := check_ok h4
  have e : s4.prim = some (t, x ++ cert) := by rw [e4, e5, e3, e2, e1]
  rcases doIf_ok h with ⟨hl, h⟩ | ⟨hl, e6⟩
  · nx h a7 s7 h7
    nx h a8 s8 h8
    obtain ⟨hca, e9⟩ := check_ok h
    exact ⟨hc, ha, fun _ => hca, t, x, p1, by rw [e9, engine_ok h8, engine_ok h7]; exact e⟩
  · refine ⟨hc, ha, fun h0 => ?_, t, x, p1, by rw [e6]; exact e⟩
    rw [h0] at hl
    cases hl

theorem loadChain_ok {total : Nat} : ∀ {n offset : Nat} {anchor : Bytes} {last r : Option Bytes} {s s' : St} {t : Nat} {x : Bytes},
    loadChain env eid total n offset anchor last s = (.ok r, s') → s.prim = some (t, x) →
    ∃ certs, s'.prim = some (t, x ++ certs.flatten) ∧ (total ≤ offset → certs = []) ∧ ((certs = [] ∧ r = last) ∨ (Chain env anchor certs ∧ r = certs.getLast?))
  | 0, _, _, _, _, _, _, _, _, h, hp => by
    obtain ⟨rfl, rfl⟩ := pure_ok h
    exact ⟨[], by simpa using hp, fun _ => rfl, .inl ⟨rfl, rfl⟩⟩
  | n + 1, offset, anchor, last, r, s, s', t, x, h, hp => by
    rw [loadChain] at h
    split at h
    · rename_i hlt
      nx h cert s1 h1
      nx h a2 s2 h2
      have e1 := individual_prim (onError_ok h1)
      obtain ⟨hc, ha, hca, t', x', p, q⟩ := verifyCert_ok h2
      rw [e1, hp] at p
      cases p
      obtain ⟨certs, i1, i2, i3⟩ := loadChain_ok h q
      refine ⟨cert :: certs, by rw [i1]; simp, fun h0 => by omega, .inr ?_⟩
      rcases i3 with ⟨rfl, rfl⟩ | ⟨i3, rfl⟩
      · exact ⟨.leaf hc ha, rfl⟩
      · have hne : certs ≠ [] := by intro h0; subst h0; cases i3
        refine ⟨.link hc ha (hca ?_) i3, ?_⟩
        · rw [decide_eq_false_iff_not]
          exact fun h0 => hne (i2 h0)
        · cases certs with
          | nil => exact absurd rfl hne
          | cons y ys => simp [List.getLast?_cons]
    · obtain ⟨rfl, rfl⟩ := pure_ok h
      exact ⟨[], by simpa using hp, fun _ => rfl, .inl ⟨rfl, rfl⟩⟩

/-- Nothing but the key and the digest counts. -/
theorem KeyOk.congr {s s' : St} (h : KeyOk env P s) (h1 : s'.alias = s.alias) (h2 : s'.chain = s.chain) : KeyOk env P s' := by
  intro e k hk
  rw [h1] at hk
  rw [h2]
  exact h e k hk

theorem closed_key : Closed eid fun s s' => KeyOk env P s → KeyOk env P s' where
  refl := fun _ h => h
  trans := fun h k x => k (h x)
  k := fun _ _ h => h.congr rfl rfl
  prim := fun _ _ h => h.congr rfl rfl
  up := fun _ _ _ _ _ h => h.congr rfl rfl
  msg := fun _ _ _ _ h => h.congr rfl rfl
  dev := fun _ _ _ _ h => h.congr rfl rfl

theorem closedTxn_key : ClosedTxn fun s s' => KeyOk env P s → KeyOk env P s' where
  sec := fun _ _ h => h.congr rfl rfl
  txn := fun _ _ h => h.congr rfl rfl
  trace := fun _ _ h => h.congr rfl rfl
  both := fun _ _ _ h => h.congr rfl rfl

theorem clearAlias_key {s : St} (h : KeyOk env P s) : KeyOk env P (clearAlias eid s) := by
  unfold clearAlias
  split
  · split
    · intro e k hk
      cases hk
    · exact h
  · exact h

theorem clearChain_key {s : St} (h : KeyOk env P s) : KeyOk env P (clearChain eid s) := by
  unfold clearChain
  split
  · split
    · intro e k hk
      obtain ⟨c, d, h1, h2, -⟩ := h e k hk
      exact ⟨c, d, h1, h2, fun d' hd => by cases hd⟩
    · exact h
  · exact h

theorem updateChain_key (d : Bytes) : AllR (fun s s' => KeyOk env P s → KeyOk env P s') (updateChain eid d) := by
  intro s h
  show KeyOk env P (match aliasOf s eid with
    | none => { s with chain := some (eid, d) }
    | some _ => if chainIs s eid d then s else { clearAlias eid s with chain := some (eid, d) })
  cases ha : aliasOf s eid with
  | none =>
    intro e k hk
    obtain ⟨c, d0, h1, h2, -⟩ := h e k hk
    refine ⟨c, d0, h1, h2, fun d' hd => ?_⟩
    exfalso
    simp only [Option.some.injEq, Prod.mk.injEq] at hd
    have hk' : s.alias = some (e, k) := hk
    simp [aliasOf, hk', hd.1] at ha
  | some k0 =>
    simp only
    split
    · exact h
    · intro e k hk
      exfalso
      have hk' : (clearAlias eid s).alias = some (e, k) := hk
      unfold aliasOf at ha
      unfold clearAlias at hk'
      split at ha
      · rename_i e' k' hs
        split at ha
        · rename_i he
          rw [hs] at hk'
          simp [he] at hk'
        · cases ha
      · cases ha

theorem loadLeaf_key {c : Component} (hc : P c) : AllR (fun s s' => KeyOk env P s → KeyOk env P s') (loadLeaf env eid c) := by
  intro s
  have C : Closed eid fun s s' => KeyOk env P s → KeyOk env P s' := closed_key
  unfold loadLeaf
  refine all_bind' C (all_txn C s) fun t s1 h1 => all_bind' C (all_portion C _ _ _) fun header s2 h2 => all_bind' C (all_individual C _ _) fun root s3 h3 =>
    all_bind' C (all_verifyRoot C _ _ _ _) fun anchor s4 h4 => all_bind' C (all_loadChain C _ _ _ _ _ _) fun last s5 h5 => all_bind' C (all_orFail C _ _ _) fun leaf s6 h6 => ?_
  obtain ⟨hroot, ty, hp⟩ := verifyRoot_ok h4
  obtain ⟨certs, hp5, -, hch⟩ := loadChain_ok h5 hp
  obtain ⟨e6, es6⟩ := orFail_ok h6
  have hch : Chain env anchor certs ∧ certs.getLast? = some leaf := by
    rcases hch with ⟨-, e⟩ | ⟨hch, e⟩
    · rw [e] at e6
      cases e6
    · exact ⟨hch, by rw [← e]; exact e6⟩
  subst es6
  unfold updateAlias
  refine all_bind' C (all_primCancel C (all_primFinish C) _) fun d s7 h7 => all_bind' C (all_onDev C (all_checkChain C _) (by simp) (by simp) _) fun a8 s8 h8 =>
    all_bind' C (all_engine C _) fun a9 s9 h9 => all_bind' C (all_engine C _) fun a10 s10 h10 => all_bind' C (all_orFail C _ _ _) fun k s11 h11 => ?_
  obtain ⟨t', x', p', hd, e7⟩ := primFinish_ok (onError_ok h7)
  rw [hp5] at p'
  cases p'
  have h8 := onError_ok h8
  unfold checkChain at h8
  split at h8
  · rename_i hci
    cases h8
    obtain ⟨hk, e11⟩ := orFail_ok h11
    have hchain : s11.chain = some (eid, d) := by
      rw [e11, engine_ok h10, engine_ok h9]
      simpa [chainIs] using hci
    intro _ e k' hk'
    have hk' : some (eid, k) = some (e, k') := hk'
    cases hk'
    refine ⟨c, d, hc, ⟨header, root, anchor, certs, leaf, _, hroot, hch.1, hch.2, hk, hd⟩, fun d' hd' => ?_⟩
    have hd' : s11.chain = some (eid, d') := hd'
    rw [hchain] at hd'
    cases hd'
    rfl
  · cases h8

theorem certificates_key {c : Component} (hc : P c) : AllR (fun s s' => KeyOk env P s → KeyOk env P s') (certificates env eid c) := by
  have C : Closed eid fun s s' => KeyOk env P s → KeyOk env P s' := closed_key
  unfold certificates
  refine all_bind C (all_txn C) fun _ => all_bind C (all_sendCommand C ?_ (by simp) (by simp)) fun _ => all_bind C (all_getAlias C) fun a => all_doIf C (all_onError C (loadLeaf_key hc) ?_)
  · unfold digestsPost
    exact all_bind C (all_txn C) fun _ => all_bind C (all_check C _ _) fun _ => all_bind C (all_check C _ _) fun _ => updateChain_key _
  · exact fun s h => clearChain_key (clearAlias_key h)

theorem attestDevice_key {l : List (Option Component)} (hl : ∀ c, some c ∈ l → P c) : AllR (fun s s' => KeyOk env P s → KeyOk env P s') (attestDevice env eid l) := by
  intro s hs
  have hc := all_components (env := env) (eid := eid) (d := s.dev eid) (e := .noType) closed_key closedTxn_key (fun x hx => certificates_key (hl x hx)) s hs
  have conc : ∀ (b : Bool) (u : St), KeyOk env P u → KeyOk env P (conclude eid b u) := by
    intro b u h
    refine h.congr ?_ ?_
    · unfold conclude
      simp only
      repeat' split
      all_goals rfl
    · unfold conclude
      simp only
      repeat' split
      all_goals rfl
  unfold attestDevice
  split
  · exact hs
  · split
    · rename_i h; rw [h] at hc; exact conc _ _ hc
    · rename_i h; rw [h] at hc; exact hc
    · rename_i h; rw [h] at hc; exact conc _ _ hc

end Verif.Requester
