import Verif.ManifestVerification.Spec
namespace Verif.ManifestVerification

theorem check_ok {W : World} {k d g : Bytes} {f : Fault} : check W k d g f = .ok ↔ f = .none ∧ W.sigOk k d g = true := by
  cases f <;> simp [check]

theorem check_cases (W : World) (k d g : Bytes) (f : Fault) : check W k d g f = .ok ∨ check W k d g f = .bad ∨ check W k d g f = .failed := by
  cases f
  · unfold check
    by_cases h : W.sigOk k d g = true <;> simp [h]
  · exact .inr (.inr rfl)
  · exact .inr (.inr rfl)

theorem msgLen (W : World) : W.keyLen - W.sigLen = 4 + W.pubLen := by unfold World.keyLen; omega

theorem verifyKey_ok {W : World} {k : Bytes} {f : Fault} : verifyKey W k f = .ok ↔ f = .none ∧ Endorsed W k := by
  unfold verifyKey Endorsed
  rw [msgLen]
  constructor
  · intro h
    generalize hc : check W W.root (W.hash (k.take (4 + W.pubLen))) (W.keySig k) f = v at h
    cases v with
    | ok =>
      simp only at h
      obtain ⟨a, b⟩ := check_ok.mp hc
      split at h
      · rename_i hk; exact ⟨a, b, hk⟩
      · cases h
    | _ => cases h
  · rintro ⟨rfl, a, b⟩
    rw [show check W W.root (W.hash (k.take (4 + W.pubLen))) (W.keySig k) .none = .ok from check_ok.mpr ⟨rfl, a⟩]
    simp only
    rw [if_pos (show W.keyOk (W.pub k) = true from b)]

theorem verifyKey_endorsed {W : World} {k : Bytes} (h : Endorsed W k) (f : Fault) : verifyKey W k f = .ok ∨ verifyKey W k f = .failed := by
  cases f with
  | none => exact .inl (verifyKey_ok.mpr ⟨rfl, h⟩)
  | setKey => exact .inr rfl
  | verify => exact .inr rfl

structure Inv (W : World) (s : State) : Prop where
  dflt : Endorsed W s.default
  with_stored : ∀ k, s.stored = some k → Endorsed W k ∧ s.saveFailed = false ∧ s.store = some k ∧ (s.defaultValid = true ↔ W.id k < W.id s.default)
  alone : s.stored = none → s.defaultValid = true ∧ (s.saveFailed = false → s.store = some s.default)

theorem save_fields (s : State) (r : Save) : (save s r).1.up = s.up ∧ (save s r).1.stored = s.stored ∧ (save s r).1.defaultValid = s.defaultValid ∧
    (save s r).1.saveFailed = s.saveFailed ∧ (save s r).1.default = s.default ∧
    ((save s r).2 = true → (save s r).1.store = some s.default) := by
  cases r <;> simp [save]

theorem finishInit_inv {W : World} {s : State} (env : BootEnv) (hd : Endorsed W s.default) (hv : s.defaultValid = true) (hf : s.saveFailed = false) (hu : s.up = false)
    (hk : ∀ k, s.stored = some k → Endorsed W k ∧ s.store = some k) : (finishInit W s env).up = true → Inv W (finishInit W s env) := by
  intro hup
  unfold finishInit at hup ⊢
  cases hs : s.stored with
  | none =>
    rw [hs] at hup
    simp only at hup ⊢
    obtain ⟨a, b, c, d, e, g⟩ := save_fields s env.save
    generalize save s env.save = x at a b c d e g hup
    obtain ⟨t, ok⟩ := x
    cases ok with
    | false => simp only at hup a; rw [a, hu] at hup; cases hup
    | true =>
      simp only at a b c d e g ⊢
      refine ⟨by show Endorsed W t.default; rw [e]; exact hd, fun k hc => ?_, fun _ => ⟨by show t.defaultValid = true; rw [c]; exact hv, fun _ => ?_⟩⟩
      · have : t.stored = some k := hc
        rw [b, hs] at this; cases this
      · show t.store = some t.default
        rw [g trivial, e]
  | some k =>
    obtain ⟨a, b⟩ := hk k hs
    simp only
    by_cases hge : W.id k ≥ W.id s.default
    · rw [if_pos hge]
      refine ⟨hd, fun k' hc => ?_, fun hc => ?_⟩
      · cases hc
        exact ⟨a, hf, b, ⟨fun h => (nomatch h), fun h => absurd (show W.id k < W.id s.default from h) (by omega)⟩⟩
      · cases hc
    · rw [if_neg hge]
      refine ⟨hd, fun k' hc => ?_, fun hc => ?_⟩
      · cases hc
        exact ⟨a, hf, b, ⟨fun _ => by show W.id k < W.id s.default; omega, fun _ => hv⟩⟩
      · cases hc

/-- The state at the end of initialization, by cases. -/
theorem init_cases (W : World) (s : State) (env : BootEnv) :
    (init W s env).up = false ∨
    (Endorsed W env.default ∧ (∀ k, s.store = some k → k.length = env.default.length → ¬ Endorsed W k) ∧
      init W s env = finishInit W ⟨false, none, true, false, env.default, s.store⟩ env) ∨
    (Endorsed W env.default ∧ ∃ k, s.store = some k ∧ k.length = env.default.length ∧ Endorsed W k ∧
      init W s env = finishInit W ⟨false, some k, true, false, env.default, s.store⟩ env) := by
  unfold init
  simp only
  cases hd : verifyKey W env.default env.f1 with
  | ok =>
    have hd := (verifyKey_ok.mp hd).2
    simp only
    by_cases hl : env.loadFail = true
    · rw [if_pos hl]; exact .inl rfl
    · rw [if_neg hl]
      cases hs : s.store with
      | none => exact .inr (.inl ⟨hd, fun k hk => (nomatch hk), rfl⟩)
      | some k =>
        simp only
        by_cases hlen : k.length = env.default.length
        · rw [if_pos hlen]
          cases hv : verifyKey W k env.f2 with
          | ok => exact .inr (.inr ⟨hd, k, rfl, hlen, (verifyKey_ok.mp hv).2, rfl⟩)
          | bad =>
            refine .inr (.inl ⟨hd, fun k' hk' _ he => ?_, rfl⟩)
            cases hk'
            rcases verifyKey_endorsed he env.f2 with h | h <;> rw [h] at hv <;> cases hv
          | failed => exact .inl rfl
          | undefined => exact .inl rfl
        · rw [if_neg hlen]
          exact .inr (.inl ⟨hd, fun k' hk' hl' => by cases hk'; exact absurd hl' hlen, rfl⟩)
  | bad => exact .inl rfl
  | failed => exact .inl rfl
  | undefined => exact .inl rfl

theorem init_inv (W : World) (s : State) (env : BootEnv) : (init W s env).up = true → Inv W (init W s env) := by
  rcases init_cases W s env with h | ⟨hd, -, e⟩ | ⟨hd, k, hs, -, hk, e⟩
  · intro hc; rw [h] at hc; cases hc
  · rw [e]; exact finishInit_inv env hd rfl rfl rfl (fun k hk => (nomatch hk))
  · rw [e]
    refine finishInit_inv env hd rfl rfl rfl (fun k' hk' => ?_)
    cases hk'
    exact ⟨hk, hs⟩

/-- What the activation of a manifest does, by cases. -/
theorem activated_cases (W : World) (s : State) (m : Option (Bytes × Bytes)) (f : Fault) (r : Save) :
    activated W s m f r = s ∨
    (s.stored.isSome = true ∧ s.defaultValid = true ∧ (∃ d g, m = some (d, g) ∧ Signed W s.default d g) ∧
      activated W s m f r = { (save s r).1 with stored := none, saveFailed := !(save s r).2 }) ∨
    (¬ (s.stored.isSome = true ∧ s.defaultValid = true) ∧ s.saveFailed = true ∧
      activated W s m f r = { (save s r).1 with saveFailed := !(save s r).2 }) := by
  unfold activated
  by_cases hb : (s.stored.isSome && s.defaultValid) = true
  · rw [if_pos hb]
    simp only [Bool.and_eq_true] at hb
    cases m with
    | none => exact .inl rfl
    | some x =>
      obtain ⟨d, g⟩ := x
      simp only
      cases hc : check W (W.pub s.default) d g f with
      | ok => exact .inr (.inl ⟨hb.1, hb.2, ⟨d, g, rfl, (check_ok.mp hc).2⟩, rfl⟩)
      | bad => exact .inl rfl
      | failed => exact .inl rfl
      | undefined => exact .inl rfl
  · rw [if_neg hb]
    simp only [Bool.and_eq_true] at hb
    by_cases hf : s.saveFailed = true
    · rw [if_pos hf]
      refine .inr (.inr ⟨hb, hf, ?_⟩)
      have := (save_fields s r).2.2.2.1
      generalize save s r = x at this
      obtain ⟨t, ok⟩ := x
      cases ok with
      | true => rfl
      | false =>
        simp only at this
        simp only [Bool.not_false]
        rw [← hf, ← this]
    · rw [if_neg hf]; exact .inl rfl

theorem updateStart_cases (s : State) (r : Save) :
    (s.saveFailed = false ∧ updateStart s r = (s, true)) ∨
    (s.saveFailed = true ∧ updateStart s r = ({ (save s r).1 with saveFailed := !(save s r).2 }, (save s r).2)) := by
  unfold updateStart
  cases hf : s.saveFailed with
  | false => exact .inl ⟨rfl, rfl⟩
  | true =>
    refine .inr ⟨rfl, ?_⟩
    rw [if_pos rfl]
    have := (save_fields s r).2.2.2.1
    generalize save s r = x at this
    obtain ⟨t, ok⟩ := x
    cases ok with
    | true => rfl
    | false =>
      simp only at this
      simp only [Bool.not_false]
      rw [hf] at this
      rw [← this]

theorem inv_resave {W : World} {s : State} (h : Inv W s) (r : Save) (hs : s.stored = none) :
    Inv W { (save s r).1 with saveFailed := !(save s r).2 } := by
  obtain ⟨a, b, c, d, e, g⟩ := save_fields s r
  refine ⟨by show Endorsed W (save s r).1.default; rw [e]; exact h.dflt, fun k hc => ?_, fun _ => ⟨by show (save s r).1.defaultValid = true; rw [c]; exact (h.alone hs).1, fun hc => ?_⟩⟩
  · have : (save s r).1.stored = some k := hc
    rw [b, hs] at this; cases this
  · show (save s r).1.store = some (save s r).1.default
    have : (!(save s r).2) = false := hc
    rw [e]
    exact g (by simpa using this)

theorem inv_revoke {W : World} {s : State} (h : Inv W s) (r : Save) (hv : s.defaultValid = true) :
    Inv W { (save s r).1 with stored := none, saveFailed := !(save s r).2 } := by
  obtain ⟨a, b, c, d, e, g⟩ := save_fields s r
  refine ⟨by show Endorsed W (save s r).1.default; rw [e]; exact h.dflt, fun k hc => (nomatch hc), fun _ => ⟨by show (save s r).1.defaultValid = true; rw [c]; exact hv, fun hc => ?_⟩⟩
  show (save s r).1.store = some (save s r).1.default
  have : (!(save s r).2) = false := hc
  rw [e]
  exact g (by simpa using this)

theorem saveFailed_none {W : World} {s : State} (h : Inv W s) (hf : s.saveFailed = true) : s.stored = none := by
  cases hs : s.stored with
  | none => rfl
  | some k => have := (h.with_stored k hs).2.1; rw [hf] at this; cases this

theorem activated_inv {W : World} {s : State} (h : Inv W s) (m : Option (Bytes × Bytes)) (f : Fault) (r : Save) : Inv W (activated W s m f r) := by
  rcases activated_cases W s m f r with e | ⟨-, hv, -, e⟩ | ⟨-, hf, e⟩
  · rw [e]; exact h
  · rw [e]; exact inv_revoke h r hv
  · rw [e]; exact inv_resave h r (saveFailed_none h hf)

theorem updateStart_inv {W : World} {s : State} (h : Inv W s) (r : Save) : Inv W (updateStart s r).1 := by
  rcases updateStart_cases s r with ⟨-, e⟩ | ⟨hf, e⟩
  · rw [e]; exact h
  · rw [e]; exact inv_resave h r (saveFailed_none h hf)

theorem activated_up (W : World) (s : State) (m : Option (Bytes × Bytes)) (f : Fault) (r : Save) : (activated W s m f r).up = s.up := by
  rcases activated_cases W s m f r with e | ⟨-, hv, -, e⟩ | ⟨-, hf, e⟩ <;> rw [e]
  · exact (save_fields s r).1
  · exact (save_fields s r).1

theorem updateStart_up (s : State) (r : Save) : (updateStart s r).1.up = s.up := by
  rcases updateStart_cases s r with ⟨-, e⟩ | ⟨hf, e⟩ <;> rw [e]
  exact (save_fields s r).1

theorem step_inv {W : World} {s : State} (h : s.up = true → Inv W s) (op : Op) : (step W s op).up = true → Inv W (step W s op) := by
  cases op with
  | init env => exact init_inv W s env
  | activated m f r =>
    simp only [step]
    by_cases hu : s.up = true
    · rw [if_pos hu]; exact fun _ => activated_inv (h hu) m f r
    · rw [if_neg hu]; exact h
  | update r =>
    simp only [step]
    by_cases hu : s.up = true
    · rw [if_pos hu]; exact fun _ => updateStart_inv (h hu) r
    · rw [if_neg hu]; exact h

theorem reach_inv {W : World} {s : State} (h : Reach W s) : s.up = true → Inv W s := by
  induction h with
  | start => exact fun hc => (nomatch hc)
  | step op _ ih => exact step_inv ih op

theorem verify_ok {W : World} {s : State} {d g : Bytes} {f1 f2 : Fault} (h : verifySignature W s d g f1 f2 = .ok) :
    (∃ k, s.stored = some k ∧ Signed W k d g) ∨ (s.defaultValid = true ∧ Signed W s.default d g) := by
  unfold verifySignature at h
  simp only at h
  cases hs : s.stored with
  | none =>
    rw [hs] at h
    simp only at h
    split at h
    · rename_i hv; exact .inr ⟨hv, (check_ok.mp h).2⟩
    · cases h
  | some k =>
    rw [hs] at h
    simp only at h
    cases hc : check W (W.pub k) d g f1 with
    | ok => exact .inl ⟨k, rfl, (check_ok.mp hc).2⟩
    | bad =>
      rw [hc] at h
      simp only at h
      split at h
      · rename_i hv; exact .inr ⟨hv, (check_ok.mp h).2⟩
      · cases h
    | failed => rw [hc] at h; cases h
    | undefined => rw [hc] at h; cases h

/-- No key below `n` can be accepted, now or after a restart. -/
structure Floor (W : World) (n len : Nat) (s : State) : Prop where
  inv : s.up = true → Inv W s
  store : ∃ k, s.store = some k ∧ Endorsed W k ∧ k.length = len ∧ n ≤ W.id k
  dflt : s.up = true → s.default.length = len ∧ (s.stored = none → n ≤ W.id s.default)

theorem save_floor {W : World} {n len : Nat} {s : State} (r : Save) (hr : r.Keeps s) (hst : ∃ k, s.store = some k ∧ Endorsed W k ∧ k.length = len ∧ n ≤ W.id k)
    (hd : Endorsed W s.default ∧ s.default.length = len ∧ n ≤ W.id s.default) :
    ∃ k, (save s r).1.store = some k ∧ Endorsed W k ∧ k.length = len ∧ n ≤ W.id k := by
  cases r with
  | ok => exact ⟨_, rfl, hd⟩
  | failed l =>
    rcases hr with rfl | rfl
    · exact hst
    · exact ⟨_, rfl, hd⟩

theorem floor_step {W : World} {n len : Nat} {s : State} (h : Floor W n len s) (op : Op) (hk : KeepsStore len s op) : Floor W n len (step W s op) := by
  have hinv : (step W s op).up = true → Inv W (step W s op) := step_inv h.inv op
  obtain ⟨k0, hs0, he0, hl0, hn0⟩ := h.store
  cases op with
  | init env =>
    simp only [step] at hinv ⊢
    obtain ⟨-, hlen⟩ := hk
    refine ⟨hinv, ?_, ?_⟩
    · -- the keystore
      rcases init_cases W s env with hdn | ⟨hd, hno, e⟩ | ⟨hd, k, hs, hl, hkE, e⟩
      · have : (init W s env).store = s.store := by
          clear hinv
          unfold init at hdn ⊢
          simp only at hdn ⊢
          generalize verifyKey W env.default env.f1 = v at hdn ⊢
          cases v with
          | ok =>
            simp only at hdn ⊢
            by_cases hl : env.loadFail = true
            · rw [if_pos hl]
            · rw [if_neg hl] at hdn ⊢
              rw [hs0] at hdn ⊢
              simp only at hdn ⊢
              rw [if_pos (hl0.trans hlen.symm)] at hdn ⊢
              rcases verifyKey_endorsed he0 env.f2 with hv | hv
              · rw [hv] at hdn ⊢
                simp only [finishInit] at hdn ⊢
                split <;> rfl
              · rw [hv]
          | _ => rfl
        rw [this]; exact ⟨k0, hs0, he0, hl0, hn0⟩
      · exact absurd he0 (hno k0 hs0 (hl0.trans hlen.symm))
      · rw [e]
        have : (finishInit W ⟨false, some k, true, false, env.default, s.store⟩ env).store = s.store := by
          simp only [finishInit]; split <;> rfl
        rw [this]; exact ⟨k0, hs0, he0, hl0, hn0⟩
    · intro hup
      rcases init_cases W s env with hdn | ⟨hd, hno, e⟩ | ⟨hd, k, hs, hl, hkE, e⟩
      · rw [hdn] at hup; cases hup
      · exact absurd he0 (hno k0 hs0 (hl0.trans hlen.symm))
      · rw [e]
        have : (finishInit W ⟨false, some k, true, false, env.default, s.store⟩ env).default = env.default ∧
            (finishInit W ⟨false, some k, true, false, env.default, s.store⟩ env).stored = some k := by
          simp only [finishInit]; split <;> exact ⟨rfl, rfl⟩
        rw [this.1, this.2]
        exact ⟨hlen, fun hc => (nomatch hc)⟩
  | activated m f r =>
    simp only [step] at hinv ⊢
    by_cases hu : s.up = true
    · rw [if_pos hu] at hinv ⊢
      have hi := h.inv hu
      obtain ⟨hlen, hnone⟩ := h.dflt hu
      suffices hx : (∃ k, (activated W s m f r).store = some k ∧ Endorsed W k ∧ k.length = len ∧ n ≤ W.id k) ∧
          ((activated W s m f r).up = true → (activated W s m f r).default.length = len ∧ ((activated W s m f r).stored = none → n ≤ W.id (activated W s m f r).default)) from ⟨hinv, hx.1, hx.2⟩
      rcases activated_cases W s m f r with e | ⟨hsome, hv, -, e⟩ | ⟨-, hf, e⟩
      · rw [e]; exact ⟨⟨k0, hs0, he0, hl0, hn0⟩, h.dflt⟩
      · rw [e]
        obtain ⟨k, hk'⟩ := Option.isSome_iff_exists.mp hsome
        obtain ⟨-, -, hst, hlt⟩ := hi.with_stored k hk'
        have hn : n ≤ W.id s.default := by
          have hlt := hlt.mp hv
          rw [hs0] at hst
          cases hst
          omega
        exact ⟨save_floor r hk ⟨k0, hs0, he0, hl0, hn0⟩ ⟨hi.dflt, hlen, hn⟩, fun _ => by
          show (save s r).1.default.length = len ∧ (_ → n ≤ W.id (save s r).1.default)
          rw [(save_fields s r).2.2.2.2.1]
          exact ⟨hlen, fun _ => hn⟩⟩
      · rw [e]
        have hn := hnone (saveFailed_none hi hf)
        exact ⟨save_floor r hk ⟨k0, hs0, he0, hl0, hn0⟩ ⟨hi.dflt, hlen, hn⟩, fun _ => by
          show (save s r).1.default.length = len ∧ (_ → n ≤ W.id (save s r).1.default)
          rw [(save_fields s r).2.2.2.2.1]
          exact ⟨hlen, fun _ => hn⟩⟩
    · rw [if_neg hu]; exact h
  | update r =>
    simp only [step] at hinv ⊢
    by_cases hu : s.up = true
    · rw [if_pos hu] at hinv ⊢
      have hi := h.inv hu
      obtain ⟨hlen, hnone⟩ := h.dflt hu
      suffices hx : (∃ k, (updateStart s r).1.store = some k ∧ Endorsed W k ∧ k.length = len ∧ n ≤ W.id k) ∧
          ((updateStart s r).1.up = true → (updateStart s r).1.default.length = len ∧ ((updateStart s r).1.stored = none → n ≤ W.id (updateStart s r).1.default)) from ⟨hinv, hx.1, hx.2⟩
      rcases updateStart_cases s r with ⟨-, e⟩ | ⟨hf, e⟩
      · rw [e]; exact ⟨⟨k0, hs0, he0, hl0, hn0⟩, h.dflt⟩
      · rw [e]
        have hn := hnone (saveFailed_none hi hf)
        exact ⟨save_floor r hk ⟨k0, hs0, he0, hl0, hn0⟩ ⟨hi.dflt, hlen, hn⟩, fun _ => by
          show (save s r).1.default.length = len ∧ (_ → n ≤ W.id (save s r).1.default)
          rw [(save_fields s r).2.2.2.2.1]
          exact ⟨hlen, fun _ => hn⟩⟩
    · rw [if_neg hu]; exact h

theorem floor_accepts {W : World} {n len : Nat} {s : State} (h : Floor W n len s) (hu : s.up = true) {d g : Bytes} {f1 f2 : Fault}
    (ha : verifySignature W s d g f1 f2 = .ok) : ∃ k, Endorsed W k ∧ Signed W k d g ∧ n ≤ W.id k := by
  have hi := h.inv hu
  obtain ⟨k0, hs0, he0, hl0, hn0⟩ := h.store
  rcases verify_ok ha with ⟨k, hk, hs⟩ | ⟨hv, hs⟩
  · obtain ⟨a, -, c, -⟩ := hi.with_stored k hk
    rw [hs0] at c; cases c
    exact ⟨k0, a, hs, hn0⟩
  · refine ⟨_, hi.dflt, hs, ?_⟩
    cases hst : s.stored with
    | none => exact (h.dflt hu).2 hst
    | some k =>
      obtain ⟨-, -, c, d⟩ := hi.with_stored k hst
      rw [hs0] at c; cases c
      have := d.mp hv
      omega

end Verif.ManifestVerification
