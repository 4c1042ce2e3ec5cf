import Verif.OcpRecovery.Ctl
/-! Read requests: actions, recovery status and error report. -/
namespace Verif.OcpRecovery

theorem regionSize_mute {env : Env} {i : Nat} {c : Cms} {w w' : World} {r : Except Nat Nat} (h : regionSize env i c w = some (r, w')) :
    Mute w w' ∧ ∀ e, r = .error e → ∃ t, env.varSize t i = .error e := by
  unfold regionSize at h
  split at h
  · split at h
    · simp only [Option.some.injEq, Prod.mk.injEq] at h
      obtain ⟨rfl, rfl⟩ := h
      exact ⟨⟨rfl, rfl, rfl, rfl⟩, fun e he => ⟨_, he⟩⟩
    · cases h
  · simp only [Option.some.injEq, Prod.mk.injEq] at h
    obtain ⟨rfl, rfl⟩ := h
    exact ⟨Mute.refl _, fun e he => nomatch he⟩

theorem readPiece_mute {env : Env} {i : Nat} {c : Cms} {w w' : World} {r : Except Nat Bytes} (h : readPiece env i c w = some (r, w')) :
    Mute w w' ∧ ∀ e, r = .error e → e = env.flashErr ∨ ∃ t o, env.varData t i o 252 = .error e := by
  unfold readPiece at h
  split at h
  · split at h
    · split at h
      · next e he =>
        simp only [Option.some.injEq, Prod.mk.injEq] at h
        obtain ⟨rfl, rfl⟩ := h
        exact ⟨⟨rfl, rfl, rfl, rfl⟩, fun e' h' => by cases h'; exact Or.inr ⟨_, _, he⟩⟩
      · split at h
        · simp only [Option.some.injEq, Prod.mk.injEq] at h
          obtain ⟨rfl, rfl⟩ := h
          exact ⟨⟨rfl, rfl, rfl, rfl⟩, fun e' h' => nomatch h'⟩
        · cases h
    · cases h
  · split at h
    · split at h
      · split at h
        · simp only [Option.some.injEq, Prod.mk.injEq] at h
          obtain ⟨rfl, rfl⟩ := h
          exact ⟨⟨rfl, rfl, rfl, rfl⟩, fun e' h' => by cases h'; exact Or.inl rfl⟩
        · simp only [Option.some.injEq, Prod.mk.injEq] at h
          obtain ⟨rfl, rfl⟩ := h
          exact ⟨⟨rfl, rfl, rfl, rfl⟩, fun e' h' => nomatch h'⟩
      · cases h
    · split at h
      · split at h
        · simp only [Option.some.injEq, Prod.mk.injEq] at h
          obtain ⟨rfl, rfl⟩ := h
          exact ⟨Mute.refl _, fun e' h' => nomatch h'⟩
        · cases h
      · cases h

theorem readFailure_mute (r : Except Nat Bytes × World) : (readFailure r).hw = r.2.hw ∧ (readFailure r).ctl.recovery = r.2.ctl.recovery ∧
    (readFailure r).ctl.cms = r.2.ctl.cms := by
  unfold readFailure
  repeat' split
  all_goals exact ⟨rfl, rfl, rfl⟩

/-- The report after a read. -/
def reported (env : Env) (w : World) : UInt8 := reportAfterRead env w.ctl.active w.ctl.cms w.ctl.proto

theorem readSwitch_result (env : Env) (w : World) (h0 : w.ctl.active ≠ 0) (r : Except Nat Bytes × World) (h : readSwitch env w = some r) :
    r.2.hw = w.hw ∧ r.2.ctl.recovery = w.ctl.recovery ∧ (Foreign env → (readFailure r).ctl.proto = reported env w) ∧
      r.2.ctl.cms = w.ctl.cms := by
  unfold readSwitch at h
  unfold reported reportAfterRead
  generalize ha : w.ctl.active = act at h h0 ⊢
  have okc : ∀ d w', Mute w w' → r = (Except.ok d, w') → act ≠ 0x24 → readError env act w.ctl.cms = none →
      r.2.hw = w.hw ∧ r.2.ctl.recovery = w.ctl.recovery ∧
      (Foreign env → (readFailure r).ctl.proto = if act = 0x24 then 0 else (readError env act w.ctl.cms).getD w.ctl.proto) ∧
      r.2.ctl.cms = w.ctl.cms := by
    intro d w' hm hr h24 he
    subst hr
    refine ⟨hm.hw, hm.recovery, fun _ => ?_, hm.sel⟩
    rw [if_neg h24, he]
    exact hm.proto
  split at h
  · next e => cases h; subst e; exact okc _ _ (Mute.refl _) rfl (by decide) (by simp [readError])
  split at h
  · next e =>
    cases h; subst e
    cases hd : env.deviceId w.tick with
    | ok d => rw [hd] at okc; exact okc d { w with tick := w.tick + 1 } ⟨rfl, rfl, rfl, rfl⟩ rfl (by decide) (by simp [readError])
    | error e =>
      refine ⟨rfl, rfl, fun hF => ?_, rfl⟩
      rw [readFailure_proto_other _ _ (hF.ident _ _ hd)]
      simp [readError]
  split at h
  · next e => cases h; subst e; exact ⟨rfl, rfl, fun _ => rfl, rfl⟩
  split at h
  · next e => cases h; subst e; exact okc _ _ (Mute.refl _) rfl (by decide) (by simp [readError])
  split at h
  · next e => cases h; subst e; exact okc _ _ (Mute.refl _) rfl (by decide) (by simp [readError])
  split at h
  · next e => cases h; subst e; exact okc _ _ (Mute.refl _) rfl (by decide) (by simp [readError])
  split at h
  · next e =>
    subst e
    split at h
    · next hs =>
      cases h
      have hne : env.cms ≠ none := by intro h; rw [h] at hs; cases hs
      exact okc _ _ (Mute.refl _) rfl (by decide) (by simp [readError, hne])
    · next hs =>
      cases h
      have hne : env.cms = none := by cases h : env.cms with | none => rfl | some _ => rw [h] at hs; simp at hs
      exact ⟨rfl, rfl, fun _ => by rw [if_neg (by decide)]; simp [readError, hne, readFailure], rfl⟩
  split at h
  · next e =>
    subst e
    unfold readIndirectStatus at h
    cases hcs : env.cms with
    | none =>
      rw [hcs] at h
      cases h
      exact ⟨rfl, rfl, fun _ => by rw [if_neg (by decide)]; simp [readError, hcs, readFailure], rfl⟩
    | some cs =>
      rw [hcs] at h
      simp only at h
      have hne : readError env 0x2a w.ctl.cms = none := by simp [readError, hcs]
      split at h
      · cases h; exact okc _ { w with ctl := { w.ctl with indirect := 0 } } ⟨rfl, rfl, rfl, rfl⟩ rfl (by decide) hne
      · split at h
        · cases h
        · next e w1 he =>
          cases h
          obtain ⟨hm, hx⟩ := regionSize_mute he
          obtain ⟨t, hx⟩ := hx e rfl
          refine ⟨hm.hw, hm.recovery, fun hF => ?_, hm.sel⟩
          rw [readFailure_proto_other _ _ (hF.size _ _ _ hx), if_neg (by decide), hne]
          exact hm.proto
        · next n w1 he =>
          cases h
          obtain ⟨hm, -⟩ := regionSize_mute he
          exact okc _ { w1 with ctl := { w1.ctl with indirect := 0 } } (hm.trans ⟨rfl, rfl, rfl, rfl⟩) rfl (by decide) hne
  split at h
  · next e =>
    subst e
    unfold readIndirectData at h
    cases hcs : env.cms with
    | none =>
      rw [hcs] at h
      cases h
      exact ⟨rfl, rfl, fun _ => by rw [if_neg (by decide)]; simp [readError, hcs, readFailure], rfl⟩
    | some cs =>
      rw [hcs] at h
      simp only at h
      split at h
      · next hc =>
        cases h
        have hge : w.ctl.cms.toNat ≥ env.count := by
          unfold Env.count; rw [hcs]; rw [List.getElem?_eq_none_iff] at hc; exact hc
        refine ⟨rfl, rfl, fun _ => ?_, rfl⟩
        rw [if_neg (by decide)]
        simp [readError, hcs, hge, readFailure, eCms, eUnsupported, devErr]
      · next c hc =>
        have hlt : ¬ w.ctl.cms.toNat ≥ env.count := by
          unfold Env.count; rw [hcs]
          have := (List.getElem?_eq_some_iff.mp hc).1
          simp only [Option.getD_some]; omega
        have hne : readError env 0x2b w.ctl.cms = none := by simp [readError, hcs, hlt]
        split at h
        · cases h
        · next e w1 he =>
          cases h
          obtain ⟨hm, hx⟩ := regionSize_mute he
          obtain ⟨t, hx⟩ := hx e rfl
          refine ⟨hm.hw, hm.recovery, fun hF => ?_, hm.sel⟩
          rw [readFailure_proto_other _ _ (hF.size _ _ _ hx), if_neg (by decide), hne]
          exact hm.proto
        · next n w1 he =>
          obtain ⟨hm, -⟩ := regionSize_mute he
          have hm1 := hm.trans (wrap_mute n w1)
          split at h
          · cases h
          · next e w2 he2 =>
            cases h
            obtain ⟨hm2, hx⟩ := readPiece_mute he2
            have hm3 := hm1.trans hm2
            refine ⟨hm3.hw, hm3.recovery, fun hF => ?_, hm3.sel⟩
            have hno : e ∉ own := by
              rcases hx e rfl with hx | ⟨t, o, hx⟩
              · rw [hx]; exact hF.flash
              · exact hF.data _ _ _ _ hx
            rw [readFailure_proto_other _ _ hno, if_neg (by decide), hne]
            exact hm3.proto
          · next d w2 he2 =>
            cases h
            obtain ⟨hm2, -⟩ := readPiece_mute he2
            exact okc _ _ ((hm1.trans hm2).trans (advance_mute _ _)) rfl (by decide) hne
  · next h1 h2 h3 h4 h5 h6 h7 h8 h9 =>
    cases h
    refine ⟨rfl, rfl, fun _ => ?_, rfl⟩
    rw [if_neg h3]
    simp [readError, h0, h1, h2, h3, h4, h5, h6, h7, h8, h9, readFailure]

/-- Every read request. -/
theorem readRequest_result (env : Env) (w w' : World) (r : Except Nat Bytes) (h : readRequest env w = some (r, w')) :
    w'.hw = w.hw ∧ w'.ctl.recovery = w.ctl.recovery ∧ (Foreign env → w'.ctl.proto = reported env w) ∧
    w'.ctl.cms = w.ctl.cms ∧ w'.ctl.active = 0 := by
  unfold readRequest at h
  split at h
  · next h0 =>
    cases h
    refine ⟨rfl, rfl, fun _ => ?_, rfl, h0⟩
    unfold reported reportAfterRead
    rw [h0, if_neg (by decide)]
    simp [readError]
  · next h0 =>
    cases hs : readSwitch env w with
    | none => rw [hs] at h; cases h
    | some x =>
      rw [hs] at h
      simp only [Option.map_some, Option.some.injEq, Prod.mk.injEq] at h
      obtain ⟨-, rfl⟩ := h
      obtain ⟨h1, h2, h3, h4⟩ := readSwitch_result env w h0 x hs
      obtain ⟨m1, m2, m3⟩ := readFailure_mute x
      exact ⟨m1.trans h1, m2.trans h2, h3, m3.trans h4, rfl⟩

end Verif.OcpRecovery
