import Verif.OcpRecovery.Transfer
/-! Hardware actions, recovery status and error report of every call. -/
namespace Verif.OcpRecovery
open Verif.Flash (Mem FS)

/-- Calls that do not touch hardware, status and report. -/
structure Mute (w w' : World) : Prop where
  hw : w'.hw = w.hw
  recovery : w'.ctl.recovery = w.ctl.recovery
  proto : w'.ctl.proto = w.ctl.proto
  sel : w'.ctl.cms = w.ctl.cms

theorem Mute.refl (w : World) : Mute w w := ⟨rfl, rfl, rfl, rfl⟩
theorem Mute.trans {a b c : World} (h : Mute a b) (h' : Mute b c) : Mute a c :=
  ⟨h'.hw.trans h.hw, h'.recovery.trans h.recovery, h'.proto.trans h.proto, h'.sel.trans h.sel⟩

theorem wrap_mute (n : Nat) (w : World) : Mute w (wrap n w) := by unfold wrap; split <;> exact ⟨rfl, rfl, rfl, rfl⟩
theorem advance_mute (n : Nat) (w : World) : Mute w (advance n w) := ⟨rfl, rfl, rfl, rfl⟩

theorem memPiece_mute {i : Nat} {c : Cms} {d : Bytes} {w w' : World} (h : memPiece i c d w = some w') : Mute w w' := by
  unfold memPiece at h
  split at h
  · split at h
    · cases h; exact ⟨rfl, rfl, rfl, rfl⟩
    · cases h
  · cases h

theorem flashPiece_mute (env : Env) (i b : Nat) (d : Bytes) (w : World) : Mute w (flashPiece env i b d w).2 := by
  obtain ⟨h1, h2, -⟩ := flashPiece_calm env i b d w
  exact ⟨h1.hw, by rw [h2], by rw [h2], by rw [h2]⟩

theorem flashPiece_err {env : Env} {i b : Nat} {d : Bytes} {w w' : World} {e : Nat} (h : flashPiece env i b d w = (.err e, w')) :
    e = env.flashErr := by
  unfold flashPiece at h
  split at h
  · next e' w1 hr =>
    simp only [Prod.mk.injEq, Status.err.injEq] at h
    obtain ⟨rfl, rfl⟩ := h
    unfold flashErase at hr
    repeat' split at hr
    all_goals simp_all
  · split at h
    all_goals simp_all

theorem writeLoop_mute (env : Env) (i : Nat) (c : Cms) : ∀ (fuel : Nat) (d : Bytes) (w w' : World) (st : Status),
    writeLoop env i c fuel d w = some (st, w') → Mute w w' ∧ (∀ e, st = .err e → e = env.flashErr) := by
  intro fuel
  induction fuel with
  | zero => intro d w w' st h; simp [writeLoop] at h
  | succ fuel ih =>
    intro d w w' st h
    simp only [writeLoop] at h
    generalize hn : min d.length (c.length - (wrap c.length w).ctl.offset) = n at h
    split at h
    · cases h
    · next e w1 hr =>
      simp only [Option.some.injEq, Prod.mk.injEq] at h
      obtain ⟨rfl, rfl⟩ := h
      split at hr
      · cases hb : c.target.asFlash with
        | none => rw [hb] at hr; cases hr
        | some b =>
          rw [hb] at hr
          simp only [Option.map_some, Option.some.injEq] at hr
          have hm := flashPiece_mute env i b (d.take n) (wrap c.length w)
          rw [hr] at hm
          exact ⟨(wrap_mute _ _).trans hm, fun e' he => by cases he; exact flashPiece_err hr⟩
      · cases hb : memPiece i c (d.take n) (wrap c.length w) with
        | none => rw [hb] at hr; cases hr
        | some w2 => rw [hb] at hr; simp at hr
    · next k w1 hr =>
      have hm1 : Mute w w1 := by
        split at hr
        · cases hb : c.target.asFlash with
          | none => rw [hb] at hr; cases hr
          | some b =>
            rw [hb] at hr
            simp only [Option.map_some, Option.some.injEq] at hr
            have hm := flashPiece_mute env i b (d.take n) (wrap c.length w)
            rw [hr] at hm
            exact (wrap_mute _ _).trans hm
        · cases hb : memPiece i c (d.take n) (wrap c.length w) with
          | none => rw [hb] at hr; cases hr
          | some w2 =>
            rw [hb] at hr
            simp only [Option.map_some, Option.some.injEq, Prod.mk.injEq] at hr
            obtain ⟨-, rfl⟩ := hr
            exact (wrap_mute _ _).trans (memPiece_mute hb)
      split at h
      · obtain ⟨h1, h2⟩ := ih _ _ _ _ h
        exact ⟨(hm1.trans (advance_mute _ _)).trans h1, h2⟩
      · simp only [Option.some.injEq, Prod.mk.injEq] at h
        obtain ⟨rfl, rfl⟩ := h
        exact ⟨hm1.trans (advance_mute _ _), fun e he => nomatch he⟩

/-- The codes the handler uses for its report. -/
def own : List Nat := [eUnsupported, eReadOnly, eParam, eCms, eIncomplete, eExtra]

theorem writeFailure_mute (r : Status × World) : (writeFailure r).hw = r.2.hw ∧ (writeFailure r).ctl.recovery = r.2.ctl.recovery ∧
    (writeFailure r).ctl.cms = r.2.ctl.cms := by
  unfold writeFailure
  repeat' split
  all_goals exact ⟨rfl, rfl, rfl⟩

theorem writeFailure_proto_ok (n : Nat) (w : World) : (writeFailure (.ok n, w)).ctl.proto = w.ctl.proto := rfl

theorem writeFailure_proto_other (e : Nat) (w : World) (h : e ∉ own) : (writeFailure (.err e, w)).ctl.proto = w.ctl.proto := by
  simp only [own, List.mem_cons, List.not_mem_nil, or_false, not_or] at h
  simp only [writeFailure]
  rw [if_neg (by simp [h.1, h.2.1]), if_neg (by simp [h.2.2.1, h.2.2.2.1]), if_neg (by simp [h.2.2.2.2.1, h.2.2.2.2.2])]

theorem readFailure_proto_other (e : Nat) (w : World) (h : e ∉ own) : (readFailure (.error e, w)).ctl.proto = w.ctl.proto := by
  simp only [own, List.mem_cons, List.not_mem_nil, or_false, not_or] at h
  simp only [readFailure]
  rw [if_neg (by simp [h.1]), if_neg (by simp [h.2.2.2.1])]

/-- The result of a write request in three parts: the actions, the recovery status and the report. -/
structure Result (env : Env) (active sel : UInt8) (d : Bytes) (w w' : World) : Prop where
  hw : w'.hw = w.hw ++ action env active d
  recovery : w'.ctl.recovery = recoveryAfter env active d (fun i => (env.activate w.tick i).map (·.2)) w.ctl.recovery
  proto : Foreign env → w'.ctl.proto = (writeError env active sel d).getD w.ctl.proto
  sel : w'.ctl.cms = selectedAfter env active d w.ctl.cms
  done : w'.ctl.active = 0

theorem length3 {d : Bytes} (h : d.length = 3) : d = [d.getD 0 0, d.getD 1 0, d.getD 2 0] := by
  match d, h with
  | [a, b, c], _ => rfl

theorem writeFailure_of (st : Status) (w : World) (p : Option UInt8)
    (h : ∀ e, st = .err e → (writeFailure (.err e, w)).ctl.proto = p.getD w.ctl.proto) (h' : ∀ n, st = .ok n → p = none) :
    (writeFailure (st, w)).ctl.proto = p.getD w.ctl.proto := by
  cases st with
  | ok n => rw [h' n rfl]; rfl
  | err e => exact h e rfl

theorem proto_param (w : World) : (writeFailure (.err eParam, w)).ctl.proto = 2 := rfl
theorem proto_cms (w : World) : (writeFailure (.err eCms, w)).ctl.proto = 2 := rfl
theorem proto_unsupported (w : World) : (writeFailure (.err eUnsupported, w)).ctl.proto = 1 := rfl
theorem proto_ro (w : World) : (writeFailure (.err eReadOnly, w)).ctl.proto = 1 := rfl
theorem proto_extra (w : World) : (writeFailure (.err eExtra, w)).ctl.proto = 3 := rfl
theorem proto_incomplete (w : World) : (writeFailure (.err eIncomplete, w)).ctl.proto = 3 := rfl
theorem proto_code (w : World) : (writeFailure (.err eNotCode, w)).ctl.proto = w.ctl.proto := rfl
theorem proto_rocms (w : World) : (writeFailure (.err eRoCms, w)).ctl.proto = w.ctl.proto := rfl

/-- The reset command. -/
theorem writeReset_result (env : Env) (a b c : UInt8) (w : World) :
    (writeReset env ⟨a, b, c⟩ w).2.hw = w.hw ++ action env 0x25 [a, b, c] ∧
    (writeReset env ⟨a, b, c⟩ w).2.ctl.recovery = w.ctl.recovery ∧
    (writeFailure (writeReset env ⟨a, b, c⟩ w)).ctl.proto = (writeError env 0x25 0 [a, b, c]).getD w.ctl.proto ∧
    (writeReset env ⟨a, b, c⟩ w).2.ctl.cms = w.ctl.cms := by
  simp only [writeReset, action, writeError, List.length_cons, List.length_nil, List.getD_cons_zero, List.getD_cons_succ,
    show ¬ ((0x25 : UInt8) = 0) from by decide, if_true, if_false, ne_eq, not_true_eq_false]
  by_cases hc : c = 0
  · subst hc
    by_cases hf : b = 0x0f ∧ env.hasForced = false
    · obtain ⟨rfl, hff⟩ := hf
      simp [hff, proto_param]
    · have hf' : ¬ ((!env.hasForced) = true ∧ b = 0x0f) := by
        intro h; exact hf ⟨h.2, by simpa using h.1⟩
      rw [if_neg (by simp), if_neg hf']
      by_cases h1 : a = 1
      · subst h1
        cases hr : env.hasReset with
        | true => simp [storeReset, hf, writeFailure_proto_ok, hr]
        | false => simp [proto_param, hf, hr]
      · by_cases h2 : a = 2
        · subst h2
          cases hr : env.hasMgmt with
          | true => simp [storeReset, hf, writeFailure_proto_ok, hr]
          | false => simp [proto_param, hf, hr]
        · simp [h1, h2, storeReset, hf, writeFailure_proto_ok]
  · simp [hc, proto_param]

/-- The recovery control command. -/
theorem writeRecCtrl_result (env : Env) (a b c : UInt8) (w : World) :
    (writeRecCtrl env ⟨a, b, c⟩ w).2.hw = w.hw ++ action env 0x26 [a, b, c] ∧
    (writeRecCtrl env ⟨a, b, c⟩ w).2.ctl.recovery =
      recoveryAfter env 0x26 [a, b, c] (fun i => (env.activate w.tick i).map (·.2)) w.ctl.recovery ∧
    (Foreign env → (writeFailure (writeRecCtrl env ⟨a, b, c⟩ w)).ctl.proto = (writeError env 0x26 0 [a, b, c]).getD w.ctl.proto) ∧
    (writeRecCtrl env ⟨a, b, c⟩ w).2.ctl.cms = w.ctl.cms := by
  simp only [writeRecCtrl, action, recoveryAfter, writeError, List.length_cons, List.length_nil, List.getD_cons_zero, List.getD_cons_succ,
    show ¬ ((0x26 : UInt8) = 0) from by decide, show ¬ ((0x26 : UInt8) = 0x25) from by decide, if_true, if_false, ne_eq, not_true_eq_false,
    true_and]
  cases hc : (env.cms.getD [])[a.toNat]? with
  | none =>
    have hr : region env a.toNat = none := hc
    have hge : a.toNat ≥ env.count := by unfold Env.count; rw [List.getElem?_eq_none_iff] at hc; exact hc
    refine ⟨by simp [hr], by simp [hr], fun _ => ?_, rfl⟩
    rw [if_pos (Or.inl hge)]; rfl
  | some k =>
    have hr : region env a.toNat = some k := hc
    have hlt : ¬ a.toNat ≥ env.count := by
      unfold Env.count
      have := (List.getElem?_eq_some_iff.mp hc).1
      omega
    simp only [hlt, false_or, hr]
    by_cases hb2 : b = 2
    · subst hb2
      simp [proto_param]
    · by_cases hact : env.hasActivate = false ∧ (b = 1 ∨ c = 0x0f)
      · obtain ⟨hh, hbc⟩ := hact
        rw [if_neg hb2, if_pos ⟨by simp [hh], hbc⟩]
        exact ⟨by simp [hh], by simp [hh], fun _ => by rw [if_pos (Or.inr ⟨hh, hbc⟩)]; rfl, rfl⟩
      · have hact' : ¬ ((!env.hasActivate) = true ∧ (b = 1 ∨ c = 0x0f)) := by
          intro h; exact hact ⟨by simpa using h.1, h.2⟩
        rw [if_neg hb2, if_neg hact']
        have hnone : ¬ (b = 2 ∨ env.hasActivate = false ∧ (b = 1 ∨ c = 0x0f)) := by
          rintro (h | h)
          · exact hb2 h
          · exact hact h
        rw [if_neg hnone]
        by_cases hb1 : b = 1
        · subst hb1
          have hyes : env.hasActivate = true := by
            cases h : env.hasActivate with
            | true => rfl
            | false => exact absurd ⟨h, Or.inl rfl⟩ hact
          by_cases hk : k.type = 0
          · by_cases hc15 : c = 0x0f
            · subst hc15
              simp only [hk, hyes, if_true, not_true_eq_false, if_false, and_self, false_or, reduceCtorEq]
              cases he : env.activate w.tick a.toNat with
              | none => exact ⟨rfl, rfl, fun _ => rfl, rfl⟩
              | some x =>
                obtain ⟨code, auth⟩ := x
                refine ⟨rfl, ?_, fun hF => ?_, rfl⟩
                · cases auth <;> rfl
                · exact writeFailure_proto_other _ _ (hF.hw _ _ _ _ he)
            · simp [hk, hyes, hc15, storeRec, writeFailure_proto_ok]
          · simp [hk, hyes, storeRec, proto_code]
        · simp only [if_neg hb1]
          refine ⟨?_, ?_, fun _ => rfl, rfl⟩
          · simp [storeRec, hb1]
          · simp [storeRec, hb1]

theorem writeError_sel (env : Env) (a s s' : UInt8) (d : Bytes) (h : a ≠ 0x2b) : writeError env a s d = writeError env a s' d := by
  unfold writeError; simp [h]

/-- Every write request. -/
theorem writeRequest_result (env : Env) (d : Bytes) (w w' : World) (st : Status) (h : writeRequest env d w = some (st, w')) :
    Result env w.ctl.active w.ctl.cms d w w' := by
  unfold writeRequest at h
  cases hs : writeSwitch env d w with
  | none => rw [hs] at h; cases h
  | some r =>
    rw [hs] at h
    simp only [Option.map_some, Option.some.injEq, Prod.mk.injEq] at h
    obtain ⟨-, rfl⟩ := h
    suffices hh : r.2.hw = w.hw ++ action env w.ctl.active d ∧
        r.2.ctl.recovery = recoveryAfter env w.ctl.active d (fun i => (env.activate w.tick i).map (·.2)) w.ctl.recovery ∧
        (Foreign env → (writeFailure r).ctl.proto = (writeError env w.ctl.active w.ctl.cms d).getD w.ctl.proto) ∧
        r.2.ctl.cms = selectedAfter env w.ctl.active d w.ctl.cms by
      obtain ⟨m1, m2, m3⟩ := writeFailure_mute r
      exact ⟨m1.trans hh.1, m2.trans hh.2.1, hh.2.2.1, m3.trans hh.2.2.2, rfl⟩
    unfold writeSwitch at hs
    generalize ha : w.ctl.active = act at hs ⊢
    have sizes : ∀ (n : Nat) (f : World → Status × World), d.length ≠ n → (sized n d f w).2 = w ∧ (writeFailure (sized n d f w)).ctl.proto = 3 := by
      intro n f hne
      unfold sized
      rw [if_neg hne]
      split
      · exact ⟨rfl, rfl⟩
      · exact ⟨rfl, rfl⟩
    split at hs
    · next h0 =>
      cases hs; subst h0
      refine ⟨by simp [action], by simp [recoveryAfter], fun _ => ?_, by simp [selectedAfter]⟩
      rfl
    next h0 =>
    split at hs
    · next h1 =>
      cases hs; subst h1
      by_cases hl : d.length = 3
      · rw [length3 hl]
        obtain ⟨x1, x2, x3, x4⟩ := writeReset_result env (d.getD 0 0) (d.getD 1 0) (d.getD 2 0) w
        have e : sized 3 [d.getD 0 0, d.getD 1 0, d.getD 2 0] (writeReset env ⟨d.getD 0 0, d.getD 1 0, d.getD 2 0⟩) w =
          writeReset env ⟨d.getD 0 0, d.getD 1 0, d.getD 2 0⟩ w := rfl
        simp only [List.getD_cons_zero, List.getD_cons_succ] at e ⊢
        rw [e]
        refine ⟨x1, x2.trans (by simp [recoveryAfter]), fun _ => ?_, x4.trans (by simp [selectedAfter])⟩
        rw [x3, writeError_sel env _ 0 w.ctl.cms _ (by decide)]
      · obtain ⟨y1, y2⟩ := sizes 3 (writeReset env ⟨d.getD 0 0, d.getD 1 0, d.getD 2 0⟩) hl
        have ea : action env 0x25 d = [] := by
          simp only [action, if_true]
          split
          · simp at hl
          · rfl
        refine ⟨by rw [y1, ea]; simp, by rw [y1]; simp [recoveryAfter], fun _ => ?_, by rw [y1]; simp [selectedAfter]⟩
        rw [y2]
        simp [writeError, hl]
    next h1 =>
    split at hs
    · next h2 =>
      cases hs; subst h2
      by_cases hl : d.length = 3
      · rw [length3 hl]
        obtain ⟨x1, x2, x3, x4⟩ := writeRecCtrl_result env (d.getD 0 0) (d.getD 1 0) (d.getD 2 0) w
        have e : sized 3 [d.getD 0 0, d.getD 1 0, d.getD 2 0] (writeRecCtrl env ⟨d.getD 0 0, d.getD 1 0, d.getD 2 0⟩) w =
          writeRecCtrl env ⟨d.getD 0 0, d.getD 1 0, d.getD 2 0⟩ w := rfl
        simp only [List.getD_cons_zero, List.getD_cons_succ] at e ⊢
        rw [e]
        refine ⟨x1, x2, fun hF => ?_, x4.trans (by simp [selectedAfter])⟩
        rw [x3 hF, writeError_sel env _ 0 w.ctl.cms _ (by decide)]
      · obtain ⟨y1, y2⟩ := sizes 3 (writeRecCtrl env ⟨d.getD 0 0, d.getD 1 0, d.getD 2 0⟩) hl
        have ea : action env 0x26 d = [] := by
          simp only [action, show ¬ ((0x26 : UInt8) = 0x25) from by decide, if_false, if_true]
          split
          · simp at hl
          · rfl
        have er : ∀ f o, recoveryAfter env 0x26 d f o = o := by
          intro f o
          unfold recoveryAfter
          split
          · split
            · simp at hl
            · rfl
          · rfl
        refine ⟨by rw [y1, ea]; simp, by rw [y1, er], fun _ => ?_, by rw [y1]; simp [selectedAfter, hl]⟩
        rw [y2]
        simp [writeError, hl]
    next h2 =>
    have ea : action env act d = [] := by simp [action, h1, h2]
    have er : ∀ f o, recoveryAfter env act d f o = o := by intro f o; simp [recoveryAfter, h2]
    split at hs
    · next h3 =>
      cases hs; subst h3
      by_cases hl : d.length = 6
      · unfold sized
        rw [if_pos hl]
        unfold writeIndirectCtrl
        cases hcs : env.cms with
        | none =>
          refine ⟨by rw [ea]; simp, by rw [er], fun _ => ?_, by simp [selectedAfter, *]⟩
          simp [writeError, hl, hcs, proto_unsupported]
        | some cs =>
          refine ⟨by rw [ea]; simp, by rw [er], fun _ => ?_, by simp [selectedAfter, *]⟩
          simp [writeError, hl, hcs, writeFailure_proto_ok]
      · obtain ⟨y1, y2⟩ := sizes 6 (writeIndirectCtrl env (d.getD 0 0) (d.getD 1 0) (leNat (d.drop 2))) hl
        refine ⟨by rw [y1, ea]; simp, by rw [y1, er], fun _ => ?_, by rw [y1]; simp [selectedAfter, hl]⟩
        rw [y2]
        simp [writeError, hl]
    next h3 =>
    split at hs
    · next h4 =>
      subst h4
      unfold writeIndirectData at hs
      cases hcs : env.cms with
      | none =>
        rw [hcs] at hs
        cases hs
        refine ⟨by rw [ea]; simp, by rw [er], fun _ => ?_, by simp [selectedAfter, *]⟩
        simp [writeError, hcs, proto_unsupported]
      | some cs =>
        rw [hcs] at hs
        simp only at hs
        cases hc : cs[w.ctl.cms.toNat]? with
        | none =>
          rw [hc] at hs
          cases hs
          have hge : w.ctl.cms.toNat ≥ env.count := by
            unfold Env.count; rw [hcs]; rw [List.getElem?_eq_none_iff] at hc; exact hc
          refine ⟨by rw [ea]; simp, by rw [er], fun _ => ?_, by simp [selectedAfter, *]⟩
          simp [writeError, hcs, proto_cms, hge]
        | some c =>
          rw [hc] at hs
          simp only at hs
          have hlt : ¬ w.ctl.cms.toNat ≥ env.count := by
            unfold Env.count; rw [hcs]
            have := (List.getElem?_eq_some_iff.mp hc).1
            simp only [Option.getD_some]; omega
          have ew : writeError env 0x2b w.ctl.cms d = none := by
            simp [writeError, hcs, hlt]
          split at hs
          · cases hs
            refine ⟨by rw [ea]; simp, by rw [er], fun _ => ?_, by simp [selectedAfter, *]⟩
            rw [ew]; exact proto_rocms _
          · obtain ⟨st', w''⟩ := r
            obtain ⟨g1, g2⟩ := writeLoop_mute env _ c _ d w w'' st' hs
            refine ⟨by rw [ea]; simpa using g1.hw, by rw [er]; exact g1.recovery, fun hF => ?_, g1.sel.trans (by simp [selectedAfter])⟩
            rw [ew]
            cases st' with
            | ok n => exact g1.proto
            | err e =>
              rw [g2 e rfl, writeFailure_proto_other _ _ hF.flash]
              exact g1.proto
    next h4 =>
    have ew : writeError env act w.ctl.cms d = some 1 := by simp [writeError, h0, h1, h2, h3, h4]
    split at hs
    · cases hs
      exact ⟨by rw [ea]; simp, by rw [er], fun _ => by rw [ew]; rfl, by simp [selectedAfter, h3]⟩
    · cases hs
      exact ⟨by rw [ea]; simp, by rw [er], fun _ => by rw [ew]; rfl, by simp [selectedAfter, h3]⟩

end Verif.OcpRecovery
