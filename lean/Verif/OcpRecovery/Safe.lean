import Verif.OcpRecovery.FlashLemmas
/-! Every call: it does not fail to return, and what it leaves alone. -/
namespace Verif.OcpRecovery
open Verif.Flash (Mem FS)

/-- What holds between calls. -/
structure Inv (env : Env) (w : World) : Prop where
  plat : Platform env w
  rw : ∀ i c, region env i = some c → (c.type = 0 ∨ c.type = 5) → c.length % 4 = 0 ∧ 0 < c.length
  off : w.ctl.offset % 4 = 0

/-- The mark of the flash region. -/
def MarkInv (env : Env) (w : World) : Prop :=
  ∀ c b, region env 0 = some c → c.target = .flash b → Mark env.flash.sector b c.length (w.erased 0)

/-- What is left alone. -/
structure Frame (env : Env) (w w' : World) : Prop where
  lens : ∀ i, (w'.mem i).length = (w.mem i).length
  ro : ∀ i, ¬ Writable env i → w'.mem i = w.mem i
  tail : ∀ i c, region env i = some c → (w'.mem i).drop c.length = (w.mem i).drop c.length
  flash : OneFlash env → MarkInv env w → MarkInv env w' ∧ ∀ a, ¬ InFlashWindow env a → w'.fs.mem a = w.fs.mem a

theorem Frame.refl (env : Env) (w : World) : Frame env w w :=
  ⟨fun _ => rfl, fun _ _ => rfl, fun _ _ _ => rfl, fun _ h => ⟨h, fun _ _ => rfl⟩⟩

theorem Frame.trans {env : Env} {a b c : World} (h : Frame env a b) (h' : Frame env b c) : Frame env a c :=
  ⟨fun i => (h'.lens i).trans (h.lens i), fun i hi => (h'.ro i hi).trans (h.ro i hi),
    fun i c hc => (h'.tail i c hc).trans (h.tail i c hc), fun ho hm =>
      ⟨(h'.flash ho (h.flash ho hm).1).1, fun x hx => ((h'.flash ho (h.flash ho hm).1).2 x hx).trans ((h.flash ho hm).2 x hx)⟩⟩

theorem Platform.mono {env : Env} {w w' : World} (h : Platform env w) (hl : ∀ i, (w'.mem i).length = (w.mem i).length) :
    Platform env w' :=
  ⟨fun i c hc ht => by rw [hl i]; exact h.buffers i c hc ht, h.providers, h.flashes, h.sizes, h.data, h.ident⟩

/-- Memory, flash and marks are the same. -/
structure Same (w w' : World) : Prop where
  mem : w'.mem = w.mem
  fs : w'.fs.mem = w.fs.mem
  erased : w'.erased = w.erased

theorem Same.refl (w : World) : Same w w := ⟨rfl, rfl, rfl⟩
theorem Same.trans {a b c : World} (h : Same a b) (h' : Same b c) : Same a c :=
  ⟨h'.mem.trans h.mem, h'.fs.trans h.fs, h'.erased.trans h.erased⟩

theorem Same.frame {env : Env} {w w' : World} (h : Same w w') : Frame env w w' :=
  ⟨fun i => by rw [h.mem], fun i _ => by rw [h.mem], fun i _ _ => by rw [h.mem],
    fun _ hm => ⟨fun c b hc ht => by rw [h.erased]; exact hm c b hc ht, fun a _ => by rw [h.fs]⟩⟩

/-- A step that leaves the memory alone and keeps the position a multiple of four. -/
structure Idle (w w' : World) : Prop extends Same w w' where
  off : w.ctl.offset % 4 = 0 → w'.ctl.offset % 4 = 0

theorem Idle.refl (w : World) : Idle w w := ⟨Same.refl w, id⟩
theorem Idle.trans {a b c : World} (h : Idle a b) (h' : Idle b c) : Idle a c := ⟨h.toSame.trans h'.toSame, fun x => h'.off (h.off x)⟩
theorem Idle.mk' {w w' : World} (h1 : w'.mem = w.mem) (h2 : w'.fs.mem = w.fs.mem) (h3 : w'.erased = w.erased)
    (h4 : w'.ctl.offset = w.ctl.offset) : Idle w w' := ⟨⟨h1, h2, h3⟩, fun h => by rw [h4]; exact h⟩

theorem writeFailure_idle (r : Status × World) : Idle r.2 (writeFailure r) := by
  unfold writeFailure
  split
  · exact Idle.refl _
  · repeat' split
    all_goals exact Idle.mk' rfl rfl rfl rfl

theorem readFailure_idle (r : Except Nat Bytes × World) : Idle r.2 (readFailure r) := by
  unfold readFailure
  split
  · exact Idle.refl _
  · repeat' split
    all_goals exact Idle.mk' rfl rfl rfl rfl

theorem inactive_idle (w : World) : Idle w (inactive w) := Idle.mk' rfl rfl rfl rfl

theorem writeReset_idle (env : Env) (r : Reset) (w : World) : Idle w (writeReset env r w).2 := by
  unfold writeReset
  repeat' split
  all_goals exact Idle.mk' rfl rfl rfl rfl

theorem writeRecCtrl_idle (env : Env) (r : RecCtrl) (w : World) : Idle w (writeRecCtrl env r w).2 := by
  unfold writeRecCtrl
  split
  · exact Idle.refl _
  · repeat' split
    all_goals first
      | exact Idle.mk' rfl rfl rfl rfl
      | (simp only []; split <;> exact Idle.mk' rfl rfl rfl rfl)

theorem writeIndirectCtrl_idle (env : Env) (a b : UInt8) (o : Nat) (w : World) : Idle w (writeIndirectCtrl env a b o w).2 := by
  unfold writeIndirectCtrl
  split
  · exact Idle.refl _
  · refine ⟨⟨rfl, rfl, rfl⟩, fun _ => ?_⟩
    show (o + 3) % 2 ^ 32 / 4 * 4 % 4 = 0
    omega

theorem sized_idle (n : Nat) (d : Bytes) (f : World → Status × World) (w : World) (h : Idle w (f w).2) : Idle w (sized n d f w).2 := by
  unfold sized
  repeat' split
  · exact h
  · exact Idle.refl _
  · exact Idle.refl _

theorem region_of {env : Env} {cs : List Cms} {i : Nat} {c : Cms} (h : env.cms = some cs) (hc : cs[i]? = some c) : region env i = some c := by
  unfold region; rw [h]; exact hc

/-- Storing data. -/
theorem writeIndirectData_safe (env : Env) (d : Bytes) (w : World) (hi : Inv env w) : ∃ st w', writeIndirectData env d w = some (st, w') ∧
    Frame env w w' ∧ w'.ctl.offset % 4 = 0 := by
  cases hcs : env.cms with
  | none => exact ⟨_, _, by simp only [writeIndirectData, hcs]; rfl, Frame.refl _ _, hi.off⟩
  | some cs =>
    cases hc : cs[w.ctl.cms.toNat]? with
    | none => exact ⟨_, _, by simp only [writeIndirectData, hcs, hc]; rfl, Frame.refl _ _, hi.off⟩
    | some c =>
      have hr := region_of hcs hc
      by_cases hty : c.type = 0 ∨ c.type = 5
      · obtain ⟨h4, h0⟩ := hi.rw _ c hr hty
        have h32 := hi.plat.sizes _ c hr
        cases ht : c.target with
        | provider =>
          have := (hi.plat.providers _ c hr ht).2
          omega
        | buffer =>
          obtain ⟨hf, -, hm⟩ := hi.plat.buffers _ c hr ht
          refine ⟨_, _, write_mem env w d cs c hcs hc hty ht hf h0 h4 h32 hm hi.off, ⟨?_, ?_, ?_, ?_⟩, ?_⟩
          · intro j
            by_cases hj : j = w.ctl.cms.toNat
            · subst hj
              simp only [stored, setAt_same, stream_length]
            · simp only [stored, setAt_ne _ _ _ _ hj]
          · intro j hj
            have : j ≠ w.ctl.cms.toNat := by rintro rfl; exact hj ⟨c, hr, hty⟩
            simp only [stored, setAt_ne _ _ _ _ this]
          · intro j c' hc'
            by_cases hj : j = w.ctl.cms.toNat
            · subst hj
              rw [hr] at hc'; cases hc'
              simp only [stored, setAt_same, stream_drop _ h0]
            · simp only [stored, setAt_ne _ _ _ _ hj]
          · intro _ hm
            exact ⟨hm, fun _ _ => rfl⟩
          · simp only [stored, align4]; omega
        | flash b =>
          obtain ⟨hf, -⟩ := hi.plat.flashes _ c b hr ht
          obtain ⟨st, w', e, hcalm, ho, hmark⟩ := flashLoop env w.ctl.cms.toNat c b ht hf h0 h4 h32 (d.length + 1) d w (Nat.lt_succ_self _) hi.off
          have hno : ¬ (c.type ≠ 0 ∧ c.type ≠ 5) := by rcases hty with h | h <;> simp [h]
          refine ⟨st, w', by simp only [writeIndirectData, hcs, hc]; rw [if_neg hno]; exact e, ⟨?_, ?_, ?_, ?_⟩, ho⟩
          · intro j; rw [hcalm.mem]
          · intro j _; rw [hcalm.mem]
          · intro j _ _; rw [hcalm.mem]
          · intro hone hmk
            have hidx : w.ctl.cms.toNat = 0 := hone.only _ c b hr ht
            rw [hidx] at hmark hr
            obtain ⟨s1, s2, s3⟩ := hone.sectors c b hr ht
            obtain ⟨m1, m2⟩ := hmark ⟨hone.size, s1, s2, s3⟩ (hmk c b hr ht)
            refine ⟨fun c' b' hc' ht' => ?_, fun a ha => m2 a ?_⟩
            · rw [hr] at hc'; cases hc'
              rw [ht] at ht'; cases ht'
              exact m1
            · by_cases hb : a < b
              · exact Or.inl hb
              · refine Or.inr (Nat.le_of_not_lt fun hlt => ha ⟨0, c, b, hr, ht, hty, by omega, hlt⟩)
      · have hyes : c.type ≠ 0 ∧ c.type ≠ 5 := ⟨fun h => hty (Or.inl h), fun h => hty (Or.inr h)⟩
        simp only [writeIndirectData, hcs, hc]
        rw [if_pos hyes]
        exact ⟨_, _, rfl, Same.frame ⟨rfl, rfl, rfl⟩, hi.off⟩

theorem writeSwitch_safe (env : Env) (d : Bytes) (w : World) (hi : Inv env w) : ∃ st w', writeSwitch env d w = some (st, w') ∧
    Frame env w w' ∧ w'.ctl.offset % 4 = 0 := by
  have idle : ∀ (r : Status × World), Idle w r.2 → ∃ st w', some r = some (st, w') ∧ Frame env w w' ∧ w'.ctl.offset % 4 = 0 :=
    fun r h => ⟨r.1, r.2, rfl, h.toSame.frame, h.off hi.off⟩
  unfold writeSwitch
  split
  · exact idle (_, w) (Idle.refl _)
  split
  · exact idle _ (sized_idle _ _ _ _ (writeReset_idle _ _ _))
  split
  · exact idle _ (sized_idle _ _ _ _ (writeRecCtrl_idle _ _ _))
  split
  · exact idle _ (sized_idle _ _ _ _ (writeIndirectCtrl_idle _ _ _ _ _))
  split
  · exact writeIndirectData_safe env d w hi
  split
  · exact idle (_, w) (Idle.refl _)
  · exact idle (_, w) (Idle.refl _)

theorem writeRequest_safe (env : Env) (d : Bytes) (w : World) (hi : Inv env w) : ∃ st w', writeRequest env d w = some (st, w') ∧
    Frame env w w' ∧ w'.ctl.offset % 4 = 0 := by
  obtain ⟨st, w', e, hf, ho⟩ := writeSwitch_safe env d w hi
  have h := (writeFailure_idle (st, w')).trans (inactive_idle _)
  exact ⟨st, _, by unfold writeRequest; rw [e]; rfl, hf.trans h.toSame.frame, h.off ho⟩

theorem regionSize_safe (env : Env) (i : Nat) (c : Cms) (w : World) (h : c.length = 0 → c.target = .provider) :
    ∃ r w', regionSize env i c w = some (r, w') ∧ Idle w w' ∧ w'.ctl = w.ctl ∧ (0 < c.length → r = .ok c.length ∧ w' = w) := by
  unfold regionSize
  split
  · next h0 =>
    rw [h h0]
    exact ⟨_, _, rfl, Idle.mk' rfl rfl rfl rfl, rfl, fun h => by omega⟩
  · exact ⟨_, _, rfl, Idle.refl _, rfl, fun _ => ⟨rfl, rfl⟩⟩

theorem readIndirectStatus_safe (env : Env) (w : World) (hi : Inv env w) : ∃ r w', readIndirectStatus env w = some (r, w') ∧ Idle w w' := by
  cases hcs : env.cms with
  | none => exact ⟨_, _, by simp only [readIndirectStatus, hcs]; rfl, Idle.refl _⟩
  | some cs =>
    cases hc : cs[w.ctl.cms.toNat]? with
    | none =>
      simp only [readIndirectStatus, hcs, hc]
      exact ⟨_, _, rfl, Idle.mk' rfl rfl rfl rfl⟩
    | some c =>
      have hr := region_of hcs hc
      have hp : c.length = 0 → c.target = .provider := by
        intro h0
        cases ht : c.target with
        | provider => rfl
        | buffer => have := (hi.plat.buffers _ c hr ht).2.1; omega
        | flash b => have := (hi.plat.flashes _ c b hr ht).2; omega
      obtain ⟨r, w', e, h1, -, -⟩ := regionSize_safe env w.ctl.cms.toNat c w hp
      simp only [readIndirectStatus, hcs, hc, e]
      cases r with
      | error e => exact ⟨_, _, rfl, h1⟩
      | ok n => exact ⟨_, _, rfl, h1.trans (Idle.mk' rfl rfl rfl rfl)⟩

theorem readPiece_safe (env : Env) (i : Nat) (c : Cms) (w : World) (hi : Platform env w) (hr : region env i = some c) :
    ∃ r w', readPiece env i c w = some (r, w') ∧ Idle w w' ∧ w'.ctl = w.ctl ∧ ∀ d, r = .ok d → d.length ≤ 252 := by
  unfold readPiece
  cases ht : c.target with
  | provider =>
    obtain ⟨hf, h0⟩ := hi.providers _ c hr ht
    rw [if_pos h0]
    simp only []
    cases hv : env.varData w.tick i w.ctl.offset 252 with
    | error e => exact ⟨_, _, rfl, Idle.mk' rfl rfl rfl rfl, rfl, fun d h => nomatch h⟩
    | ok d =>
      have := hi.data _ _ _ _ hv
      simp only []
      rw [if_pos this]
      exact ⟨_, _, rfl, Idle.mk' rfl rfl rfl rfl, rfl, fun d' h => by cases h; exact this⟩
  | buffer =>
    obtain ⟨hf, h0, hm⟩ := hi.buffers _ c hr ht
    rw [if_neg (by omega), if_neg (by simp [hf])]
    simp only []
    rw [if_pos (by omega)]
    exact ⟨_, _, rfl, Idle.refl _, rfl, fun d h => by cases h; simp only [List.length_take]; omega⟩
  | flash b =>
    obtain ⟨hf, h0⟩ := hi.flashes _ c b hr ht
    rw [if_neg (by omega), if_pos hf]
    simp only []
    split
    · next fs he =>
      have := Verif.Flash.read_none he
      exact ⟨_, _, rfl, Idle.mk' rfl this rfl rfl, rfl, fun d h => nomatch h⟩
    · next d fs he =>
      obtain ⟨e1, e2⟩ := Verif.Flash.read_some he
      exact ⟨_, _, rfl, Idle.mk' rfl e2 rfl rfl, rfl, fun d' h => by cases h; rw [e1, Verif.Flash.bytesAt_length]; omega⟩

theorem wrap_idle (n : Nat) (w : World) : Idle w (wrap n w) := by
  rw [wrap_eq]
  refine ⟨⟨rfl, rfl, rfl⟩, fun h => ?_⟩
  show startPos n w.ctl.offset % 4 = 0
  unfold startPos; split <;> omega

theorem advance_idle (n : Nat) (w : World) : Idle w (advance n w) := by
  refine ⟨⟨rfl, rfl, rfl⟩, fun h => ?_⟩
  show (w.ctl.offset + (n + 3) / 4 * 4) % 2 ^ 32 % 4 = 0
  omega

theorem readIndirectData_safe (env : Env) (w : World) (hi : Inv env w) : ∃ r w', readIndirectData env w = some (r, w') ∧ Idle w w' ∧
    ∀ d, r = .ok d → d.length ≤ 252 := by
  cases hcs : env.cms with
  | none =>
    simp only [readIndirectData, hcs]
    exact ⟨_, _, rfl, Idle.refl _, fun d h => nomatch h⟩
  | some cs =>
    cases hc : cs[w.ctl.cms.toNat]? with
    | none =>
      simp only [readIndirectData, hcs, hc]
      exact ⟨_, _, rfl, Idle.refl _, fun d h => nomatch h⟩
    | some c =>
      have hr := region_of hcs hc
      have hp : c.length = 0 → c.target = .provider := by
        intro h0
        cases ht : c.target with
        | provider => rfl
        | buffer => have := (hi.plat.buffers _ c hr ht).2.1; omega
        | flash b => have := (hi.plat.flashes _ c b hr ht).2; omega
      obtain ⟨r, w', e, h1, hctl, -⟩ := regionSize_safe env w.ctl.cms.toNat c w hp
      simp only [readIndirectData, hcs, hc, e]
      cases r with
      | error e => exact ⟨_, _, rfl, h1, fun d h => nomatch h⟩
      | ok n =>
        have h2 := h1.trans (wrap_idle n w')
        have hpl : Platform env (wrap n w') := hi.plat.mono fun i => by rw [h2.mem]
        have hcm : w'.ctl.cms.toNat = w.ctl.cms.toNat := by rw [hctl]
        obtain ⟨r, w'', e', h3, -, h4⟩ := readPiece_safe env w'.ctl.cms.toNat c (wrap n w') hpl (by rw [hcm]; exact hr)
        simp only [e']
        cases r with
        | error e => exact ⟨_, _, rfl, h2.trans h3, fun d h => nomatch h⟩
        | ok d =>
          refine ⟨_, _, rfl, (h2.trans h3).trans (advance_idle _ _), fun d' h => ?_⟩
          cases h
          have := h4 d rfl
          simp only [List.length_append, List.length_replicate]
          omega

theorem readSwitch_safe (env : Env) (w : World) (hi : Inv env w) : ∃ r w', readSwitch env w = some (r, w') ∧ Idle w w' ∧
    ∀ d, r = .ok d → (∀ t, (env.deviceStatus t).2.2.length = 5) → d.length ≤ 255 := by
  unfold readSwitch
  split
  · exact ⟨_, _, rfl, Idle.refl _, fun d h _ => by cases h; simp [readProtCap, le, toLE]⟩
  split
  · exact ⟨_, _, rfl, Idle.mk' rfl rfl rfl rfl, fun d h _ => hi.plat.ident _ d h⟩
  split
  · refine ⟨_, _, rfl, Idle.mk' rfl rfl rfl rfl, fun d h hs => ?_⟩
    cases h
    have := hs w.tick
    simp [readDeviceStatus, le, toLE, this]
  split
  · exact ⟨_, _, rfl, Idle.refl _, fun d h _ => by cases h; simp⟩
  split
  · exact ⟨_, _, rfl, Idle.refl _, fun d h _ => by cases h; simp⟩
  split
  · exact ⟨_, _, rfl, Idle.refl _, fun d h _ => by cases h; simp⟩
  split
  · split
    · exact ⟨_, _, rfl, Idle.refl _, fun d h _ => by cases h; simp [le, toLE]⟩
    · exact ⟨_, _, rfl, Idle.refl _, fun d h => nomatch h⟩
  split
  · obtain ⟨r, w', e, h⟩ := readIndirectStatus_safe env w hi
    refine ⟨r, w', e, h, fun d hd _ => ?_⟩
    subst hd
    unfold readIndirectStatus at e
    repeat' split at e
    all_goals (try simp only [Option.some.injEq, Prod.mk.injEq, reduceCtorEq, false_and, Except.ok.injEq] at e)
    · obtain ⟨rfl, -⟩ := e; simp [le, toLE]
    · obtain ⟨rfl, -⟩ := e; simp [le, toLE]
  split
  · obtain ⟨r, w', e, h, hl⟩ := readIndirectData_safe env w hi
    exact ⟨r, w', e, h, fun d hd _ => by have := hl d hd; omega⟩
  · exact ⟨_, _, rfl, Idle.refl _, fun d h => nomatch h⟩

theorem readRequest_safe (env : Env) (w : World) (hi : Inv env w) : ∃ r w', readRequest env w = some (r, w') ∧ Idle w w' ∧
    ∀ d, r = .ok d → (∀ t, (env.deviceStatus t).2.2.length = 5) → d.length ≤ 255 := by
  unfold readRequest
  split
  · exact ⟨_, _, rfl, Idle.refl _, fun d h => nomatch h⟩
  · obtain ⟨r, w', e, h, hl⟩ := readSwitch_safe env w hi
    rw [e]
    exact ⟨r, _, rfl, h.trans ((readFailure_idle (r, w')).trans (inactive_idle _)), hl⟩

theorem startCommand_idle (c : UInt8) (w : World) : Idle w (startCommand c w).2 := by
  unfold startCommand; split <;> exact Idle.mk' rfl rfl rfl rfl

/-- Every call returns and keeps the invariant. -/
theorem step_safe (env : Env) (o : Op) (w : World) (hi : Inv env w) : ∃ r w', step env o w = some (r, w') ∧ Inv env w' ∧ Frame env w w' := by
  have fin : ∀ (r : Out) (w' : World), Frame env w w' → w'.ctl.offset % 4 = 0 →
      ∃ r' w'', some (r, w') = some (r', w'') ∧ Inv env w'' ∧ Frame env w w'' :=
    fun r w' hf ho => ⟨r, w', rfl, ⟨hi.plat.mono hf.lens, hi.rw, ho⟩, hf⟩
  cases o with
  | command c => exact fin _ _ (startCommand_idle c w).toSame.frame ((startCommand_idle c w).off hi.off)
  | write d =>
    obtain ⟨st, w', e, hf, ho⟩ := writeRequest_safe env d w hi
    simp only [step, e, Option.map_some]
    exact fin _ _ hf ho
  | read =>
    obtain ⟨r, w', e, h, -⟩ := readRequest_safe env w hi
    simp only [step, e, Option.map_some]
    exact fin _ _ h.toSame.frame (h.off hi.off)
  | badChecksum => exact fin _ _ (Same.frame ⟨rfl, rfl, rfl⟩) hi.off
  | badLength => exact fin _ _ (Same.frame ⟨rfl, rfl, rfl⟩) hi.off

theorem run_safe (env : Env) (os : List Op) : ∀ (w : World), Inv env w → ∃ rs w', run env os w = some (rs, w') ∧ Inv env w' ∧ Frame env w w' := by
  induction os with
  | nil => intro w hi; exact ⟨_, _, rfl, hi, Frame.refl _ _⟩
  | cons o os ih =>
    intro w hi
    obtain ⟨r, w1, e, h1, h2⟩ := step_safe env o w hi
    obtain ⟨rs, w2, e', h3, h4⟩ := ih w1 h1
    exact ⟨r :: rs, w2, by simp only [run, e, e', Option.map_some], h3, h2.trans h4⟩

end Verif.OcpRecovery
