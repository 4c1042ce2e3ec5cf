import Verif.HostState.Spec
import Verif.StateManager.Props
/-!
C26: the settings packed into the state bits behave like independent fields, for every sequence of
calls.
-/
namespace Verif.HostState
open Verif.StateManager (State maskBit_getLsbD)

theorem mask_eq_zero (nv : BitVec 16) (k : Nat) (hk : k < 16) :
    nv &&& (1#16 <<< k) = 0 ↔ nv.getLsbD k = false := by
  constructor
  · intro h
    have := congrArg (fun w => w.getLsbD k) h
    simpa [maskBit_getLsbD nv k k hk] using this
  · intro h
    apply BitVec.eq_of_getLsbD_eq
    intro j _
    rw [maskBit_getLsbD nv k j hk, h]; simp

/-- A two-valued setting kept in one bit. -/
def pick (b : Bool) : Nat := if b then 0 else 1

theorem pick_mask (nv : BitVec 16) (k : Nat) (hk : k < 16) :
    (if nv &&& (1#16 <<< k) ≠ 0 then 0 else 1) = pick (nv.getLsbD k) := by
  unfold pick
  have := mask_eq_zero nv k hk
  cases h : nv.getLsbD k
  · rw [h] at this; rw [if_neg (by simp [this.mpr rfl])]; rfl
  · rw [h] at this
    rw [if_pos (fun hc => by have := this.mp hc; cases this)]; rfl

theorem test_mask (nv : BitVec 16) (k : Nat) (hk : k < 16) :
    decide (nv &&& (1#16 <<< k) = 0) = !nv.getLsbD k := by
  have := mask_eq_zero nv k hk
  cases h : nv.getLsbD k
  · rw [h] at this; simp [this.mpr rfl]
  · rw [h] at this
    have hn : ¬ (nv &&& (1#16 <<< k) = 0) := fun hc => by have := this.mp hc; cases this
    exact decide_eq_false hn

theorem events_bits (nv : BitVec 16) :
    ((nv &&& RO_FLASH_SWITCH_MASK) >>> 4).toNat = (nv.getLsbD 4).toNat + 2 * (nv.getLsbD 5).toNat := by
  have h : (nv &&& RO_FLASH_SWITCH_MASK) >>> 4 =
      BitVec.ofNat 16 ((nv.getLsbD 4).toNat + 2 * (nv.getLsbD 5).toNat) := by
    apply BitVec.eq_of_getLsbD_eq
    intro j hj
    have hj' : j = 0 ∨ j = 1 ∨ (2 ≤ j ∧ j < 16) := by omega
    rw [BitVec.getLsbD_ushiftRight, BitVec.getLsbD_and]
    rcases hj' with rfl | rfl | ⟨h2, h3⟩
    · cases nv.getLsbD 4 <;> cases nv.getLsbD 5 <;> simp <;> decide
    · cases nv.getLsbD 4 <;> cases nv.getLsbD 5 <;> simp <;> decide
    · have hz : ∀ j : Nat, j < 16 → 2 ≤ j → RO_FLASH_SWITCH_MASK.getLsbD (4 + j) = false ∧
          (0#16).getLsbD j = false ∧ (1#16).getLsbD j = false ∧ (2#16).getLsbD j = false ∧
          (3#16).getLsbD j = false := by decide
      obtain ⟨z1, z2, z3, z4, z5⟩ := hz j h3 h2
      rw [z1]
      cases nv.getLsbD 4 <;> cases nv.getLsbD 5 <;> simp_all
  rw [h]
  cases nv.getLsbD 4 <;> cases nv.getLsbD 5 <;> rfl

/-- The non-volatile settings, bit by bit. -/
structure NvBits (nv : BitVec 16) (t : Settings) : Prop where
  ro : pick (nv.getLsbD 0) = t.ro
  dirty : (!nv.getLsbD 1) = t.inactiveDirty
  pfm : pick (nv.getLsbD 2) = t.pfm
  recovery : pick (nv.getLsbD 3) = t.recovery
  events : (nv.getLsbD 4).toNat + 2 * (nv.getLsbD 5).toNat = t.roEvents
  override : (if nv.getLsbD 9 then none else some (pick (nv.getLsbD 8))) = t.override

/-- The volatile settings. -/
structure VolBits (v : BitVec 8) (t : Settings) : Prop where
  pfmDirty : decide (v &&& PFM_DIRTY_MASK ≠ 0) = t.pfmDirty
  runTime : v &&& RUN_TIME_MASK = t.runTime.code
  bypass : decide (v &&& BYPASS_MASK ≠ 0) = t.bypass
  bad : decide (v &&& BAD_FLASH_MASK = 0) = t.flashSupported

theorem shows_iff (s : State) (t : Settings) : Shows s t ↔ NvBits s.nv t ∧ VolBits s.vol t := by
  have e0 : getRoFlashNv s = pick (s.nv.getLsbD 0) := pick_mask _ 0 (by omega)
  have e1 : isInactiveDirty s = !s.nv.getLsbD 1 := test_mask _ 1 (by omega)
  have e2 : getActivePfm s = pick (s.nv.getLsbD 2) := pick_mask _ 2 (by omega)
  have e3 : getRecovery s = pick (s.nv.getLsbD 3) := pick_mask _ 3 (by omega)
  have e4 : getRoEvents s = (s.nv.getLsbD 4).toNat + 2 * (s.nv.getLsbD 5).toNat := events_bits _
  have e5 : hasRoOverride s = !s.nv.getLsbD 9 := test_mask _ 9 (by omega)
  have e6 : (if s.nv &&& OVERRIDE_RO_FLASH_MASK ≠ 0 then 0 else 1) = pick (s.nv.getLsbD 8) :=
    pick_mask _ 8 (by omega)
  have e7 : getRoFlash s = if s.nv.getLsbD 9 then pick (s.nv.getLsbD 0) else pick (s.nv.getLsbD 8) := by
    unfold getRoFlash
    rw [e5, e6, e0]
    cases s.nv.getLsbD 9 <;> simp
  constructor
  · intro h
    refine ⟨⟨e0 ▸ h.roNv, e1 ▸ h.inactiveDirty, e2 ▸ h.pfm, e3 ▸ h.recovery, e4 ▸ h.roEvents, ?_⟩,
      ⟨h.pfmDirty, h.runTime, h.bypass, h.flashSupported⟩⟩
    have h1 := h.hasOverride
    have h2 := h.ro
    rw [e5] at h1
    rw [e7] at h2
    cases ho : t.override with
    | none => rw [ho] at h1; cases h9 : s.nv.getLsbD 9 <;> simp_all
    | some x => rw [ho] at h1 h2; cases h9 : s.nv.getLsbD 9 <;> simp_all
  · rintro ⟨h, g⟩
    have h9 := h.override
    have h0 := h.ro
    refine ⟨e2 ▸ h.pfm, e0 ▸ h.ro, ?_, ?_, e1 ▸ h.dirty, e4 ▸ h.events, e3 ▸ h.recovery, g.pfmDirty,
      g.runTime, g.bypass, g.bad⟩
    · rw [e5, ← h9]; cases s.nv.getLsbD 9 <;> rfl
    · rw [e7, ← h9, ← h0]; cases s.nv.getLsbD 9 <;> rfl

theorem nv_bits_op (nv : BitVec 16) (M : BitVec 16) (k : Nat) (_ : k < 16) :
    (nv ||| M).getLsbD k = (nv.getLsbD k || M.getLsbD k) ∧
    (nv &&& M).getLsbD k = (nv.getLsbD k && M.getLsbD k) := by
  simp [BitVec.getLsbD_or, BitVec.getLsbD_and]

/-- The volatile settings as a tuple, for evaluation over all 256 values. -/
def volView (v : BitVec 8) : Bool × BitVec 8 × Bool × Bool :=
  (decide (v &&& PFM_DIRTY_MASK ≠ 0), v &&& RUN_TIME_MASK, decide (v &&& BYPASS_MASK ≠ 0),
    decide (v &&& BAD_FLASH_MASK = 0))

theorem vol_iff (v : BitVec 8) (t : Settings) :
    VolBits v t ↔ volView v = (t.pfmDirty, t.runTime.code, t.bypass, t.flashSupported) := by
  constructor
  · intro h; unfold volView; rw [h.pfmDirty, h.runTime, h.bypass, h.bad]
  · intro h
    simp only [volView, Prod.mk.injEq] at h
    exact ⟨h.1, h.2.1, h.2.2.1, h.2.2.2⟩

theorem vol_ops1 : ∀ v : BitVec 8,
    volView (v &&& ~~~RUN_TIME_MASK) = ((volView v).1, 0, (volView v).2.2) ∧
    volView ((v &&& ~~~RUN_TIME_MASK) ||| 0) = ((volView v).1, 0, (volView v).2.2) ∧
    volView ((v &&& ~~~RUN_TIME_MASK) ||| 2) = ((volView v).1, 2, (volView v).2.2) ∧
    volView ((v &&& ~~~RUN_TIME_MASK) ||| 6) = ((volView v).1, 6, (volView v).2.2) ∧
    volView ((v &&& ~~~RUN_TIME_MASK) ||| PFM_DIRTY_MASK) = (true, 0, (volView v).2.2) ∧
    volView (v ||| PFM_DIRTY_MASK) = (true, (volView v).2) := by
  decide +kernel

theorem vol_ops2 : ∀ v : BitVec 8,
    volView ((v ||| PFM_DIRTY_MASK) &&& ~~~RUN_TIME_MASK) = (true, 0, (volView v).2.2) ∧
    volView (v &&& ~~~PFM_DIRTY_MASK) = (false, (volView v).2) ∧
    volView (v ||| BYPASS_MASK) = ((volView v).1, (volView v).2.1, true, (volView v).2.2.2) ∧
    volView (v &&& ~~~BYPASS_MASK) = ((volView v).1, (volView v).2.1, false, (volView v).2.2.2) ∧
    volView (v ||| BAD_FLASH_MASK) = ((volView v).1, (volView v).2.1, (volView v).2.2.1, false) ∧
    volView (v &&& ~~~BAD_FLASH_MASK) = ((volView v).1, (volView v).2.1, (volView v).2.2.1, true) := by
  decide +kernel

theorem lt_two {n : Nat} (h : ¬ n = 0) (h1 : ¬ n = 1) : ¬ n < 2 := by omega

/-- Closes the bit goals of a setter. -/
local macro "bits" : tactic =>
  `(tactic| (constructor <;> simp_all [ACTIVE_PFM_MASK, READ_ONLY_FLASH_MASK, OVERRIDE_RO_FLASH_MASK,
      OVERRIDE_RO_VALID_MASK, INACTIVE_DIRTY_MASK, RO_FLASH_SWITCH_MASK, ACTIVE_RECOVERY_IMAGE_MASK, pick]))

theorem exec_shows (s : State) (t : Settings) (h : Shows s t) (op : Op) :
    Shows (exec s op).2 (t.apply op) := by
  rw [shows_iff] at h ⊢
  obtain ⟨hn, hv⟩ := h
  obtain ⟨n1, n2, n3, n4, n5, n6⟩ := hn
  obtain ⟨o1, o2, o3, o4, o5, o6⟩ := vol_ops1 s.vol
  obtain ⟨o7, o8, o9, o10, o11, o12⟩ := vol_ops2 s.vol
  have hv' := (vol_iff _ _).mp hv
  cases op with
  | activePfm r =>
    simp only [exec, saveActivePfm, saveManifestBit, Settings.apply]
    by_cases h0 : r = 0
    · subst h0
      refine ⟨?_, ⟨hv.1, hv.2, hv.3, hv.4⟩⟩
      clear hv hv' o1 o2 o3 o4 o5 o6 o7 o8 o9 o10 o11 o12
      bits
    · by_cases h1 : r = 1
      · subst h1
        refine ⟨?_, ⟨hv.1, hv.2, hv.3, hv.4⟩⟩
        clear hv hv' o1 o2 o3 o4 o5 o6 o7 o8 o9 o10 o11 o12
        bits
      · rw [if_neg h0, if_neg h1, if_neg (lt_two h0 h1)]
        exact ⟨⟨n1, n2, n3, n4, n5, n6⟩, hv⟩
  | restoreDefault =>
    refine ⟨?_, ?_⟩
    · have h : ∀ p : Bool × Bool, NvBits 0xffff ⟨0, 0, none, false, 3, 0, true, .none, p.1, p.2⟩ := fun p =>
        by
        constructor <;> simp [pick]
      exact h (t.bypass, t.flashSupported)
    rw [vol_iff]
    show volView ((s.vol &&& ~~~RUN_TIME_MASK) ||| PFM_DIRTY_MASK) = _
    rw [o5, hv']; rfl
  | roFlash cs =>
    simp only [exec, saveRoFlash, Settings.apply]
    by_cases h0 : cs = 0
    · subst h0
      refine ⟨?_, ⟨hv.1, hv.2, hv.3, hv.4⟩⟩
      clear hv hv' o1 o2 o3 o4 o5 o6 o7 o8 o9 o10 o11 o12
      bits
    · by_cases h1 : cs = 1
      · subst h1
        refine ⟨?_, ⟨hv.1, hv.2, hv.3, hv.4⟩⟩
        clear hv hv' o1 o2 o3 o4 o5 o6 o7 o8 o9 o10 o11 o12
        bits
      · rw [if_neg h0, if_neg h1, if_neg (lt_two h0 h1)]
        exact ⟨⟨n1, n2, n3, n4, n5, n6⟩, hv⟩
  | overrideRo cs =>
    simp only [exec, overrideRoFlash, Settings.apply]
    by_cases h0 : cs = 0
    · subst h0
      refine ⟨?_, ⟨hv.1, hv.2, hv.3, hv.4⟩⟩
      clear hv hv' o1 o2 o3 o4 o5 o6 o7 o8 o9 o10 o11 o12
      bits
    · by_cases h1 : cs = 1
      · subst h1
        refine ⟨?_, ⟨hv.1, hv.2, hv.3, hv.4⟩⟩
        clear hv hv' o1 o2 o3 o4 o5 o6 o7 o8 o9 o10 o11 o12
        bits
      · rw [if_neg h0, if_neg h1, if_neg (lt_two h0 h1)]
        exact ⟨⟨n1, n2, n3, n4, n5, n6⟩, hv⟩
  | clearOverride =>
    simp only [exec, clearRoOverride, Settings.apply]
    refine ⟨?_, ⟨hv.1, hv.2, hv.3, hv.4⟩⟩
    clear hv hv' o1 o2 o3 o4 o5 o6 o7 o8 o9 o10 o11 o12
    bits
  | inactiveDirty d =>
    cases d
    · simp only [exec, saveInactiveDirty, Settings.apply]
      refine ⟨?_, ⟨hv.1, hv.2, hv.3, hv.4⟩⟩
      clear hv hv' o1 o2 o3 o4 o5 o6 o7 o8 o9 o10 o11 o12
      bits
    · simp only [exec, saveInactiveDirty, Settings.apply]
      refine ⟨?_, ?_⟩
      · clear hv hv' o1 o2 o3 o4 o5 o6 o7 o8 o9 o10 o11 o12
        bits
      · rw [vol_iff]
        show volView (s.vol &&& ~~~RUN_TIME_MASK) = _
        rw [o1, hv']; rfl
  | roEvents e =>
    simp only [exec, saveRoEvents, Settings.apply]
    by_cases h : e = 0 ∨ e = 1 ∨ e = 2 ∨ e = 3
    · rw [if_pos h, if_pos (by omega)]
      refine ⟨?_, ⟨hv.1, hv.2, hv.3, hv.4⟩⟩
      clear hv hv' o1 o2 o3 o4 o5 o6 o7 o8 o9 o10 o11 o12
      rcases h with rfl | rfl | rfl | rfl <;> bits
    · rw [if_neg h, if_neg (by omega)]
      exact ⟨⟨n1, n2, n3, n4, n5, n6⟩, hv⟩
  | recovery r =>
    simp only [exec, saveRecovery, Settings.apply]
    by_cases h0 : r = 0
    · subst h0
      refine ⟨?_, ⟨hv.1, hv.2, hv.3, hv.4⟩⟩
      clear hv hv' o1 o2 o3 o4 o5 o6 o7 o8 o9 o10 o11 o12
      bits
    · by_cases h1 : r = 1
      · subst h1
        refine ⟨?_, ⟨hv.1, hv.2, hv.3, hv.4⟩⟩
        clear hv hv' o1 o2 o3 o4 o5 o6 o7 o8 o9 o10 o11 o12
        bits
      · rw [if_neg h0, if_neg h1, if_neg (lt_two h0 h1)]
        exact ⟨⟨n1, n2, n3, n4, n5, n6⟩, hv⟩
  | pfmDirty d =>
    cases d
    · refine ⟨⟨n1, n2, n3, n4, n5, n6⟩, ?_⟩
      rw [vol_iff]
      show volView (s.vol &&& ~~~PFM_DIRTY_MASK) = _
      rw [o8, hv']; rfl
    · simp only [exec, setPfmDirty, Settings.apply, if_true]
      have hr : (s.vol ||| PFM_DIRTY_MASK) &&& RUN_TIME_MASK = t.runTime.code := by
        have := congrArg (fun x => x.2.1) o6
        simp only [volView] at this
        rw [this]; exact hv.runTime
      rw [hr]
      by_cases hc : t.runTime = .flashAndPfm
      · rw [if_pos (by rw [hc]), if_pos hc]
        refine ⟨⟨n1, n2, n3, n4, n5, n6⟩, ?_⟩
        rw [vol_iff]
        show volView ((s.vol ||| PFM_DIRTY_MASK) &&& ~~~RUN_TIME_MASK) = _
        rw [o7, hv']; rfl
      · have hne : t.runTime.code ≠ Prevalidated.flashAndPfm.code := by
          revert hc; cases t.runTime <;> decide
        rw [if_neg hne, if_neg hc]
        refine ⟨⟨n1, n2, n3, n4, n5, n6⟩, ?_⟩
        rw [vol_iff]
        show volView (s.vol ||| PFM_DIRTY_MASK) = _
        rw [o6, hv']
  | runTime p =>
    refine ⟨⟨n1, n2, n3, n4, n5, n6⟩, ?_⟩
    rw [vol_iff]
    show volView ((s.vol &&& ~~~RUN_TIME_MASK) ||| p.code) = _
    cases p
    · exact o2.trans (by rw [hv']; rfl)
    · exact o3.trans (by rw [hv']; rfl)
    · exact o4.trans (by rw [hv']; rfl)
  | bypass b =>
    cases b
    · refine ⟨⟨n1, n2, n3, n4, n5, n6⟩, ?_⟩
      rw [vol_iff]
      show volView (s.vol &&& ~~~BYPASS_MASK) = _
      rw [o10, hv']; rfl
    · refine ⟨⟨n1, n2, n3, n4, n5, n6⟩, ?_⟩
      rw [vol_iff]
      show volView (s.vol ||| BYPASS_MASK) = _
      rw [o9, hv']; rfl
  | unsupported b =>
    cases b
    · refine ⟨⟨n1, n2, n3, n4, n5, n6⟩, ?_⟩
      rw [vol_iff]
      show volView (s.vol &&& ~~~BAD_FLASH_MASK) = _
      rw [o12, hv']; rfl
    · refine ⟨⟨n1, n2, n3, n4, n5, n6⟩, ?_⟩
      rw [vol_iff]
      show volView (s.vol ||| BAD_FLASH_MASK) = _
      rw [o11, hv']; rfl

/-- **C26.** For every sequence of calls on the host state: if the getters show the settings `t`
before, they show afterwards what the calls do to `t` as a record of independent fields. -/
theorem settings_independent (ops : List Op) (s : State) (t : Settings) (h : Shows s t) :
    Shows (ops.foldl (fun s op => (exec s op).2) s) (ops.foldl Settings.apply t) := by
  induction ops generalizing s t with
  | nil => exact h
  | cons op ops ih => exact ih _ _ (exec_shows s t h op)

/-- **C26.** The status tells whether the call was carried out. -/
theorem exec_status (s : State) (op : Op) :
    (exec s op).1 = if op.valid then .ok else .invalidArgument := by
  cases op <;> simp only [exec, Op.valid, saveActivePfm, saveManifestBit, saveRoFlash, overrideRoFlash,
    saveRoEvents, saveRecovery, if_true] <;> grind

/-- A refused call changes nothing. -/
theorem exec_refused (s : State) (op : Op) (h : (exec s op).1 ≠ .ok) : (exec s op).2 = s := by
  cases op <;> simp only [exec, saveActivePfm, saveManifestBit, saveRoFlash, overrideRoFlash,
    saveRoEvents, saveRecovery] at h ⊢ <;> grind

/-- The settings of a freshly initialized host state (nothing stored, PFM not yet checked). -/
example : Shows ⟨0, 0xffff, 0xffff, 0x41⟩ ⟨0, 0, none, false, 3, 0, true, .none, false, true⟩ := by
  rw [shows_iff]
  exact ⟨⟨by decide, by decide, by decide, by decide, by decide, by decide⟩,
    ⟨by decide, by decide, by decide, by decide⟩⟩

/-- The host calls leave the state manager's own volatile flags alone, so a history of host calls
is a history of the store (`StateManager.Reach.change`). -/
theorem exec_keeps_blank_flags (s : State) (op : Op) :
    (exec s op).2.vol &&& 0xc0 = s.vol &&& 0xc0 ∧ (exec s op).2.storeAddr = s.storeAddr ∧
    (exec s op).2.lastNv = s.lastNv := by
  have hv : ∀ v : BitVec 8, ((v &&& ~~~RUN_TIME_MASK) ||| PFM_DIRTY_MASK) &&& 0xc0 = v &&& 0xc0 ∧
      (v &&& ~~~RUN_TIME_MASK) &&& 0xc0 = v &&& 0xc0 ∧
      (v ||| PFM_DIRTY_MASK) &&& 0xc0 = v &&& 0xc0 ∧
      ((v ||| PFM_DIRTY_MASK) &&& ~~~RUN_TIME_MASK) &&& 0xc0 = v &&& 0xc0 ∧
      (v &&& ~~~PFM_DIRTY_MASK) &&& 0xc0 = v &&& 0xc0 ∧
      ((v &&& ~~~RUN_TIME_MASK) ||| 0) &&& 0xc0 = v &&& 0xc0 ∧
      ((v &&& ~~~RUN_TIME_MASK) ||| 2) &&& 0xc0 = v &&& 0xc0 ∧
      ((v &&& ~~~RUN_TIME_MASK) ||| 6) &&& 0xc0 = v &&& 0xc0 ∧
      (v ||| BYPASS_MASK) &&& 0xc0 = v &&& 0xc0 ∧ (v &&& ~~~BYPASS_MASK) &&& 0xc0 = v &&& 0xc0 ∧
      (v ||| BAD_FLASH_MASK) &&& 0xc0 = v &&& 0xc0 ∧ (v &&& ~~~BAD_FLASH_MASK) &&& 0xc0 = v &&& 0xc0 := by
    decide +kernel
  obtain ⟨o1, o2, o3, o4, o5, o6, o7, o8, o9, o10, o11, o12⟩ := hv s.vol
  cases op with
  | activePfm r => simp only [exec, saveActivePfm, saveManifestBit]; split <;> (try split) <;> simp
  | restoreDefault => exact ⟨o1, rfl, rfl⟩
  | roFlash cs => simp only [exec, saveRoFlash]; split <;> (try split) <;> simp
  | overrideRo cs => simp only [exec, overrideRoFlash]; split <;> (try split) <;> simp
  | clearOverride => exact ⟨rfl, rfl, rfl⟩
  | inactiveDirty d => cases d <;> exact ⟨by first | rfl | exact o2, rfl, rfl⟩
  | roEvents e => simp only [exec, saveRoEvents]; split <;> simp
  | recovery r => simp only [exec, saveRecovery]; split <;> (try split) <;> simp
  | pfmDirty d =>
    cases d
    · exact ⟨o5, rfl, rfl⟩
    · simp only [exec, setPfmDirty, if_true]
      split
      · exact ⟨o4, rfl, rfl⟩
      · exact ⟨o3, rfl, rfl⟩
  | runTime p => 
    cases p
    · exact ⟨o6, rfl, rfl⟩
    · exact ⟨o7, rfl, rfl⟩
    · exact ⟨o8, rfl, rfl⟩
  | bypass b => 
    cases b
    · exact ⟨o10, rfl, rfl⟩
    · exact ⟨o9, rfl, rfl⟩
  | unsupported b => 
    cases b
    · exact ⟨o12, rfl, rfl⟩
    · exact ⟨o11, rfl, rfl⟩

theorem reach_exec {c : StateManager.Cfg} {s : StateManager.Sys} (hr : StateManager.Reach c s) (op : Op) :
    StateManager.Reach c ⟨s.mem, (exec s.state op).2, s.saved⟩ := by
  obtain ⟨k1, k2, k3⟩ := exec_keeps_blank_flags s.state op
  have h := StateManager.Reach.change s (exec s.state op).2.nv (exec s.state op).2.vol hr k1
  have e : (exec s.state op).2 = { s.state with nv := (exec s.state op).2.nv, vol := (exec s.state op).2.vol } := by
    show _ = State.mk _ _ _ _
    rw [← k2, ← k3]
  rw [e]; exact h

theorem reach_execs {c : StateManager.Cfg} (ops : List Op) {s : StateManager.Sys} (hr : StateManager.Reach c s) :
    StateManager.Reach c ⟨s.mem, ops.foldl (fun s op => (exec s op).2) s.state, s.saved⟩ := by
  induction ops generalizing s with
  | nil => exact hr
  | cons op ops ih => exact ih (reach_exec hr op)

/-- Bits 6 and 7 play no role for the host settings. -/
theorem nvBits_of_settings {a b : BitVec 16} (h : StateManager.settings a = StateManager.settings b)
    {t : Settings} (hb : NvBits b t) : NvBits a t := by
  have key : ∀ k, k < 16 → k ≠ 6 → k ≠ 7 → a.getLsbD k = b.getLsbD k := by
    intro k h1 h2 h3
    have hk := congrArg (fun w => w.getLsbD k) h
    simp only [StateManager.settings, BitVec.getLsbD_or] at hk
    have hz : ∀ k : Nat, k < 16 → k ≠ 6 → k ≠ 7 → (0xc0 : BitVec 16).getLsbD k = false := by decide
    rw [hz k h1 h2 h3] at hk
    simpa using hk
  obtain ⟨n1, n2, n3, n4, n5, n6⟩ := hb
  have k0 := key 0 (by omega) (by omega) (by omega)
  have k1 := key 1 (by omega) (by omega) (by omega)
  have k2 := key 2 (by omega) (by omega) (by omega)
  have k3 := key 3 (by omega) (by omega) (by omega)
  have k4 := key 4 (by omega) (by omega) (by omega)
  have k5 := key 5 (by omega) (by omega) (by omega)
  have k8 := key 8 (by omega) (by omega) (by omega)
  have k9 := key 9 (by omega) (by omega) (by omega)
  exact ⟨by rw [k0]; exact n1, by rw [k1]; exact n2, by rw [k2]; exact n3, by rw [k3]; exact n4,
    by rw [k4, k5]; exact n5, by rw [k8, k9]; exact n6⟩

theorem vol_exists (v : BitVec 8) : volView v = ((volView v).1, (volView v).2.1, (volView v).2.2.1, (volView v).2.2.2) := rfl

/-- **C26** with **C25**: on a device with any past, host calls followed by a successful store and a
reboot leave the non-volatile settings as the calls set them. -/
theorem settings_survive_reboot (c : StateManager.Cfg) (hw : c.WF) (s : StateManager.Sys)
    (hr : StateManager.Reach c s) (ops : List Op) (t : Settings) (ht : Shows s.state t) (e : StateManager.Env)
    (s1 s2 : State) (r : StateManager.Out) (t1 : Settings)
    (hs1 : s1 = ops.foldl (fun s op => (exec s op).2) s.state)
    (hst : r = StateManager.store c s.mem e s1) (hok : r.status = .ok)
    (hs2 : s2 = (StateManager.initState c (StateManager.applyOps r.ops s.mem) .good).state)
    (ht1 : t1 = ops.foldl Settings.apply t) :
      getActivePfm s2 = t1.pfm ∧ getRoFlashNv s2 = t1.ro ∧ getRoFlash s2 = t1.override.getD t1.ro ∧
      hasRoOverride s2 = t1.override.isSome ∧ isInactiveDirty s2 = t1.inactiveDirty ∧
      getRoEvents s2 = t1.roEvents ∧ getRecovery s2 = t1.recovery := by
  have hsh := settings_independent ops s.state t ht
  rw [← hs1, ← ht1] at hsh
  have h1 := reach_execs ops hr
  rw [← hs1] at h1
  have h2 := StateManager.Reach.store _ e h1
  simp only [← hst, hok, if_true] at h2
  have h3 := (StateManager.boot_restores_partial c hw _ h2).2
  simp only [← hs2] at h3
  have hn := nvBits_of_settings h3 ((shows_iff _ _).mp hsh).1
  -- the volatile part of the rebooted state does not matter
  have hsx : Shows { s2 with vol := s1.vol } t1 := by
    rw [shows_iff]; exact ⟨hn, ((shows_iff _ _).mp hsh).2⟩
  exact ⟨hsx.pfm, hsx.roNv, hsx.ro, hsx.hasOverride, hsx.inactiveDirty, hsx.roEvents, hsx.recovery⟩

/-- **C26** for the system settings: saving the active region of one manifest makes that manifest
read back as saved and leaves the other one as it was; any other index is refused. -/
theorem system_manifests_independent (s : State) (index active : Nat) (hi : index < 2) (ha : active < 2) :
    (sysSave s index active).1 = .ok ∧ sysGet (sysSave s index active).2 index = active ∧
    ∀ j, j ≠ index → sysGet (sysSave s index active).2 j = sysGet s j := by
  have g : ∀ (s : State) (j : Nat), sysGet s j = if j = 0 then pick (s.nv.getLsbD 0)
      else if j = 1 then pick (s.nv.getLsbD 1) else 0 := by
    intro s j
    unfold sysGet getManifestBit ACTIVE_CFM_MASK ACTIVE_PCD_MASK
    rw [pick_mask _ 0 (by omega), pick_mask _ 1 (by omega)]
  have h1 : index = 0 ∨ index = 1 := by omega
  have h2 : active = 0 ∨ active = 1 := by omega
  simp only [g]
  rcases h1 with rfl | rfl <;> rcases h2 with rfl | rfl <;>
    (refine ⟨rfl, ?_, ?_⟩
     · simp [sysSave, saveManifestBit, ACTIVE_CFM_MASK, ACTIVE_PCD_MASK, pick]
     · intro j hj
       simp [sysSave, saveManifestBit, ACTIVE_CFM_MASK, ACTIVE_PCD_MASK, pick, hj])

theorem system_save_refused (s : State) (index active : Nat) (h : ¬ (index < 2 ∧ active < 2)) :
    (sysSave s index active).1 ≠ .ok ∧ (sysSave s index active).2 = s := by
  unfold sysSave saveManifestBit
  grind

theorem system_restore_default (s : State) (j : Nat) : sysGet (sysRestore s) j = 0 := by
  unfold sysGet sysRestore getManifestBit
  split
  · exact if_pos (show (0xffff : BitVec 16) &&& ACTIVE_CFM_MASK ≠ 0 by decide)
  · split
    · exact if_pos (show (0xffff : BitVec 16) &&& ACTIVE_PCD_MASK ≠ 0 by decide)
    · rfl

end Verif.HostState
