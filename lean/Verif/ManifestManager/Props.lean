import Verif.ManifestManager.Lemmas
import Verif.ManifestManager.Conc
namespace Verif.ManifestManager

/-! ## C41 -/

/-- Every erase or write of every call, in every history of calls, hits a region that is not valid, that nobody has a reference to and that no
caller holds a handle of. It is the pending region, unless the call clears everything. -/
theorem flash_ops_unused {W : World} {y : Sys} (h : Reach W y) (op : Op) :
    ∀ x ∈ (step W y op).2.2, (x.1.region x.2).valid = false ∧ (x.1.region x.2).refs = 0 ∧ (step W y op).1.held x.2 = 0 ∧
      (x.2 = (!x.1.active) ∨ (∃ e1 e2, op = .clearAll e1 e2) ∨ ∃ env, op = .boot env) := by
  intro x hx
  obtain ⟨a, b, c, d⟩ := (step_spec (reach_inv h) op).trace x hx
  refine ⟨a, b, c, ?_⟩
  rcases d with d | d
  · cases op <;> simp_all [Op.all]
  · exact .inl d

/-- Initialization erases only if the pending manifest is an empty one that verifies and, when there is a valid active manifest, may follow it. -/
theorem boot_erase_only_empty (W : World) (s : State) (env : BootEnv) (h : (boot W s env).2.2 ≠ []) :
    W.good (s.region (!env.active)).content = true ∧ W.empty (s.region (!env.active)).content = true ∧
    (W.good (s.region env.active).content = true → Follows W (s.region env.active).content (s.region (!env.active)).content) := by
  obtain ⟨a, b, c⟩ := (boot_spec W s env (show boot W s env = ((boot W s env).1, (boot W s env).2.1, (boot W s env).2.2) from rfl)).down h
  refine ⟨a, b, fun hg => ?_⟩
  obtain ⟨d, e⟩ := c hg
  refine ⟨a, d, ?_⟩
  unfold samePlatform at e
  split <;> rename_i hs
  · rw [if_pos hs] at e
    obtain ⟨r, hr⟩ := List.isPrefixOf_iff_prefix.mp e
    exact ⟨r, hr.symm⟩
  · rw [if_neg hs] at e
    simpa using e

/-- References are exactly the handles that were handed out and not released (calls one after the other). -/
theorem refs_are_handles {W : World} {y : Sys} (h : Reach W y) (hu : y.s.up = true) (r : Bool) : (y.s.region r).refs = y.held r :=
  (reach_inv h hu).refs r

/-! ## C42 -/

theorem follows_of {W : World} {a b : Bytes} (hg : W.good b = true) (hi : W.id a < W.id b) (hp : samePlatform W a b = true) : Follows W a b := by
  refine ⟨hg, hi, ?_⟩
  unfold samePlatform at hp
  split <;> rename_i hs
  · rw [if_pos hs] at hp
    obtain ⟨r, hr⟩ := List.isPrefixOf_iff_prefix.mp hp
    exact ⟨r, hr.symm⟩
  · rw [if_neg hs] at hp
    simpa using hp

/-- The manifest in force verifies. -/
theorem current_good {W : World} {y : Sys} (h : Reach W y) {m : Bytes} (hc : current y.s = some m) : W.good m = true := by
  unfold current at hc
  split at hc
  · rename_i hv
    simp only [Bool.and_eq_true] at hv
    cases hc
    exact ((reach_inv h hv.1).good _ hv.2).2
  · cases hc

/-- A call, or a restart that finds the active region as it was, leaves the manifest in force or replaces it by one that may follow it:
it verifies, its id is greater and its platform matches. -/
theorem replaced_by_newer {W : World} {y : Sys} (h : Reach W y) (op : Op) (hk : Keeps y op) {m m' : Bytes}
    (hm : current y.s = some m) (hm' : current (step W y op).1.s = some m') : m' = m ∨ Follows W m m' := by
  have hg' := current_good (.step op h) hm'
  unfold current at hm hm'
  split at hm
  · rename_i hv
    split at hm'
    · rename_i hv'
      simp only [Bool.and_eq_true] at hv hv'
      cases hm; cases hm'
      have hi := reach_inv h hv.1
      rcases (step_spec (reach_inv h) op).moves with ⟨env, rfl, hb⟩ | ⟨hd, -⟩ | ⟨-, hm⟩
      · have ha := (hb.inv hv'.1).2
        rw [ha] at hv' ⊢
        have : env.active = y.s.active := hk
        rw [← this]
        exact .inl (hb.same hv'.1 hv'.2)
      · rw [hd] at hv; cases hv.1
      · rcases hm with ⟨a, b, -⟩ | ⟨a, b⟩ | ⟨a, b, c, -⟩
        · rw [a]; exact .inl b
        · rw [a, b] at hv'; cases hv'.2
        · rw [a, c] at hg' ⊢
          obtain ⟨o1, o2⟩ := hi.order hv.2 b
          exact .inr (follows_of hg' o1 o2)
    · cases hm'
  · cases hm

/-- A history during which a manifest stays in force. -/
inductive Stays (W : World) : Sys → Sys → Prop
  | refl (y : Sys) : Stays W y y
  | step {y z : Sys} (op : Op) : Stays W y z → Keeps z op → (current (step W z op).1.s).isSome = true → Stays W y (step W z op).1

/-- Along such a history the id never goes back. -/
theorem ids_monotone {W : World} {y z : Sys} (h : Reach W y) (hs : Stays W y z) {m : Bytes} (hm : current y.s = some m) :
    Reach W z ∧ ∃ m', current z.s = some m' ∧ W.id m ≤ W.id m' ∧ (m' = m ∨ W.id m < W.id m') := by
  induction hs with
  | refl => exact ⟨h, m, hm, Nat.le_refl _, .inl rfl⟩
  | @step z op _ hk hc ih =>
    obtain ⟨hz, m1, h1, h2, h3⟩ := ih
    refine ⟨.step op hz, ?_⟩
    obtain ⟨m2, hm2⟩ := Option.isSome_iff_exists.mp hc
    refine ⟨m2, hm2, ?_⟩
    rcases replaced_by_newer hz op hk h1 hm2 with rfl | ⟨-, hlt, -⟩
    · exact ⟨h2, h3⟩
    · refine ⟨by omega, .inr (by omega)⟩

/-- A pending manifest that a verification reported as good is one that may follow the manifest in force. -/
theorem verified_pending_follows {W : World} {y : Sys} (h : Reach W y) (hu : y.s.up = true) (f p : Bool) (ho : (step W y (.verify f p)).2.1 = .ok ())
    {m : Bytes} (hm : current y.s = some m) : Follows W m (y.s.region (!y.s.active)).content := by
  have hi := reach_inv h hu
  simp only [step, hu, Bool.not_true, Bool.false_eq_true, if_false] at ho
  obtain ⟨a, b, c, d, e, g⟩ := verifyPending_spec hi f p (show verifyPending W y.s f p = ((verifyPending W y.s f p).1, (verifyPending W y.s f p).2) from rfl)
  have g := g ho
  unfold current at hm
  split at hm
  · rename_i hv
    simp only [Bool.and_eq_true] at hv
    cases hm
    have := a.order (by rw [c, d]; exact hv.2) (by rw [c]; exact g)
    rw [c, d, e] at this
    have hg := (a.good _ g).2
    rw [e] at hg
    exact follows_of hg this.1 this.2
  · cases hm

/-! ### A concrete history -/

/-- Manifests of one byte, the id; 0 is not a manifest, 0xff an empty one. -/
def exW : World := ⟨fun b => b != [] && b != [0], fun b => (b.headD 0).toNat, fun _ => [1], fun b => b == [0xff], false⟩

def exBoot : Op := .boot ⟨true, false, false, false, ⟨[], true⟩, ⟨[], true⟩⟩

/-- Restart with manifest 5 in region 1, update to `m`, `post` is the result of the hook. -/
def exUpdate (m : UInt8) (post : Bool) : List Op :=
  [exBoot, .get true, .clearPending 1 ⟨[], true⟩, .write 1 [m] (some 1), .verify false post, .activate]

def runSys (W : World) (y : Sys) : List Op → Sys
  | [] => y
  | op :: l => runSys W (step W y op).1 l

theorem reach_run {W : World} {y : Sys} (h : Reach W y) (l : List Op) : Reach W (runSys W y l) := by
  induction l generalizing y with
  | nil => exact h
  | cons op l ih => exact ih (.step op h)

example : Reach exW (runSys exW (start [5] []) (exUpdate 7 true)) := reach_run (.start _ _) _
example : current (runSys exW (start [5] []) (exUpdate 7 true)).s = some [7] := by decide
example : current (runSys exW (start [5] []) (exUpdate 4 true)).s = some [5] := by decide
example : (runSys exW (start [5] []) (exUpdate 7 true)).held true = 1 := by decide
example : (step exW (runSys exW (start [5] []) (exUpdate 7 true)) (.clearPending 1 ⟨[], true⟩)).2.1 = .error .pendingInUse := by rfl
example : ((step exW (runSys exW (start [5] []) [exBoot]) (.clearPending 1 ⟨[], true⟩)).2.2).map (·.2) = [false] := by decide
example : (boot exW (start [5] [0xff]).s ⟨true, false, false, false, ⟨[], true⟩, ⟨[], true⟩⟩).2.2.map (·.2) = [false, true] := by decide
example : (step exW (runSys exW (start [5] []) ((exUpdate 7 true).take 4)) (.verify false true)).2.1 = .ok () := by rfl

/-- **Finding.** A failing `post_verify` hook makes the verification fail, but the manifest stays valid: it is activated all the same. -/
theorem post_verify_failure_activates :
    let y := runSys exW (start [5] []) ((exUpdate 7 false).take 4)
    (step exW y (.verify false false)).2.1 = .error .postVerify ∧
      current (step exW (step exW y (.verify false false)).1 .activate).1.s = some [7] := ⟨rfl, rfl⟩

/-- If the region that is active after a restart is not the one that was active before (the setting was not yet stored), an old manifest is
in force again: the condition on restarts is needed. -/
theorem lost_setting_reverts : ∃ y : Sys, Reach exW y ∧ current y.s = some [7] ∧
    current (step exW y exBoot).1.s = some [5] :=
  ⟨runSys exW (start [5] []) (exUpdate 7 true), reach_run (.start _ _) _, rfl, rfl⟩

/-! ## C43 -/

/-- **The property fails.** A caller gets the pending manifest without a reference when a verification of it finishes between the locked part
of the call and the second look at the validity; the region is then erased although the caller has it. -/
theorem handle_without_reference : ∃ (c : Conf) (op : Op), CReach exW c ∧ false ∈ c.handles ∧ (c.s.region false).refs = 0 ∧
    op.manager = true ∧ false ∈ (step exW ⟨c.s, fun _ => 0⟩ op).2.2.map (·.2) := by
  refine ⟨runC exW (exStartW exW [5] []) [.op (.clearPending 1 ⟨[], true⟩), .op (.write 1 [7] (some 1)), .lock false, .op (.verify false true), .read 0],
    .clearPending 1 ⟨[], true⟩, creach_run (.start (.boot _ _ rfl)) _, ?_, rfl, rfl, ?_⟩
  · show false ∈ [false]; simp
  · show false ∈ [false]; simp

/-- **The property fails** in the other direction, too: a reference is counted but the caller gets nothing, when the manifest is replaced in
between. -/
theorem reference_without_handle : ∃ c : Conf, CReach exW c ∧ c.handles = [] ∧ c.flying = [] ∧ (c.s.region true).refs = 1 ∧ Stuck true c := by
  refine ⟨runC exW (exStartW exW [5] []) [.op (.clearPending 1 ⟨[], true⟩), .op (.write 1 [7] (some 1)), .op (.verify false true), .lock true, .op .activate, .read 0],
    creach_run (.start (.boot _ _ rfl)) _, rfl, rfl, rfl, rfl, rfl, rfl, ?_, ?_⟩
  · show 1 ≠ 0; simp
  · show true ∉ []; simp

/-- The lost reference is permanent: whatever is called afterwards, the region is not released, and no new manifest can be received. -/
theorem lost_reference_permanent {W : World} {r : Bool} {c d : Conf} (hc : Stuck r c) (h : CFrom W c d) :
    (d.s.region r).refs ≠ 0 ∧ d.s.active = !r ∧
      ∀ size e, (clearPending d.s size e).2.1 = .error .pendingInUse := by
  obtain ⟨a, b, -, e, -⟩ := stuck_from hc h
  refine ⟨e, by rw [a, Bool.not_not], fun size er => ?_⟩
  rw [clearPending_eq, if_neg (by rw [← a]; exact e)]

/-- If no call changes the validity of a region while a caller is between the two looks at it, every handle is covered by a reference of
its own, and no flash operation touches a region somebody has a handle of. -/
theorem handles_covered_partial {W : World} {c : Conf} (h : QReach W c) :
    (∀ r, c.handles.count r ≤ (c.s.region r).refs) ∧
    ∀ op, op.manager = true → ∀ x ∈ (step W ⟨c.s, fun r => (c.s.region r).refs⟩ op).2.2, x.2 ∉ c.handles := by
  have hi := qreach_inv h
  have h1 : ∀ r, c.handles.count r ≤ (c.s.region r).refs := fun r => by rw [hi.refs]; omega
  refine ⟨h1, fun op hop x hx hm => ?_⟩
  have ht := (step_spec (W := W) (y := ⟨c.s, fun r => (c.s.region r).refs⟩) (fun _ => hi.inv) op).trace x hx
  have := ht.2.2.1
  rw [manager_held hop] at this
  have h2 := h1 x.2
  have h3 : 0 < c.handles.count x.2 := List.count_pos_iff.mpr hm
  simp only at this
  omega

example : QReach exW (runC exW (exStartW exW [5] []) [.lock true, .read 0]) := by
  refine .step (.read 0) (.step (.lock true) (.start (.boot _ _ rfl)) trivial) trivial
example : (runC exW (exStartW exW [5] []) [.lock true, .read 0]).handles = [true] := by rfl

end Verif.ManifestManager
