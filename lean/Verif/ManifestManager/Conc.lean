import Verif.ManifestManager.Lemmas
/-! `manifest_manager_flash_get_manifest_region` (lines 311-326) interleaved with other calls: the locked part (316-323) and the second look at
`is_valid` (325) are separate steps. The other calls are still atomic. -/
namespace Verif.ManifestManager

/-- `flying`: callers between the two parts: the region and, for the proofs, whether a reference was counted. `handles`: the regions the callers
were given. -/
structure Conf where
  s : State
  flying : List (Bool × Bool)
  handles : List Bool

/-- Calls that do not hand out or take back manifests. -/
def Op.manager : Op → Bool
  | .boot _ | .get _ | .free _ => false
  | _ => true

inductive Act
  /-- Any other call. -/
  | op (op : Op)
  /-- Lines 316-323. -/
  | lock (active : Bool)
  /-- Line 325 of the `k`-th caller. -/
  | read (k : Nat)
  /-- The `k`-th handle is given back. -/
  | free (k : Nat)

def cstep (W : World) (c : Conf) : Act → Conf
  | .op op => if op.manager then { c with s := (step W ⟨c.s, fun _ => 0⟩ op).1.s } else c
  | .lock a =>
    let (s, r, n) := getLocked c.s a
    { c with s := s, flying := c.flying ++ [(r, n)] }
  | .read k =>
    match c.flying[k]? with
    | none => c
    | some (r, _) => { c with flying := c.flying.eraseIdx k, handles := if (c.s.region r).valid then c.handles ++ [r] else c.handles }
  | .free k =>
    match c.handles[k]? with
    | none => c
    | some r => { c with s := free c.s (some r), handles := c.handles.eraseIdx k }

/-- After a successful initialization. -/
inductive CStart (W : World) : Conf → Prop
  | boot (s : State) (env : BootEnv) : (boot W s env).1.up = true → CStart W ⟨(boot W s env).1, [], []⟩

inductive CFrom (W : World) (c : Conf) : Conf → Prop
  | refl : CFrom W c c
  | step {d : Conf} (a : Act) : CFrom W c d → CFrom W c (cstep W d a)

inductive CReach (W : World) : Conf → Prop
  | start {c : Conf} : CStart W c → CReach W c
  | step {c : Conf} (a : Act) : CReach W c → CReach W (cstep W c a)

/-- The action does not change the validity of a region a caller is looking at. -/
def Quiet (W : World) (c : Conf) : Act → Prop
  | .op op => ∀ x ∈ c.flying, ((cstep W c (.op op)).s.region x.1).valid = (c.s.region x.1).valid
  | _ => True

inductive QReach (W : World) : Conf → Prop
  | start {c : Conf} : CStart W c → QReach W c
  | step {c : Conf} (a : Act) : QReach W c → Quiet W c a → QReach W (cstep W c a)

def runC (W : World) (c : Conf) : List Act → Conf
  | [] => c
  | a :: l => runC W (cstep W c a) l

/-- The pending region `r` is not valid, nothing is being received, it has a reference but nobody has a handle. -/
def Stuck (r : Bool) (c : Conf) : Prop :=
  r = (!c.s.active) ∧ (c.s.region r).valid = false ∧ c.s.updating = none ∧ (c.s.region r).refs ≠ 0 ∧ r ∉ c.handles

/-- Example: after a start with the given contents. -/
def exStartW (W : World) (c1 c2 : Bytes) : Conf :=
  ⟨(boot W (start c1 c2).s ⟨true, false, false, false, ⟨[], true⟩, ⟨[], true⟩⟩).1, [], []⟩

theorem manager_held {W : World} {y : Sys} {op : Op} (h : op.manager = true) : (step W y op).1.held = y.held := by
  cases op <;> first | (cases h; done) | (simp only [step]; cases y.s.up <;> rfl)

theorem manager_state {W : World} {s : State} {g h : Bool → Nat} {op : Op} (hm : op.manager = true) :
    (step W ⟨s, g⟩ op).1.s = (step W ⟨s, h⟩ op).1.s := by
  cases op <;> first | (cases hm; done) | (simp only [step]; cases s.up <;> rfl)

/-- References are the handles plus the callers that were counted; they see what they saw. -/
structure CInv (W : World) (c : Conf) : Prop where
  inv : Inv W c.s (fun r => (c.s.region r).refs)
  up : c.s.up = true
  refs : ∀ r, (c.s.region r).refs = c.handles.count r + c.flying.countP (fun x => x.1 == r && x.2)
  seen : ∀ x ∈ c.flying, x.2 = (c.s.region x.1).valid

theorem countP_eraseIdx {α : Type _} (p : α → Bool) (l : List α) (k : Nat) (x : α) (h : l[k]? = some x) :
    l.countP p = (l.eraseIdx k).countP p + (if p x then 1 else 0) := by
  induction l generalizing k with
  | nil => simp at h
  | cons y l ih =>
    cases k with
    | zero =>
      simp only [List.getElem?_cons_zero, Option.some.injEq] at h
      subst h
      rw [List.eraseIdx_cons_zero, List.countP_cons]
    | succ k =>
      simp only [List.getElem?_cons_succ] at h
      rw [List.eraseIdx_cons_succ, List.countP_cons, List.countP_cons, ih k h]
      omega

theorem mem_of_eraseIdx {α : Type _} {l : List α} {k : Nat} {x : α} (h : x ∈ l.eraseIdx k) : x ∈ l := List.mem_of_mem_eraseIdx h

theorem getLocked_cases (s : State) (a : Bool) :
    (getLocked s a = (s.set (s.pick a) { s.region (s.pick a) with refs := (s.region (s.pick a)).refs + 1 }, s.pick a, true) ∧ (s.region (s.pick a)).valid = true) ∨
    (getLocked s a = (s, s.pick a, false) ∧ (s.region (s.pick a)).valid = false) := by
  unfold getLocked
  cases h : (s.region (s.pick a)).valid with
  | true => left; simp [h]
  | false => right; simp [h]

theorem qreach_inv {W : World} {c : Conf} (h : QReach W c) : CInv W c := by
  induction h with
  | start h =>
    obtain ⟨s, env, hu⟩ := h
    have hb := (boot_spec W s env (show boot W s env = ((boot W s env).1, (boot W s env).2.1, (boot W s env).2.2) from rfl)).inv hu
    have hr : (fun r => ((boot W s env).1.region r).refs) = fun _ => 0 := funext hb.1.refs
    exact ⟨by rw [hr]; exact hb.1, hu, fun r => by simpa using hb.1.refs r, fun x hx => (nomatch hx)⟩
  | @step c a _ hq ih =>
    obtain ⟨hi, hu, hr, hs⟩ := ih
    cases a with
    | op op =>
      simp only [cstep]
      by_cases hm : op.manager = true
      · simp only [if_pos hm]
        have st := step_spec (W := W) (y := ⟨c.s, fun r => (c.s.region r).refs⟩) (fun _ => hi) op
        rw [manager_state (h := fun r => (c.s.region r).refs) hm]
        have hup : (step W ⟨c.s, fun r => (c.s.region r).refs⟩ op).1.s.up = true := by
          rcases st.moves with ⟨env, rfl, -⟩ | ⟨hd, -⟩ | ⟨hd, -⟩
          · cases hm
          · rw [hu] at hd; cases hd
          · rw [hd]; exact hu
        have i2 := st.inv hup
        rw [manager_held hm] at i2
        have e : (fun r => ((step W ⟨c.s, fun r => (c.s.region r).refs⟩ op).1.s.region r).refs) = fun r => (c.s.region r).refs := funext i2.refs
        refine ⟨by rw [e]; exact i2, hup, fun r => by rw [i2.refs r]; exact hr r, fun x hx => ?_⟩
        have := hq x hx
        simp only [cstep, if_pos hm] at this
        rw [manager_state (h := fun r => (c.s.region r).refs) hm] at this
        rw [this]
        exact hs x hx
      · simp only [if_neg hm]
        exact ⟨hi, hu, hr, hs⟩
    | lock a =>
      simp only [cstep]
      rcases getLocked_cases c.s a with ⟨e, hv⟩ | ⟨e, hv⟩
      · rw [e]
        simp only
        have hsame : ∀ q, ((c.s.set (c.s.pick a) { c.s.region (c.s.pick a) with refs := (c.s.region (c.s.pick a)).refs + 1 }).region q).valid = (c.s.region q).valid := by
          intro q
          rcases bcases (c.s.pick a) q with rfl | rfl
          · simp
          · simp
        refine ⟨refs_inv hi _ _ (.inl hv) _ (fun q => ?_), hu, fun r => ?_, fun x hx => ?_⟩
        · simp only [set_region]
          split <;> rfl
        · rw [set_region, List.countP_append, List.countP_singleton]
          split
          · rename_i h; subst h
            simp only [beq_self_eq_true, Bool.and_self, if_true]
            have := hr (c.s.pick a); omega
          · rename_i h
            have : (c.s.pick a == r) = false := by cases hx : (c.s.pick a == r) <;> simp_all
            simp only [this, Bool.false_and, Bool.false_eq_true, if_false]
            have := hr r; omega
        · rw [hsame]
          rcases List.mem_append.mp hx with hx | hx
          · exact hs x hx
          · simp only [List.mem_singleton] at hx
            subst hx
            exact hv.symm
      · rw [e]
        simp only
        refine ⟨hi, hu, fun r => ?_, fun x hx => ?_⟩
        · rw [List.countP_append, List.countP_singleton]
          simp only [Bool.and_false, Bool.false_eq_true, if_false]
          have := hr r; omega
        · rcases List.mem_append.mp hx with hx | hx
          · exact hs x hx
          · simp only [List.mem_singleton] at hx
            subst hx
            exact hv.symm
    | read k =>
      simp only [cstep]
      cases hk : c.flying[k]? with
      | none => exact ⟨hi, hu, hr, hs⟩
      | some x =>
        obtain ⟨r, n⟩ := x
        have hx := hs (r, n) (List.mem_of_getElem? hk)
        simp only at hx
        simp only
        refine ⟨hi, hu, fun q => ?_, fun x hx => hs x (mem_of_eraseIdx hx)⟩
        have hce := countP_eraseIdx (fun x : Bool × Bool => x.1 == q && x.2) c.flying k (r, n) hk
        have := hr q
        rw [← hx]
        cases n with
        | false => simp_all
        | true =>
          simp only [if_true, List.count_append, List.count_singleton]
          simp only [Bool.and_true] at hce
          omega
    | free k =>
      simp only [cstep]
      cases hk : c.handles[k]? with
      | none => exact ⟨hi, hu, hr, hs⟩
      | some r =>
        simp only
        have hce : ∀ q, c.handles.count q = (c.handles.eraseIdx k).count q + (if r == q then 1 else 0) := fun q => by
          have := countP_eraseIdx (· == q) c.handles k r hk
          simpa [List.count] using this
        have hp : (c.s.region r).refs ≠ 0 := by
          have h1 := hr r
          have h2 := hce r
          simp only [beq_self_eq_true, if_true] at h2
          omega
        have fs := free_spec hi r hp
        have ev : ∀ q, ((free c.s (some r)).region q).refs = if q = r then (c.s.region q).refs - 1 else (c.s.region q).refs := fs.1.refs
        have hval : ∀ q, ((free c.s (some r)).region q).valid = (c.s.region q).valid := by
          intro q
          simp only [free, if_pos (show (c.s.region r).refs > 0 by omega)]
          rcases bcases r q with rfl | rfl
          · simp
          · simp
        have e : (fun q => ((free c.s (some r)).region q).refs) = fun q => if q = r then (c.s.region q).refs - 1 else (c.s.region q).refs := funext ev
        refine ⟨by rw [e]; exact fs.1, by rw [fs.2.1]; exact hu, fun q => ?_, fun x hx => by rw [hval]; exact hs x hx⟩
        rw [ev]
        have h1 := hr q
        have h2 := hce q
        by_cases hq : q = r
        · subst hq
          simp only [beq_self_eq_true, if_true] at h2 ⊢
          omega
        · rw [if_neg hq]
          show (c.s.region q).refs = (c.handles.eraseIdx k).count q + c.flying.countP _
          have : (r == q) = false := by cases hx : (r == q) <;> simp_all
          simp only [this, Bool.false_eq_true, if_false] at h2
          omega

theorem creach_run {W : World} {c : Conf} (h : CReach W c) (l : List Act) : CReach W (runC W c l) := by
  induction l generalizing c with
  | nil => exact h
  | cons a l ih => exact ih (.step a h)

/-- Calls do not release a region that is stuck. -/
theorem stuck_op {W : World} {r : Bool} {c : Conf} (hc : Stuck r c) (op : Op) : Stuck r (cstep W c (.op op)) := by
  obtain ⟨h1, h2, h3, h4, h5⟩ := hc
  subst h1
  simp only [cstep]
  split
  · rename_i hm
    cases hu : c.s.up with
    | false =>
      have e : (step W ⟨c.s, fun _ => 0⟩ op).1.s = c.s := by
        cases op <;> first | (cases hm; done) | (simp only [step, hu]; rfl)
      rw [e]; exact ⟨rfl, h2, h3, h4, h5⟩
    | true =>
      have keep : ∀ s', s' = c.s → Stuck (!c.s.active) { c with s := s' } := fun s' e => by subst e; exact ⟨rfl, h2, h3, h4, h5⟩
      cases op with
      | boot _ => cases hm
      | get _ => cases hm
      | free _ => cases hm
      | activate =>
        apply keep
        simp only [step, hu, Bool.not_true, Bool.false_eq_true, if_false, activate_eq, if_pos h2]
      | clearPending size e =>
        apply keep
        simp only [step, hu, Bool.not_true, Bool.false_eq_true, if_false, clearPending_eq, if_neg h4]
      | write l b w =>
        apply keep
        simp only [step, hu, Bool.not_true, Bool.false_eq_true, if_false, writePending, h3]
      | verify f p =>
        apply keep
        simp only [step, hu, Bool.not_true, Bool.false_eq_true, if_false, verifyPending, remaining, h3, verifyNew_eq, h2]
        show ({ c.s with updating := none } : State) = c.s
        rw [← h3]
      | clearAll e1 e2 =>
        apply keep
        have hcm : clearManifest c.s (c.s.pick false) .pendingInUse e1 = (c.s, .error .pendingInUse, []) := by
          unfold clearManifest
          rw [if_pos (show (c.s.region (c.s.pick false)).refs ≠ 0 from h4)]
        simp only [step, hu, Bool.not_true, Bool.false_eq_true, if_false, clearAll, hcm]
  · exact ⟨rfl, h2, h3, h4, h5⟩

theorem stuck_from {W : World} {r : Bool} {c d : Conf} (hc : Stuck r c) (h : CFrom W c d) : Stuck r d := by
  induction h with
  | refl => exact hc
  | @step d a _ ih =>
    cases a with
    | op op => exact stuck_op ih op
    | lock a =>
      obtain ⟨h1, h2, h3, h4, h5⟩ := ih
      simp only [cstep]
      rcases getLocked_cases d.s a with ⟨e, hv⟩ | ⟨e, hv⟩
      · rw [e]
        have hne : d.s.pick a = !r := by
          rcases bcases r (d.s.pick a) with h | h
          · rw [h, h2] at hv; cases hv
          · exact h
        simp only [hne]
        refine ⟨h1, ?_, h3, ?_, h5⟩
        · rw [set_other']; exact h2
        · rw [set_other']; exact h4
      · rw [e]; exact ⟨h1, h2, h3, h4, h5⟩
    | read k =>
      obtain ⟨h1, h2, h3, h4, h5⟩ := ih
      simp only [cstep]
      cases hk : d.flying[k]? with
      | none => exact ⟨h1, h2, h3, h4, h5⟩
      | some x =>
        refine ⟨h1, h2, h3, h4, ?_⟩
        simp only
        split
        · rename_i hv
          intro hm
          rcases List.mem_append.mp hm with hm | hm
          · exact h5 hm
          · simp only [List.mem_singleton] at hm
            subst hm
            rw [h2] at hv; cases hv
        · exact h5
    | free k =>
      obtain ⟨h1, h2, h3, h4, h5⟩ := ih
      simp only [cstep]
      cases hk : d.handles[k]? with
      | none => exact ⟨h1, h2, h3, h4, h5⟩
      | some q =>
        have hne : q = !r := by
          rcases bcases r q with h | h
          · subst h; exact absurd (List.mem_of_getElem? hk) h5
          · exact h
        subst hne
        simp only [free]
        split
        · refine ⟨h1, ?_, h3, ?_, fun hm => h5 (mem_of_eraseIdx hm)⟩
          · rw [set_other']; exact h2
          · rw [set_other']; exact h4
        · exact ⟨h1, h2, h3, h4, fun hm => h5 (mem_of_eraseIdx hm)⟩

end Verif.ManifestManager
