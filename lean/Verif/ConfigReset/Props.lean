import Verif.ConfigReset.Spec
/-! Property C54: configuration resets. -/
namespace Verif.ConfigReset

theorem clearList_status (res : Item → Nat) (l : List Item) : (clearList res l).status = 0 ↔ ∀ i ∈ l, res i = 0 := by
  induction l with
  | nil => simp [clearList]
  | cons i l ih =>
    unfold clearList
    by_cases h : res i = 0
    · simp [h, ih]
    · simp [h]

theorem clearList_calls (res : Item → Nat) (l : List Item) : (clearList res l).calls = untilFailure res l := by
  induction l with
  | nil => rfl
  | cons i l ih =>
    unfold clearList untilFailure
    by_cases h : res i = 0
    · simp [h, ih]
    · simp [h]

/-- The status is that of a manager, or success. -/
theorem clearList_code (res : Item → Nat) (l : List Item) : (clearList res l).status = 0 ∨ ∃ i ∈ l, (clearList res l).status = res i := by
  induction l with
  | nil => left; rfl
  | cons i l ih =>
    unfold clearList
    by_cases h : res i = 0
    · simp only [h, ne_eq, not_true, if_false]
      rcases ih with ih | ⟨j, hj, ih⟩
      · left; exact ih
      · right; exact ⟨j, List.mem_cons_of_mem _ hj, ih⟩
    · right; exact ⟨i, List.mem_cons_self, by simp [h]⟩

theorem untilFailure_all (res : Item → Nat) (l : List Item) (h : ∀ i ∈ l, res i = 0) : untilFailure res l = l := by
  induction l with
  | nil => rfl
  | cons i l ih =>
    unfold untilFailure
    rw [if_pos (h i List.mem_cons_self), ih fun j hj => h j (List.mem_cons_of_mem _ hj)]

theorem untilFailure_append (res : Item → Nat) (a b : List Item) :
    untilFailure res (a ++ b) = if ∀ i ∈ a, res i = 0 then a ++ untilFailure res b else untilFailure res a := by
  induction a with
  | nil => simp
  | cons i a ih =>
    rw [List.cons_append]
    simp only [untilFailure]
    by_cases h : res i = 0
    · rw [if_pos h, if_pos h, ih]
      by_cases h2 : ∀ j ∈ a, res j = 0
      · rw [if_pos h2, if_pos (by intro j hj; rcases List.mem_cons.1 hj with rfl | hj; exact h; exact h2 j hj)]; rfl
      · rw [if_neg h2, if_neg (by intro h3; exact h2 fun j hj => h3 j (List.mem_cons_of_mem _ hj))]
    · rw [if_neg h, if_neg h, if_neg (by intro h3; exact h (h3 i List.mem_cons_self))]

/-- What has been done after some parts: the calls are those up to the first failure in the list of all items so far, and the status is that of the
item that failed, or success. `t` says that the status `noManifests` may stand for success. -/
def Done (res : Item → Nat) (t : Bool) (l : List Item) (o : Out) : Prop :=
  o.calls = untilFailure res l ∧
  (((∀ i ∈ l, res i = 0) ∧ (o.status = 0 ∨ t = true ∧ o.status = noManifests)) ∨ ∃ i ∈ l, res i ≠ 0 ∧ o.status = res i ∧ o.calls.getLast? = some i)

theorem clearList_done (res : Item → Nat) (l : List Item) : Done res false l (clearList res l) := by
  refine ⟨clearList_calls res l, ?_⟩
  induction l with
  | nil => left; exact ⟨by simp, .inl rfl⟩
  | cons i l ih =>
    unfold clearList
    by_cases h : res i = 0
    · rw [if_neg (by simpa using h)]
      rcases ih with ⟨h1, h2⟩ | ⟨j, hj, h1, h2, h3⟩
      · left
        refine ⟨?_, h2⟩
        intro k hk
        rcases List.mem_cons.1 hk with rfl | hk
        · exact h
        · exact h1 k hk
      · right
        refine ⟨j, List.mem_cons_of_mem _ hj, h1, h2, ?_⟩
        show (i :: (clearList res l).calls).getLast? = some j
        rw [List.getLast?_cons, h3]; rfl
    · right
      exact ⟨i, List.mem_cons_self, h, by simp [h], by simp [h]⟩

theorem done_then {res : Item → Nat} {t t' : Bool} {l l' : List Item} {o o' : Out} (h : Done res t l o) (hs : ∀ i ∈ l, res i = 0) (h' : Done res t' l' o') :
    Done res t' (l ++ l') (o.andThen o') := by
  refine ⟨?_, ?_⟩
  · rw [untilFailure_append, if_pos hs]
    show o.calls ++ o'.calls = _
    rw [h.1, untilFailure_all res l hs, h'.1]
  · rcases h'.2 with ⟨h1, h2⟩ | ⟨j, hj, h1, h2, h3⟩
    · left
      refine ⟨?_, h2⟩
      intro i hi
      rcases List.mem_append.1 hi with hi | hi
      · exact hs i hi
      · exact h1 i hi
    · right
      refine ⟨j, List.mem_append_right _ hj, h1, h2, ?_⟩
      show (o.calls ++ o'.calls).getLast? = some j
      rw [List.getLast?_append, h3]; rfl

theorem done_list {res : Item → Nat} {t : Bool} {l : List Item} {o : Out} (h : Done res t l o) (hs : ∀ i ∈ l, res i = 0) (l' : List Item) :
    Done res (t && l' = []) (l ++ l') (o.andList res l') := by
  unfold Out.andList
  by_cases hl : l' = []
  · subst hl
    simpa using h
  · rw [if_neg hl]
    simpa [hl] using done_then h hs (clearList_done res l')

theorem done_stop {res : Item → Nat} {t : Bool} {l : List Item} {o : Out} (h : Done res t l o) (hs : ¬ ∀ i ∈ l, res i = 0) (t' : Bool) (l' : List Item) :
    Done res t' (l ++ l') o := by
  refine ⟨?_, ?_⟩
  · rw [untilFailure_append, if_neg hs]; exact h.1
  · rcases h.2 with ⟨h1, _⟩ | ⟨j, hj, h2⟩
    · exact absurd h1 hs
    · exact .inr ⟨j, List.mem_append_left _ hj, h2⟩

/-- One part of `restoreRest`. -/
theorem stage {res : Item → Nat} {t t2 : Bool} {l : List Item} {o : Out} (h : Done res t l o) (hs : ∀ i ∈ l, res i = 0) (l' l2 : List Item) (k : Out → Out)
    (hk : ∀ o', Done res (t && l' = []) (l ++ l') o' → (∀ i ∈ l ++ l', res i = 0) → Done res t2 (l ++ l' ++ l2) (k o')) :
    Done res t2 (l ++ l' ++ l2) (o.stage res l' k) := by
  unfold Out.stage
  have hd := done_list h hs l'
  split
  · rename_i hc
    apply done_stop hd
    intro hall
    rcases hd.2 with ⟨_, h2⟩ | ⟨j, hj, h2, _⟩
    · rcases h2 with h2 | ⟨h2, _⟩
      · exact hc.2 h2
      · simp [hc.1] at h2
    · exact h2 (hall j hj)
  · rename_i hc
    apply hk _ hd
    by_cases hl : l' = []
    · rw [hl, List.append_nil]; exact hs
    · have h0 : (o.andList res l').status = 0 := by
        rcases Nat.decEq (o.andList res l').status 0 with h | h
        · exact absurd ⟨hl, h⟩ hc
        · exact h
      rcases hd.2 with ⟨h1, _⟩ | ⟨j, hj, h2, h3, _⟩
      · exact h1
      · rw [h0] at h3; exact absurd h3.symm h2

/-- One list of manifests. -/
theorem part_done (res : Item → Nat) (n : Nat) (f : Nat → Item) : Done res (n = 0) ((List.range n).map f) (if n = 0 then ⟨noManifests, []⟩ else clearList res ((List.range n).map f)) := by
  by_cases h : n = 0
  · subst h
    exact ⟨rfl, .inl ⟨by simp, .inr ⟨rfl, rfl⟩⟩⟩
  · rw [if_neg h]
    simpa [h] using clearList_done res ((List.range n).map f)

theorem opt_nil (b : Bool) (i : Item) : opt b i = [] ↔ b = false := by cases b <;> simp [opt]

theorem stops_iff {res : Item → Nat} (hres : ∀ i, res i ≠ noManifests) {t : Bool} {l : List Item} {o : Out} (h : Done res t l o) :
    stops o.status = false ↔ ∀ i ∈ l, res i = 0 := by
  rcases h.2 with ⟨h1, h2⟩ | ⟨j, hj, h1, h2, _⟩
  · refine ⟨fun _ => h1, fun _ => ?_⟩
    rcases h2 with h2 | ⟨_, h2⟩ <;> simp [stops, h2]
  · rw [h2]
    constructor
    · intro hs
      simp only [stops, Bool.and_eq_false_iff, decide_eq_false_iff_not, ne_eq, Decidable.not_not] at hs
      rcases hs with hs | hs
      · exact absurd hs h1
      · exact absurd hs (hres j)
    · intro hall; exact absurd (hall j hj) h1

theorem rest_done {res : Item → Nat} {t : Bool} {l : List Item} {o : Out} (c : Config) (h : Done res t l o) (hs : ∀ i ∈ l, res i = 0) :
    Done res (t && !hasMore c) (l ++ (List.range c.state).map .state ++ opt c.riot .riot ++ opt c.aux .aux ++ opt c.recovery .recovery ++
      (List.range c.keystore).map .keystore) (restoreRest res c o) := by
  have ht : (t && !hasMore c) = (t && decide ((List.range c.state).map Item.state = []) && decide (opt c.riot .riot = []) && decide (opt c.aux .aux = []) &&
      decide (opt c.recovery .recovery = []) && decide ((List.range c.keystore).map Item.keystore = [])) := by
    simp only [hasMore, opt_nil, List.map_eq_nil_iff, List.range_eq_nil]
    cases t <;> cases c.riot <;> cases c.aux <;> cases c.recovery <;> by_cases h1 : c.state = 0 <;> by_cases h2 : c.keystore = 0 <;> simp [h1, h2]
  rw [ht]
  unfold restoreRest
  rw [List.append_assoc, List.append_assoc, List.append_assoc]
  apply stage h hs
  intro o1 d1 s1
  rw [← List.append_assoc]
  apply stage d1 s1
  intro o2 d2 s2
  rw [← List.append_assoc]
  apply stage d2 s2
  intro o3 d3 s3
  rw [← List.append_assoc]
  apply stage d3 s3
  intro o4 d4 s4
  exact done_list d4 s4 _

/-- Everything about `restoreDefaults`. -/
theorem defaults_done {res : Item → Nat} (hres : ∀ i, res i ≠ noManifests) (c : Config) :
    Done res (decide (c.component = 0) && !hasMore c) (everything c) (restoreDefaults res c) := by
  have hb : Done res _ _ (restoreBypass res c) := part_done res c.bypass .bypass
  have hp : Done res _ _ (restorePlatformConfig res c) := part_done res c.config .config
  have hm : Done res _ _ (clearComponentManifests res c) := part_done res c.component .component
  unfold restoreDefaults everything
  dsimp only
  split
  · rename_i h1
    have : ¬ ∀ i ∈ (List.range c.bypass).map Item.bypass, res i = 0 := by
      intro h; rw [(stops_iff hres hb).2 h] at h1; cases h1
    simp only [List.append_assoc]
    exact done_stop hb this _ _
  · rename_i h1
    have s1 := (stops_iff hres hb).1 (by simpa using h1)
    have d1 := done_then hb s1 hp
    split
    · rename_i h2
      have : ¬ ∀ i ∈ (List.range c.bypass).map Item.bypass ++ (List.range c.config).map Item.config, res i = 0 := by
        intro h; rw [(stops_iff hres d1).2 h] at h2; cases h2
      simp only [List.append_assoc]
      rw [← List.append_assoc]
      exact done_stop d1 this _ _
    · rename_i h2
      have s2 := (stops_iff hres d1).1 (by simpa using h2)
      have d2 := done_then d1 s2 hm
      split
      · rename_i h3
        have : ¬ ∀ i ∈ (List.range c.bypass).map Item.bypass ++ (List.range c.config).map Item.config ++ (List.range c.component).map Item.component, res i = 0 := by
          intro h; rw [(stops_iff hres d2).2 h] at h3; cases h3
        simp only [List.append_assoc]
        rw [← List.append_assoc, ← List.append_assoc]
        exact done_stop d2 this _ _
      · rename_i h3
        exact rest_done c d2 ((stops_iff hres d2).1 (by simpa using h3))

/-- C54: if a reset of any kind reports success, everything it is to clear was cleared: each manager was called, in order, and reported success. This
holds for every configuration and every pattern of failures, where managers do not return the code of this module for "no manifests". -/
theorem success_cleared (k : Kind) (res : Item → Nat) (hres : ∀ i, res i ≠ noManifests) (c : Config) (h : (execute k res c).1.status = 0) :
    (execute k res c).1.calls = scope k c ∧ ∀ i ∈ scope k c, res i = 0 := by
  have fin : ∀ {t : Bool} {l : List Item} {o : Out}, Done res t l o → o.status = 0 → o.calls = l ∧ ∀ i ∈ l, res i = 0 := by
    intro t l o hd h0
    rcases hd.2 with ⟨h1, _⟩ | ⟨j, hj, h1, h2, _⟩
    · exact ⟨hd.1.trans (untilFailure_all res l h1), h1⟩
    · rw [h0] at h2; exact absurd h2.symm h1
  cases k with
  | bypass => exact fin (part_done res c.bypass .bypass) h
  | defaults => exact fin (defaults_done hres c) h
  | platform => exact fin (part_done res c.config .config) h
  | components => exact fin (part_done res c.component .component) h
  | certificates =>
    simp only [execute, handler, clearCertificates, scope] at h ⊢
    cases hr : c.riot with
    | false => rw [hr] at h; simp [noCerts] at h
    | true =>
      rw [hr] at h
      have h0 : res .riot = 0 := by simpa using h
      exact ⟨rfl, by intro i hi; rw [List.mem_singleton.1 hi]; exact h0⟩

example : (execute .defaults (fun _ => 0) ⟨1, 2, 1, 1, true, false, true, 2⟩).1 =
    ⟨0, [.bypass 0, .config 0, .config 1, .component 0, .state 0, .riot, .recovery, .keystore 0, .keystore 1]⟩ := by decide

/-- C54: a failure of a manager is never hidden: the reset stops there and reports the code of this manager. -/
theorem failure_reported (res : Item → Nat) (hres : ∀ i, res i ≠ noManifests) (c : Config) (h : ∃ i ∈ everything c, res i ≠ 0) :
    ∃ i ∈ everything c, res i ≠ 0 ∧ (restoreDefaults res c).status = res i ∧ (restoreDefaults res c).calls.getLast? = some i ∧
      (restoreDefaults res c).calls = untilFailure res (everything c) := by
  have hd := defaults_done hres c
  obtain ⟨i, hi, hne⟩ := h
  rcases hd.2 with ⟨h1, _⟩ | ⟨j, hj, h1, h2, h3⟩
  · exact absurd (h1 i hi) hne
  · exact ⟨j, hj, h1, h2, h3, hd.1⟩

example : restoreDefaults (fun i => if i = .config 1 then 9 else 0) ⟨1, 2, 1, 1, true, false, true, 2⟩ = ⟨9, [.bypass 0, .config 0, .config 1]⟩ := by decide

/-- C54: the reset reports a failure although everything was cleared in exactly one case: there are no component manifests and nothing else after the
manifests of the platform. -/
theorem false_alarm (res : Item → Nat) (hres : ∀ i, res i ≠ noManifests) (c : Config) (h : ∀ i ∈ everything c, res i = 0) :
    (restoreDefaults res c).calls = everything c ∧ ((restoreDefaults res c).status ≠ 0 ↔ c.component = 0 ∧ hasMore c = false) := by
  have hd := defaults_done hres c
  refine ⟨hd.1.trans (untilFailure_all _ _ h), ?_⟩
  constructor
  · intro hne
    rcases hd.2 with ⟨_, h2⟩ | ⟨j, hj, h1, _⟩
    · rcases h2 with h2 | ⟨h2, _⟩
      · exact absurd h2 hne
      · simpa using h2
    · exact absurd (h j hj) h1
  · rintro ⟨h1, h2⟩
    simp only [hasMore, Bool.or_eq_false_iff, decide_eq_false_iff_not, ne_eq, Decidable.not_not] at h2
    obtain ⟨⟨⟨⟨h2, h3⟩, h4⟩, h5⟩, h6⟩ := h2
    have hb : stops (restoreBypass res c).status = false := by
      refine (stops_iff hres (part_done res c.bypass .bypass)).2 fun i hi => h i ?_
      simp only [everything, List.mem_append]; simp [hi]
    have hp : stops (restorePlatformConfig res c).status = false := by
      refine (stops_iff hres (part_done res c.config .config)).2 fun i hi => h i ?_
      simp only [everything, List.mem_append]; simp [hi]
    have hp' : stops ((restoreBypass res c).andThen (restorePlatformConfig res c)).status = false := hp
    have hm : (clearComponentManifests res c) = ⟨noManifests, []⟩ := by simp [clearComponentManifests, h1]
    have hs : stops (((restoreBypass res c).andThen (restorePlatformConfig res c)).andThen (clearComponentManifests res c)).status = false := by
      rw [hm]; rfl
    unfold restoreDefaults
    dsimp only
    rw [hb, hp', hs, hm]
    simp [restoreRest, Out.stage, Out.andThen, h2, h3, h4, h5, h6, opt, Out.andList, noManifests]

example : restoreDefaults (fun _ => 0) ⟨1, 1, 0, 0, false, false, false, 0⟩ = ⟨noManifests, [.bypass 0, .config 0]⟩ := by decide

/-- C54: a device reset is asked for only when platform configuration was cleared. -/
theorem reset_request (k : Kind) (res : Item → Nat) (c : Config) : (execute k res c).2 = true ↔ k = .platform ∧ (execute k res c).1.status = 0 := by
  simp [execute, and_comm]

end Verif.ConfigReset
