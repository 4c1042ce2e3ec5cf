import Verif.ErrorState.Model
/-! The error state after a failed self-test: property theorems (C149). -/
namespace Verif.ErrorState
open Verif Spec

mutual
private theorem enter_eq (d : Drops) (i : Nat) : (e : Entry) → enter d e i = (d i || e.channels.contains i)
  | .channel j => by
    simp only [enter, setDrop, Entry.channels, List.contains_cons, List.contains_nil, Bool.or_false]
    by_cases h : i = j
    · simp [h]
    · simp [h]
  | .group hs => by simp only [enter, Entry.channels]; exact enterAll_eq d i hs
  | .other => by simp [enter, Entry.channels]
private theorem enterAll_eq (d : Drops) (i : Nat) : (hs : List Entry) → enterAll d hs i = (d i || (Entry.listChannels hs).contains i)
  | [] => by simp [enterAll, Entry.listChannels]
  | h :: hs => by
    rw [enterAll, enterAll_eq (enter d h) i hs, enter_eq d i h, Entry.listChannels]
    simp [Bool.or_assoc]
end

/-- The effect of leaves of exit handlers, until one refuses. -/
private def exitLeaves (d : Drops) : List (Nat ⊕ Int) → Drops × Int
  | [] => (d, 0)
  | .inl i :: ls => exitLeaves (setDrop d i false) ls
  | .inr s :: ls => if s ≠ 0 then (d, s) else exitLeaves d ls

private theorem exitLeaves_append : ∀ (l1 l2 : List (Nat ⊕ Int)) (d : Drops),
    exitLeaves d (l1 ++ l2) = if (exitLeaves d l1).2 ≠ 0 then exitLeaves d l1 else exitLeaves (exitLeaves d l1).1 l2
  | [], l2, d => by simp [exitLeaves]
  | .inl i :: l1, l2, d => by simp only [List.cons_append, exitLeaves]; exact exitLeaves_append l1 l2 _
  | .inr s :: l1, l2, d => by
    simp only [List.cons_append, exitLeaves]
    by_cases h : s ≠ 0
    · simp [h]
    · simp only [if_neg h]; exact exitLeaves_append l1 l2 _

mutual
private theorem exit_eq (d : Drops) : (e : Exit) → exit d e = exitLeaves d e.leaves
  | .channel j => by simp [exit, Exit.leaves, exitLeaves]
  | .group hs => by simp only [exit, Exit.leaves]; exact exitAll_eq d hs
  | .other s => by
    simp only [exit, Exit.leaves, exitLeaves]
    by_cases h : s = 0
    · simp [h]
    · simp [h]
private theorem exitAll_eq (d : Drops) : (hs : List Exit) → exitAll d hs = exitLeaves d (Exit.listLeaves hs)
  | [] => by simp [exitAll, Exit.listLeaves, exitLeaves]
  | h :: hs => by
    rw [exitAll, exit_eq d h, Exit.listLeaves, exitLeaves_append]
    by_cases g : (exitLeaves d h.leaves).2 ≠ 0
    · simp only [if_pos g]
    · simp only [if_neg g]; exact exitAll_eq _ hs
end

private theorem exitLeaves_fst (i : Nat) : ∀ (ls : List (Nat ⊕ Int)) (d : Drops),
    (exitLeaves d ls).1 i = (d i && !((ls.takeWhile fun l => !refuses l).filterMap Sum.getLeft?).contains i)
  | [], d => by simp [exitLeaves]
  | .inl j :: ls, d => by
    rw [exitLeaves, exitLeaves_fst i ls]
    simp only [setDrop, List.takeWhile_cons, refuses, Bool.not_false, if_true, List.filterMap_cons, Sum.getLeft?_inl, List.contains_cons]
    by_cases h : i = j
    · simp [h]
    · have hb : (i == j) = false := by simpa using h
      simp only [if_neg h, hb, Bool.false_or]
  | .inr s :: ls, d => by
    rw [exitLeaves]
    by_cases h : s = 0
    · simp only [h, ne_eq, not_true, if_false, List.takeWhile_cons, refuses, bne_self_eq_false, Bool.not_false, if_true, List.filterMap_cons, Sum.getLeft?_inr]
      exact exitLeaves_fst i ls d
    · simp [h, refuses]

private theorem exitLeaves_snd : ∀ (ls : List (Nat ⊕ Int)) (d : Drops), (exitLeaves d ls).2 = 0 ↔ ls.all (fun l => !refuses l) = true
  | [], d => by simp [exitLeaves]
  | .inl j :: ls, d => by rw [exitLeaves, exitLeaves_snd ls]; simp [refuses]
  | .inr s :: ls, d => by
    rw [exitLeaves]
    by_cases h : s = 0
    · simp only [h, ne_eq, not_true, if_false]
      rw [exitLeaves_snd ls]; simp [refuses]
    · simp [h, refuses]

private theorem runTests_fst (e : Entry) (d : Drops) (i : Nat) : ∀ rs : List Int,
    (runTests e d rs).1 i = (d i || (rs.any (· != 0) && e.channels.contains i))
  | [] => by simp [runTests]
  | r :: rs => by
    rw [runTests]
    by_cases h : r = 0
    · simp only [h, ne_eq, not_true, if_false, List.any_cons, bne_self_eq_false, Bool.false_or]
      exact runTests_fst e d i rs
    · have hb : (r != 0) = true := by simpa using h
      simp only [if_pos h, enter_eq, List.any_cons, hb, Bool.true_or, Bool.true_and]

private theorem step_eq (d : Drops) (e : Event) (i : Nat) : (step d e).1 i = after i (d i) e := by
  cases e with
  | send ch p w => rfl
  | tests e rs => exact runTests_fst e d i rs
  | enter e => exact enter_eq d i e
  | exit e => simp only [step, after, exit_eq, Exit.left]; exact exitLeaves_fst i _ _

private theorem run_eq (i : Nat) : ∀ (es : List Event) (d : Drops), (run d es).1 i = es.foldl (after i) (d i)
  | [], _ => rfl
  | e :: es, d => by simp only [run, List.foldl_cons]; rw [run_eq i es, step_eq]

private theorem run_append : ∀ (es fs : List Event) (d : Drops), (run d (es ++ fs)).2 = (run d es).2 ++ (run (run d es).1 fs).2
  | [], _, _ => rfl
  | e :: es, fs, d => by simp only [List.cons_append, run, run_append es fs]

private theorem run_length : ∀ (es : List Event) (d : Drops), (run d es).2.length = es.length
  | [], _ => rfl
  | e :: es, d => by simp only [run, List.length_cons, run_length es]

/-- C149: at every point of every history a packet is given to the underlying channel, unchanged and with its status, exactly if
the channel is not in the error state; otherwise it is dropped and the caller is told that it was sent. -/
theorem send_exact (es fs : List Event) (ch : Nat) (p : Bytes) (w : Int) :
    (run initial (es ++ .send ch p w :: fs)).2[es.length]? =
      some (if inError ch es then .sent none 0 else .sent (some (ch, p)) w) := by
  rw [run_append, List.getElem?_append_right (by rw [run_length]; exact Nat.le_refl _), run_length, Nat.sub_self]
  simp only [run, List.getElem?_cons_zero, step, send]
  have := run_eq ch es initial
  simp only [initial] at this
  unfold inError
  rw [this]
  cases es.foldl (after ch) false <;> rfl

private theorem foldl_stays (i : Nat) : ∀ (es : List Event), (∀ e, Event.exit e ∈ es → i ∉ e.left) → es.foldl (after i) true = true
  | [], _ => rfl
  | e :: es, h => by
    have : after i true e = true := by
      cases e with
      | exit e => simpa [after] using h e (List.mem_cons_self ..)
      | _ => simp [after]
    rw [List.foldl_cons, this]
    exact foldl_stays i es fun e he => h e (List.mem_cons_of_mem _ he)

/-- C149: after a self-test failed, no packet leaves a channel of the handler until that channel is told to leave the error state,
whatever happened before and whatever happens in between. -/
theorem silent_after_failure (pre mid fs : List Event) (e : Entry) (rs : List Int) (ch : Nat) (p : Bytes) (w : Int)
    (hr : ∃ r ∈ rs, r ≠ 0) (hc : ch ∈ e.channels) (hx : ∀ x, Event.exit x ∈ mid → ch ∉ x.left) :
    (run initial ((pre ++ .tests e rs :: mid) ++ .send ch p w :: fs)).2[(pre ++ .tests e rs :: mid).length]? = some (.sent none 0) := by
  rw [send_exact, if_pos]
  unfold inError
  rw [List.foldl_append, List.foldl_cons]
  have : after ch (pre.foldl (after ch) false) (.tests e rs) = true := by
    have h1 : rs.any (· != 0) = true := by simpa using hr
    have h2 : e.channels.contains ch = true := by simpa using hc
    simp only [after, h1, h2, Bool.and_self, Bool.or_true]
  rw [this]
  exact foldl_stays ch mid hx

/-- C149: a channel that no failed self-test and no entry concerns sends everything, unchanged. -/
theorem transparent (es fs : List Event) (ch : Nat) (p : Bytes) (w : Int) (h1 : ∀ e rs, Event.tests e rs ∈ es → ch ∈ e.channels → ∀ r ∈ rs, r = 0)
    (h2 : ∀ e, Event.enter e ∈ es → ch ∉ e.channels) :
    (run initial (es ++ .send ch p w :: fs)).2[es.length]? = some (.sent (some (ch, p)) w) := by
  rw [send_exact, if_neg]
  unfold inError
  have : ∀ es : List Event, (∀ e rs, Event.tests e rs ∈ es → ch ∈ e.channels → ∀ r ∈ rs, r = 0) → (∀ e, Event.enter e ∈ es → ch ∉ e.channels) →
      es.foldl (after ch) false = false := by
    intro es
    induction es with
    | nil => intros; rfl
    | cons e es ih =>
      intro g1 g2
      have : after ch false e = false := by
        cases e with
        | send => rfl
        | exit e => rfl
        | enter e => simpa [after] using g2 e (List.mem_cons_self ..)
        | tests e rs =>
          simp only [after, Bool.false_or]
          by_cases hc : ch ∈ e.channels
          · have := g1 e rs (List.mem_cons_self ..) hc
            have : rs.any (· != 0) = false := by simpa using this
            simp [this]
          · simp [hc]
      rw [List.foldl_cons, this]
      exact ih (fun e rs h => g1 e rs (List.mem_cons_of_mem _ h)) (fun e h => g2 e (List.mem_cons_of_mem _ h))
  simp [this es h1 h2]

/-- C149: the tests are run in order, up to the first that fails. -/
theorem tests_run (d : Drops) (e : Entry) (rs : List Int) :
    (step d (.tests e rs)).2 = .tested (if rs.all (· == 0) then rs.length else (rs.takeWhile (· == 0)).length + 1) := by
  simp only [step]
  congr 1
  induction rs with
  | nil => rfl
  | cons r rs ih =>
    rw [runTests]
    by_cases h : r = 0
    · simp only [h, ne_eq, not_true, if_false, ih, List.all_cons, beq_self_eq_true, Bool.true_and, List.length_cons, List.takeWhile_cons, if_true]
      split <;> rfl
    · simp [h]

private theorem takeWhile_all {α : Type} (q : α → Bool) : ∀ l : List α, (∀ x ∈ l, q x = true) → l.takeWhile q = l
  | [], _ => rfl
  | a :: l, h => by
    rw [List.takeWhile_cons, if_pos (h a (List.mem_cons_self ..)), takeWhile_all q l fun x hx => h x (List.mem_cons_of_mem _ hx)]

/-- C149: leaving the error state is reported as done exactly if no handler refuses; then all channels of the handlers send again. -/
theorem exit_exact (d : Drops) (e : Exit) :
    ((step d (.exit e)).2 = .exited 0 ↔ ∀ s, Sum.inr s ∈ e.leaves → s = 0) ∧
    ((step d (.exit e)).2 = .exited 0 → ∀ i, Sum.inl i ∈ e.leaves → (step d (.exit e)).1 i = false) := by
  have hs : (step d (.exit e)).2 = .exited 0 ↔ e.leaves.all (fun l => !refuses l) = true := by
    simp only [step, Out.exited.injEq, exit_eq]; exact exitLeaves_snd _ _
  refine ⟨hs.trans ?_, fun h i hi => ?_⟩
  · rw [List.all_eq_true]
    constructor
    · intro g s hm
      have := g _ hm
      simpa [refuses] using this
    · intro g l hm
      cases l with
      | inl i => rfl
      | inr s => simp [refuses, g s hm]
  · have ha := hs.mp h
    rw [step_eq]
    have ht : (e.leaves.takeWhile fun l => !refuses l) = e.leaves := by
      exact takeWhile_all _ _ (List.all_eq_true.mp ha)
    have : i ∈ e.left := by
      unfold Exit.left
      rw [ht, List.mem_filterMap]
      exact ⟨_, hi, rfl⟩
    simp [after, this]

/-- Two channels in nested groups; the second test fails. -/
example : (run initial [.send 1 [5] 0, .tests (.group [.other, .group [.channel 0, .channel 1]]) [0, 7, 0], .send 1 [6] 0, .send 2 [6] 4,
    .exit (.group [.channel 0, .channel 1]), .send 1 [7] 0]).2 =
    [.sent (some (1, [5])) 0, .tested 2, .sent none 0, .sent (some (2, [6])) 4, .exited 0, .sent (some (1, [7])) 0] := by decide

example : ∃ (e : Entry) (rs : List Int) (ch : Nat), (∃ r ∈ rs, r ≠ 0) ∧ ch ∈ e.channels :=
  ⟨.group [.other, .group [.channel 0, .channel 1]], [0, 7, 0], 1, ⟨7, by decide, by decide⟩, by decide⟩

/-- Leaving the error state is not all or nothing: if a handler refuses, the channels before it send again although the request
failed, error_state_exit_group.c:19-24. -/
theorem counterexample_exit : (run initial [.tests (.group [.channel 0, .channel 1]) [1], .exit (.group [.channel 0, .other 5, .channel 1]),
    .send 0 [1] 0, .send 1 [1] 0]).2 = [.tested 1, .exited 5, .sent (some (0, [1])) 0, .sent none 0] := by decide

/-! ### Two tasks -/

/-- A packet can leave after the error state was entered: there is no lock between the test of the flag and the call of the channel,
cmd_channel_error_state.c:33-34. -/
theorem counterexample_race : (runTasks 0 (initial, .check, []) [.sender, .entering (.channel 0), .sender]).2.2 = [false, true] := by decide

private theorem tasks_inv (ch : Nat) : ∀ (ss : List Sched) (d : Drops) (pc : Pc) (t : List Bool), d ch = true →
    ∃ u, (runTasks ch (d, pc, t) ss).2.2 = t ++ u ∧ (u.filter id).length ≤ (if pc = .transmit then 1 else 0)
  | [], d, pc, t, h => ⟨[], by simp [runTasks], by simp⟩
  | s :: ss, d, pc, t, h => by
    cases s with
    | sender =>
      cases pc with
      | check =>
        obtain ⟨u, h1, h2⟩ := tasks_inv ch ss d .done t h
        refine ⟨u, ?_, by simpa using h2⟩
        rw [← h1]; simp [runTasks, stepTask, h]
      | transmit =>
        obtain ⟨u, h1, h2⟩ := tasks_inv ch ss d .done (t ++ [true]) h
        refine ⟨true :: u, ?_, ?_⟩
        · rw [show t ++ true :: u = t ++ [true] ++ u by simp, ← h1]; simp [runTasks, stepTask]
        · have : (u.filter id).length = 0 := by simpa using h2
          simp only [List.filter_cons, id, if_true, List.length_cons, this]; exact Nat.le_refl _
      | done =>
        obtain ⟨u, h1, h2⟩ := tasks_inv ch ss d .check t h
        refine ⟨u, ?_, by simpa using h2⟩
        rw [← h1]; simp [runTasks, stepTask]
    | entering e =>
      obtain ⟨u, h1, h2⟩ := tasks_inv ch ss (enter d e) pc (t ++ [false]) (by rw [enter_eq, h]; rfl)
      refine ⟨false :: u, ?_, by simpa using h2⟩
      rw [show t ++ false :: u = t ++ [false] ++ u by simp, ← h1]
      cases pc <;> simp [runTasks, stepTask]

/-- C149, partial: for every schedule, at most one packet of a channel leaves after the error state was entered. Missing: none,
`counterexample_race`. -/
theorem race_one_partial (ch : Nat) (e : Entry) (d : Drops) (pc : Pc) (t : List Bool) (ss : List Sched) (hc : ch ∈ e.channels) :
    ∃ u, (runTasks ch (d, pc, t) (.entering e :: ss)).2.2 = t ++ [false] ++ u ∧ (u.filter id).length ≤ 1 := by
  obtain ⟨u, h1, h2⟩ := tasks_inv ch ss (enter d e) pc (t ++ [false]) (by rw [enter_eq]; simp [hc])
  refine ⟨u, ?_, Nat.le_trans h2 (by split <;> omega)⟩
  rw [← h1]
  cases pc <;> simp [runTasks, stepTask]

end Verif.ErrorState
