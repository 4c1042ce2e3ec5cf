import Verif.PeriodicTask.Model
/-!
C158: a periodic task runs the handler that is due first.
-/
namespace Verif.PeriodicTask
open Spec (Entry IsNext)

/-- What the loop knows of the entries `pre`. -/
def Knows (pre : List Entry) (w : Nat) (n : Option Nat) : Prop := match n with
  | none => w = 0xffffffff ∧ ∀ j v : Nat, (pre[j]?).bind Spec.wait = some v → 0xffffffff ≤ v
  | some i => w < 0xffffffff ∧ IsNext pre i w

theorem bind_snoc (pre : List Entry) (e : Entry) (j : Nat) :
    ((pre ++ [e])[j]?).bind Spec.wait = if j < pre.length then (pre[j]?).bind Spec.wait else if j = pre.length then Spec.wait e else none := by
  by_cases h : j < pre.length
  · rw [if_pos h, List.getElem?_append_left h]
  · by_cases h2 : j = pre.length
    · subst h2; simp
    · have : (pre ++ [e]).length ≤ j := by simp; omega
      simp only [h, h2, if_false]
      rw [List.getElem?_eq_none this]; rfl

theorem lt_of_wait {l : List Entry} {j v : Nat} (h : (l[j]?).bind Spec.wait = some v) : j < l.length := by
  by_cases hl : j < l.length
  · exact hl
  · rw [List.getElem?_eq_none (by omega)] at h; cases h

theorem knows_keep {pre : List Entry} {w : Nat} {n : Option Nat} (h : Knows pre w n) (e : Entry)
    (he : ∀ v, Spec.wait e = some v → w ≤ v) : Knows (pre ++ [e]) w n := by
  cases n with
  | none =>
    refine ⟨h.1, fun j v hj => ?_⟩
    rw [bind_snoc] at hj
    split at hj
    · exact h.2 j v hj
    · split at hj
      · rw [← h.1]; exact he v hj
      · cases hj
  | some i =>
    obtain ⟨h0, h1, h2, h3⟩ := h
    have hi := lt_of_wait h1
    refine ⟨h0, ?_, fun j v hj => ?_, fun j v hji hj => ?_⟩
    · rw [bind_snoc, if_pos hi]; exact h1
    · rw [bind_snoc] at hj
      split at hj
      · exact h2 j v hj
      · split at hj
        · exact he v hj
        · cases hj
    · rw [bind_snoc, if_pos (by omega)] at hj
      exact h3 j v hji hj

theorem knows_new {pre : List Entry} {w : Nat} {n : Option Nat} (h : Knows pre w n) (e : Entry) (v : Nat)
    (he : Spec.wait e = some v) (hv : v < w) : Knows (pre ++ [e]) v (some pre.length) := by
  have hw : w ≤ 0xffffffff ∧ ∀ j u : Nat, (pre[j]?).bind Spec.wait = some u → w ≤ u := by
    cases n with
    | none => exact ⟨by rw [h.1]; exact Nat.le_refl _, fun j u hj => by rw [h.1]; exact h.2 j u hj⟩
    | some i => exact ⟨Nat.le_of_lt h.1, h.2.least⟩
  refine ⟨by omega, ?_, fun j u hj => ?_, fun j u hji hj => ?_⟩
  · rw [bind_snoc, if_neg (by omega), if_pos rfl]; exact he
  · rw [bind_snoc] at hj
    split at hj
    · have := hw.2 j u hj; omega
    · split at hj
      · rw [he] at hj; cases hj; exact Nat.le_refl _
      · cases hj
  · rw [bind_snoc, if_pos hji] at hj
    have := hw.2 j u hj; omega

theorem loop_knows (l : List Entry) : ∀ (pre : List Entry) (w : Nat) (n : Option Nat), Knows pre w n →
    match loop l pre.length w n with
    | .error c => Spec.firstError l = some c
    | .ok (w', n') => Spec.firstError l = none ∧ Knows (pre ++ l) w' n' := by
  induction l with
  | nil => intro pre w n h; simpa [loop, Spec.firstError] using h
  | cons e t ih =>
    intro pre w n h
    have step : ∀ w' n', Knows (pre ++ [e]) w' n' → (match loop t (pre.length + 1) w' n' with
        | .error c => Spec.firstError t = some c
        | .ok (w', n') => Spec.firstError t = none ∧ Knows (pre ++ e :: t) w' n') := by
      intro w' n' k
      have := ih (pre ++ [e]) w' n' k
      simpa using this
    cases e with
    | absent => exact step w n (knows_keep h _ (by intro v hv; cases hv))
    | clockError c => simp [loop, Spec.firstError]
    | due ms =>
      simp only [loop, Spec.firstError]
      by_cases hm : ms < w
      · rw [if_pos hm]; exact step _ _ (knows_new h _ ms rfl hm)
      · rw [if_neg hm]; exact step _ _ (knows_keep h _ (by intro v hv; cases hv; omega))
    | ready =>
      simp only [loop, Spec.firstError]
      by_cases hm : w ≠ 0
      · rw [if_pos hm]; exact step _ _ (knows_new h _ 0 rfl (by omega))
      · rw [if_neg hm]; exact step _ _ (knows_keep h _ (by intro v hv; cases hv; omega))

/-- The next entry is unique. -/
theorem next_unique {l : List Entry} {i j v w : Nat} (a : IsNext l i w) (b : IsNext l j v) : i = j ∧ w = v := by
  have e : w = v := Nat.le_antisymm (a.least j v b.waits) (b.least i w a.waits)
  refine ⟨?_, e⟩
  rcases Nat.lt_trichotomy i j with h | h | h
  · have := b.first i w h a.waits; omega
  · exact h
  · have := a.first j v h b.waits; omega

/-- **C158** A handler runs exactly if all times can be determined and it is the one to run next, and the task sleeps exactly until it is
due. Missing: an entry that is due in 2^32 - 1 milliseconds (`counterexample_longest`). -/
theorem runs_next_partial (l : List Entry) (i w : Nat) (hw : w < 0xffffffff) :
    executeNext l = .ran i w ↔ Spec.firstError l = none ∧ IsNext l i w := by
  have k := loop_knows l [] 0xffffffff none ⟨rfl, by intro j v h; simp at h⟩
  simp only [List.length_nil, List.nil_append] at k
  unfold executeNext
  by_cases h0 : l.length = 0
  · have : l = [] := List.length_eq_zero_iff.mp h0
    subst this
    constructor
    · intro h; cases h
    · rintro ⟨_, h⟩; have := lt_of_wait h.waits; simp at this
  · rw [if_neg h0]
    cases hr : loop l 0 0xffffffff none with
    | error c =>
      rw [hr] at k
      simp only at k
      simp [k]
    | ok p =>
      obtain ⟨w', n'⟩ := p
      rw [hr] at k
      obtain ⟨k1, k2⟩ := k
      cases n' with
      | none =>
        constructor
        · intro h; cases h
        · rintro ⟨_, h⟩; have := k2.2 i w h.waits; omega
      | some i' =>
        constructor
        · intro h; cases h; exact ⟨k1, k2.2⟩
        · rintro ⟨_, h⟩
          obtain ⟨e1, e2⟩ := next_unique k2.2 h
          subst e1 e2; rfl

/-- **C158** One handler whose time cannot be determined stops them all, with the error of the first one. -/
theorem clock_error_exact (l : List Entry) (c : Int) : executeNext l = .clock c ↔ Spec.firstError l = some c := by
  have k := loop_knows l [] 0xffffffff none ⟨rfl, by intro j v h; simp at h⟩
  simp only [List.length_nil, List.nil_append] at k
  unfold executeNext
  by_cases h0 : l.length = 0
  · have : l = [] := List.length_eq_zero_iff.mp h0
    subst this
    simp [Spec.firstError]
  · rw [if_neg h0]
    cases hr : loop l 0 0xffffffff none with
    | error d => rw [hr] at k; simp only at k; simp [k]
    | ok p =>
      obtain ⟨w', n'⟩ := p
      rw [hr] at k
      cases n' <;> simp [k.1]

/-- **C158** Every handler with a preparation is prepared once, in the order of the list, and no other. -/
theorem prepared_exact (l : List (Option Bool)) (k i : Nat) :
    (i ∈ prepared l k ↔ ∃ j : Nat, i = k + j ∧ l[j]? = some (some true)) ∧ (prepared l k).Pairwise (· < ·) := by
  induction l generalizing k i with
  | nil => simp [prepared]
  | cons a t ih =>
    have shift : (∃ j : Nat, i = k + j ∧ (a :: t)[j]? = some (some true)) ↔
        (i = k ∧ a = some true) ∨ ∃ j : Nat, i = k + 1 + j ∧ t[j]? = some (some true) := by
      constructor
      · rintro ⟨j, h1, h2⟩
        cases j with
        | zero => left; exact ⟨h1, by simpa using h2⟩
        | succ j => right; exact ⟨j, by omega, by simpa using h2⟩
      · rintro (⟨h1, h2⟩ | ⟨j, h1, h2⟩)
        · exact ⟨0, by omega, by simp [h2]⟩
        · exact ⟨j + 1, by omega, by simpa using h2⟩
    rw [shift]
    have i1 := ih (k + 1) i
    have low : ∀ x ∈ prepared t (k + 1), k < x := by
      intro x hx
      obtain ⟨j, hj, _⟩ := (ih (k + 1) x).1.mp hx
      omega
    match a with
    | some true => exact ⟨by simp [prepared, i1.1], List.pairwise_cons.mpr ⟨low, i1.2⟩⟩
    | some false => exact ⟨by simp [prepared, i1.1], i1.2⟩
    | none => exact ⟨by simp [prepared, i1.1], i1.2⟩

/-- **C158** Counterexample: a handler that is due in 2^32 - 1 milliseconds is not seen. -/
theorem counterexample_longest : executeNext [.due 0xffffffff] = .noHandlers ∧ IsNext [.due 0xffffffff] 0 0xffffffff := by
  refine ⟨by decide, rfl, fun j v h => ?_, fun j v hj => absurd hj (by omega)⟩
  cases j with
  | zero => simp [Spec.wait] at h; omega
  | succ j => simp at h

/-- **C158** Counterexample to fairness: as long as the first handler is ready, no other one runs, however long it has been due. -/
theorem counterexample_starvation (l : List Entry) (i w : Nat) (h : executeNext (.ready :: l) = .ran i w) : i = 0 ∧ w = 0 := by
  have n0 : IsNext (.ready :: l) 0 0 := ⟨rfl, fun _ _ _ => Nat.zero_le _, fun j v hj => absurd hj (by omega)⟩
  by_cases hw : w < 0xffffffff
  · exact next_unique ((runs_next_partial _ i w hw).mp h).2 n0
  · exfalso
    have k := loop_knows (.ready :: l) [] 0xffffffff none ⟨rfl, by intro j v h; simp at h⟩
    simp only [List.length_nil, List.nil_append] at k
    unfold executeNext at h
    rw [if_neg (by simp)] at h
    cases hr : loop (.ready :: l) 0 0xffffffff none with
    | error d => rw [hr] at h; cases h
    | ok p =>
      obtain ⟨w', n'⟩ := p
      rw [hr] at k h
      cases n' with
      | none => cases h
      | some i' => cases h; exact hw k.2.1

/-- The second of four entries is due first. -/
example : executeNext [.due 30, .due 5, .absent, .due 5] = .ran 1 5 := by decide
example : executeNext [.due 30, .ready, .due 0] = .ran 1 0 := by decide
example : executeNext [.ready, .clockError 7, .due 0] = .clock 7 := by decide
example : prepared [some true, none, some false, some true] 0 = [0, 3] := by decide

end Verif.PeriodicTask
