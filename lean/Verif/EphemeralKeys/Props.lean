import Verif.EphemeralKeys.Model
/-!
C155: ephemeral keys are given out once and in order, and the cache is refilled until it is full.
-/
namespace Verif.EphemeralKeys
open Spec (Did)

theorem step_keys (s : St) (e : Event) (t : List Did) :
    Spec.given [(step s e).1] ++ (step s e).2.cache.keys = s.cache.keys ++ Spec.stored [(step s e).1] ∧
    (step s e).2.cache.capacity = s.cache.capacity ∧
    Spec.given ((step s e).1 :: t) = Spec.given [(step s e).1] ++ Spec.given t ∧
    Spec.stored ((step s e).1 :: t) = Spec.stored [(step s e).1] ++ Spec.stored t ∧
    (s.cache.keys.length ≤ s.cache.capacity → (step s e).2.cache.keys.length ≤ s.cache.capacity) := by
  cases e with
  | execute a =>
    simp only [step, execute, schedule, Cache.full]
    repeat' split
    all_goals simp_all [Spec.given, Spec.stored]
    omega
  | getKey r =>
    simp only [step, getKey]
    repeat' split
    all_goals simp_all [Spec.given, Spec.stored]
    try omega

/-- **C155** After every history, the keys given out followed by the keys still in the cache are the keys the cache had at the start
followed by the keys that were stored: none is given out twice, none is lost, none is invented. The cache never holds more keys than its
capacity. Missing: the cache is a queue by assumption, not the one in flash. -/
theorem keys_once_in_order_partial (s : St) (es : List Event) :
    Spec.given (run s es).1 ++ (run s es).2.cache.keys = s.cache.keys ++ Spec.stored (run s es).1 ∧
    (s.cache.keys.length ≤ s.cache.capacity → (run s es).2.cache.keys.length ≤ s.cache.capacity) := by
  induction es generalizing s with
  | nil => simp [run, Spec.given, Spec.stored]
  | cons e es ih =>
    have h := step_keys s e (run (step s e).2 es).1
    have i := ih (step s e).2
    obtain ⟨h1, h2, h3, h4, h5⟩ := h
    simp only [run]
    rw [h3, h4]
    refine ⟨?_, fun hl => h2 ▸ i.2 (h2 ▸ h5 hl)⟩
    rw [List.append_assoc, i.1, ← List.append_assoc, h1, List.append_assoc]

/-- **C155** A key is generated exactly if the cache works, is ready and has room; the stored key is the generated one. -/
theorem stored_exact (s : St) (a : Answers) (k : Bytes) :
    (execute s a).1 = .stored k ↔
      s.cache.error = false ∧ s.cache.ready = true ∧ s.cache.keys.length < s.cache.capacity ∧ a.gen = .inr k ∧ a.add = 0 := by
  simp only [execute, Cache.full]
  repeat' split
  all_goals simp_all
  all_goals first | omega | grind

/-- **C155** The next execution waits exactly after an execution that found the cache broken, full or impossible to prepare, and only if
the timeout could be made. -/
theorem wait_exact (s : St) (a : Answers) :
    getNext (execute s a).2 =
      if s.cache.error = true ∨ (s.cache.ready = false ∧ a.init ≠ 0) ∨
        (s.cache.ready = true ∧ s.cache.capacity ≤ s.cache.keys.length) then a.timer else none := by
  simp only [getNext, execute, schedule, Cache.full]
  repeat' split
  all_goals simp_all
  all_goals first | omega | grind

/-- Executions in which nothing fails. -/
def Good (a : Answers) : Prop := a.init = 0 ∧ a.add = 0 ∧ ∃ k, a.gen = .inr k

theorem good_step (s : St) (a : Answers) (h : Good a) (he : s.cache.error = false) :
    (execute s a).2.cache.error = false ∧ (execute s a).2.cache.ready = true ∧
    (execute s a).2.cache.capacity = s.cache.capacity ∧
    (execute s a).2.cache.keys.length =
      if s.cache.ready = true ∧ s.cache.keys.length < s.cache.capacity then s.cache.keys.length + 1 else s.cache.keys.length := by
  obtain ⟨h1, h2, k, h3⟩ := h
  simp only [execute, schedule, Cache.full, h1, h2, h3, he]
  cases hr : s.cache.ready <;> by_cases hf : s.cache.capacity ≤ s.cache.keys.length <;> simp_all
  all_goals omega

/-- **C155** The cache is refilled: from every state with a cache that works, after executions in which nothing fails, one to prepare the
cache if needed and one for each missing key, the cache is full. -/
theorem refilled (as : List Answers) (s : St) (h : ∀ a ∈ as, Good a) (he : s.cache.error = false)
    (hl : s.cache.keys.length ≤ s.cache.capacity)
    (hn : (if s.cache.ready then 0 else 1) + (s.cache.capacity - s.cache.keys.length) ≤ as.length) :
    (run s (as.map .execute)).2.cache.ready = true ∧
    (run s (as.map .execute)).2.cache.keys.length = s.cache.capacity := by
  induction as generalizing s with
  | nil =>
    cases hr : s.cache.ready
    · simp [hr] at hn
    · simp [hr] at hn
      exact ⟨hr, show s.cache.keys.length = _ by omega⟩
  | cons a as ih =>
    obtain ⟨g1, g2, g3, g4⟩ := good_step s a (h a (by simp)) he
    have i := ih (execute s a).2 (fun b hb => h b (by simp [hb])) g1
      (by rw [g3, g4]; split <;> omega)
      (by
        rw [g2, g3, g4]
        simp only [List.length_cons] at hn
        cases hr : s.cache.ready <;> simp [hr] at hn ⊢
        · omega
        · split <;> omega)
    rw [g3] at i
    exact i

/-- **C155** Limit: a generated key stays in the buffer of the manager after it was stored, and after it was given out. -/
theorem key_remains (s : St) (a : Answers) (k : Bytes) (r : Bool) (h : (execute s a).1 = .stored k) :
    (getKey (execute s a).2 r).2.buf = k := by
  obtain ⟨h1, h2, h3, h4, h5⟩ := (stored_exact s a k).mp h
  have e : (execute s a).2.buf = k := by
    simp only [execute, h1, h2, h4, h5, Cache.full]
    simp [h3]
  unfold getKey
  repeat' split
  all_goals exact e

/-- A cache for two keys: prepared, one failed generation, two keys, one given out, one refused. -/
example : (run (init ⟨false, false, 2, []⟩ []) [.execute ⟨some 9, 0, .inl 3, 0⟩, .execute ⟨some 9, 0, .inl 3, 0⟩,
    .execute ⟨some 9, 0, .inr [1], 0⟩, .execute ⟨some 9, 0, .inr [2], 0⟩, .execute ⟨some 9, 0, .inr [3], 0⟩, .getKey false, .getKey true]) =
    ([.prepared, .generateFailed 3, .stored [1], .stored [2], .waited, .gave [1], .gaveNone],
      ⟨⟨false, true, 2, [[2]]⟩, some 9, [2]⟩) := by decide

example : Good ⟨none, 0, .inr [1], 0⟩ := ⟨rfl, rfl, _, rfl⟩

end Verif.EphemeralKeys
