import Verif.EventTask.Model
/-! Every accepted event is executed exactly once, in order, with its data. -/
namespace Verif.EventTask

/-- The handler of a call is in the list of the task. -/
def Registered (num : Nat) (c : Call) : Prop := ∃ k, c.handler = some k ∧ k < num

/-- What holds in every reachable state. -/
structure Inv (num : Nat) (s : State) : Prop where
  holder : ∀ i, s.lock = some i ↔ ∃ c, s.phase i = .got c ∨ s.phase i = .filled c
  notifying : s.notifying = s.lock.isSome
  ctx : ∀ i c, s.phase i = .filled c → s.context = c.event
  reg : ∀ i c, s.phase i = .got c ∨ s.phase i = .filled c ∨ s.phase i = .unlocked c → Registered num c
  locked : s.lock ≠ none → s.running = none ∧ s.task = .waiting
  given : ∀ i c, s.phase i = .unlocked c → s.task = .waiting ∧ s.running ≠ none ∧ s.notified = false
  one : ∀ i j c d, s.phase i = .unlocked c → s.phase j = .unlocked d → i = j
  task : match s.task with
    | .boot => s.running = some 0 ∧ s.accepted = [] ∧ s.executed = []
    | .starting => s.running = some 0 ∧ s.accepted = [] ∧ s.executed = [] ∧ s.notified = false
    | .waiting => (s.running = none ∧ s.accepted = s.executed ∧ s.notified = false) ∨
        ∃ k, s.running = some k ∧ k < num ∧ s.accepted = s.executed ++ [(k, s.context)] ∧ (s.notified = true ∨ ∃ i c, s.phase i = .unlocked c)
    | .woken => ∃ k, s.running = some k ∧ k < num ∧ s.accepted = s.executed ++ [(k, s.context)] ∧ s.notified = false
    | .running => ∃ k, s.running = some k ∧ s.accepted = s.executed ∧ s.executed.getLast? = some (k, s.context) ∧ s.notified = false
    | .done => s.running ≠ none ∧ s.accepted = s.executed ∧ s.notified = false

theorem inv_init (num : Nat) : Inv num init where
  holder i := ⟨(fun h => by cases h), (fun ⟨c, h⟩ => by rcases h with h | h <;> cases h)⟩
  notifying := rfl
  ctx i c h := by cases h
  reg i c h := by rcases h with h | h | h <;> cases h
  locked h := absurd rfl h
  given i c h := by cases h
  one i j c d h := by cases h
  task := ⟨rfl, rfl, rfl⟩

/-- Only the lock holder is between `got` and `filled`. -/
theorem Inv.other {num : Nat} {s : State} (h : Inv num s) {i j : Nat} (hl : s.lock = some i) (hj : j ≠ i) (c : Call) : s.phase j ≠ .got c ∧ s.phase j ≠ .filled c := by
  have : ¬ ∃ c, s.phase j = .got c ∨ s.phase j = .filled c := fun hx => hj (by have := (h.holder j).mpr hx; rw [hl] at this; injection this with this; exact this.symm)
  exact ⟨fun hx => this ⟨c, .inl hx⟩, fun hx => this ⟨c, .inr hx⟩⟩

theorem inv_submit {num : Nat} {s s' : State} {i : Nat} {c : Call} {r : Option Result} (h : Inv num s) (hc : Registered num c) (hs : step num s (.submit i c) = some (s', r)) : Inv num s' := by
  simp only [step] at hs
  by_cases h1 : s.phase i ≠ .idle
  · rw [if_pos h1] at hs; cases hs
  · rw [if_neg h1] at hs
    have hi : s.phase i = .idle := by simpa using h1
    by_cases h2 : c.event.data.length > maxData
    · rw [if_pos h2] at hs; injection hs with hs; injection hs with hs; exact hs ▸ h
    · rw [if_neg h2] at hs
      by_cases h3 : s.lock ≠ none
      · rw [if_pos h3] at hs; cases hs
      · rw [if_neg h3] at hs
        have hl : s.lock = none := by simpa using h3
        by_cases h4 : s.notifying = false ∧ s.running = none
        · rw [if_pos h4] at hs
          injection hs with hs; injection hs with hs
          subst hs
          have ht : s.task = .waiting := by
            have := h.task
            cases ht : s.task with
            | boot => rw [ht] at this; rw [h4.2] at this; cases this.1
            | starting => rw [ht] at this; rw [h4.2] at this; cases this.1
            | waiting => rfl
            | woken => rw [ht] at this; obtain ⟨k, hk, -⟩ := this; rw [h4.2] at hk; cases hk
            | running => rw [ht] at this; obtain ⟨k, hk, -⟩ := this; rw [h4.2] at hk; cases hk
            | done => rw [ht] at this; exact absurd h4.2 this.1
          have nol : ∀ j d, s.phase j ≠ .unlocked d := fun j d hj => absurd h4.2 (h.given j d hj).2.1
          have nog : ∀ j d, s.phase j ≠ .got d ∧ s.phase j ≠ .filled d := fun j d =>
            ⟨(fun hx => by have := (h.holder j).mpr ⟨d, .inl hx⟩; rw [hl] at this; cases this), (fun hx => by have := (h.holder j).mpr ⟨d, .inr hx⟩; rw [hl] at this; cases this)⟩
          refine ⟨?_, rfl, ?_, ?_, fun _ => ⟨h4.2, ht⟩, ?_, ?_, ?_⟩
          · intro j
            by_cases hj : j = i
            · subst hj; simp only [setPhase, if_true, true_iff]; exact ⟨c, .inl rfl⟩
            · simp only [setPhase, if_neg hj]
              exact ⟨(fun hx => absurd (by injection hx with hx; exact hx.symm) hj), (fun ⟨d, hx⟩ => by rcases hx with hx | hx; exact absurd hx (nog j d).1; exact absurd hx (nog j d).2)⟩
          · intro j d hj
            by_cases he : j = i
            · subst he; simp only [setPhase, if_true] at hj; cases hj
            · simp only [setPhase, if_neg he] at hj; exact absurd hj (nog j d).2
          · intro j d hj
            by_cases he : j = i
            · subst he
              simp only [setPhase, if_true] at hj
              rcases hj with hj | hj | hj <;> cases hj
              exact hc
            · simp only [setPhase, if_neg he] at hj; exact h.reg j d hj
          · intro j d hj
            by_cases he : j = i
            · subst he; simp only [setPhase, if_true] at hj; cases hj
            · simp only [setPhase, if_neg he] at hj; exact absurd hj (nol j d)
          · intro j k d e hj
            by_cases he : j = i
            · subst he; simp only [setPhase, if_true] at hj; cases hj
            · simp only [setPhase, if_neg he] at hj; exact absurd hj (nol j d)
          · have := h.task
            simp only [setPhase, ht] at this ⊢
            rcases this with a | ⟨k, a, -⟩
            · exact .inl a
            · rw [h4.2] at a; cases a
        · rw [if_neg h4] at hs; injection hs with hs; injection hs with hs; exact hs ▸ h

theorem inv_fill {num : Nat} {s s' : State} {i : Nat} {r : Option Result} (h : Inv num s) (hs : step num s (.fill i) = some (s', r)) : Inv num s' := by
  simp only [step] at hs
  cases hp : s.phase i with
  | idle => rw [hp] at hs; cases hs
  | filled c => rw [hp] at hs; cases hs
  | unlocked c => rw [hp] at hs; cases hs
  | got c =>
    rw [hp] at hs
    injection hs with hs; injection hs with hs
    subst hs
    have hl := (h.holder i).mpr ⟨c, .inl hp⟩
    obtain ⟨hr, ht⟩ := h.locked (by rw [hl]; simp)
    refine ⟨?_, h.notifying, ?_, ?_, h.locked, ?_, ?_, ?_⟩
    · intro j
      by_cases hj : j = i
      · subst hj; simp only [setPhase, if_true]; exact ⟨(fun _ => ⟨c, .inr rfl⟩), (fun _ => hl)⟩
      · simp only [setPhase, if_neg hj]; exact h.holder j
    · intro j d hj
      by_cases he : j = i
      · subst he; simp only [setPhase, if_true] at hj ⊢; injection hj with hj; rw [hj]
      · simp only [setPhase, if_neg he] at hj; exact absurd hj (h.other hl he d).2
    · intro j d hj
      by_cases he : j = i
      · subst he
        simp only [setPhase, if_true] at hj
        rcases hj with hj | hj | hj <;> cases hj
        exact h.reg j c (.inl hp)
      · simp only [setPhase, if_neg he] at hj; exact h.reg j d hj
    · intro j d hj
      by_cases he : j = i
      · subst he; simp only [setPhase, if_true] at hj; cases hj
      · simp only [setPhase, if_neg he] at hj; exact h.given j d hj
    · intro j k d e hj
      by_cases he : j = i
      · subst he; simp only [setPhase, if_true] at hj; cases hj
      · simp only [setPhase, if_neg he] at hj; exact absurd hr (h.given j d hj).2.1
    · have := h.task
      simp only [setPhase, ht] at this ⊢
      rcases this with a | ⟨k, a, -⟩
      · exact .inl a
      · rw [hr] at a; cases a

/-- A notification records exactly the event of the call for its handler. -/
theorem notify_step {num : Nat} {s : State} {i : Nat} {c : Call} (h : Inv num s) (hp : s.phase i = .filled c) : ∃ k, c.handler = some k ∧ k < num ∧
    step num s (.notify i) = some (setPhase { s with running := some k, accepted := s.accepted ++ [(k, c.event)], notifying := false, lock := none } i (.unlocked c), none) := by
  obtain ⟨k, h1, h2⟩ := h.reg i c (.inr (.inl hp))
  exact ⟨k, h1, h2, by simp only [step, hp, h1, if_pos h2, h.ctx i c hp]⟩

theorem inv_notify {num : Nat} {s s' : State} {i : Nat} {r : Option Result} (h : Inv num s) (hs : step num s (.notify i) = some (s', r)) : Inv num s' := by
  cases hp : s.phase i with
  | idle => simp only [step, hp] at hs; cases hs
  | got c => simp only [step, hp] at hs; cases hs
  | unlocked c => simp only [step, hp] at hs; cases hs
  | filled c =>
    obtain ⟨k, h1, h2, h3⟩ := notify_step h hp
    rw [h3] at hs
    injection hs with hs; injection hs with hs
    subst hs
    have hl := (h.holder i).mpr ⟨c, .inr hp⟩
    obtain ⟨hr, ht⟩ := h.locked (by rw [hl]; simp)
    have nol : ∀ j d, s.phase j ≠ .unlocked d := fun j d hj => absurd hr (h.given j d hj).2.1
    have htask := h.task
    rw [ht] at htask
    have hw : s.accepted = s.executed ∧ s.notified = false := by
      rcases htask with a | ⟨k, a, -⟩
      · exact a.2
      · rw [hr] at a; cases a
    refine ⟨?_, rfl, ?_, ?_, fun hx => absurd rfl hx, ?_, ?_, ?_⟩
    · intro j
      by_cases hj : j = i
      · subst hj; simp only [setPhase, if_true]; exact ⟨(fun hx => by cases hx), (fun ⟨d, hx⟩ => by rcases hx with hx | hx <;> cases hx)⟩
      · simp only [setPhase, if_neg hj]
        exact ⟨(fun hx => by cases hx), (fun ⟨d, hx⟩ => by rcases hx with hx | hx; exact absurd hx (h.other hl hj d).1; exact absurd hx (h.other hl hj d).2)⟩
    · intro j d hj
      by_cases he : j = i
      · subst he; simp only [setPhase, if_true] at hj; cases hj
      · simp only [setPhase, if_neg he] at hj; exact absurd hj (h.other hl he d).2
    · intro j d hj
      by_cases he : j = i
      · subst he
        simp only [setPhase, if_true] at hj
        rcases hj with hj | hj | hj <;> cases hj
        exact h.reg j c (.inr (.inl hp))
      · simp only [setPhase, if_neg he] at hj; exact h.reg j d hj
    · intro j d hj
      by_cases he : j = i
      · exact ⟨ht, by simp [setPhase], hw.2⟩
      · simp only [setPhase, if_neg he] at hj; exact absurd hj (nol j d)
    · intro j k d e hj hk
      by_cases he : j = i
      · by_cases he' : k = i
        · omega
        · simp only [setPhase, if_neg he'] at hk; exact absurd hk (nol k e)
      · simp only [setPhase, if_neg he] at hj; exact absurd hj (nol j d)
    · simp only [setPhase, ht]
      exact .inr ⟨k, rfl, h2, by rw [hw.1, h.ctx i c hp], .inr ⟨i, c, by simp⟩⟩

theorem inv_give {num : Nat} {s s' : State} {i : Nat} {r : Option Result} (h : Inv num s) (hs : step num s (.give i) = some (s', r)) : Inv num s' := by
  simp only [step] at hs
  cases hp : s.phase i with
  | idle => rw [hp] at hs; cases hs
  | got c => rw [hp] at hs; cases hs
  | filled c => rw [hp] at hs; cases hs
  | unlocked c =>
    rw [hp] at hs
    injection hs with hs; injection hs with hs
    obtain ⟨ht, hr, hn⟩ := h.given i c hp
    have hr' : s.running.isSome = true := by cases hx : s.running with
      | none => exact absurd hx hr
      | some k => rfl
    rw [if_pos hr'] at hs
    subst hs
    have nol : ∀ j d, j ≠ i → s.phase j ≠ .unlocked d := fun j d hj hx => hj (h.one j i d c hx hp)
    refine ⟨?_, h.notifying, ?_, ?_, h.locked, ?_, ?_, ?_⟩
    · intro j
      by_cases hj : j = i
      · subst hj; simp only [setPhase, if_true]
        exact ⟨(fun hx => by obtain ⟨d, hx⟩ := (h.holder j).mp hx; rw [hp] at hx; rcases hx with hx | hx <;> cases hx), (fun ⟨d, hx⟩ => by rcases hx with hx | hx <;> cases hx)⟩
      · simp only [setPhase, if_neg hj]; exact h.holder j
    · intro j d hj
      by_cases he : j = i
      · subst he; simp only [setPhase, if_true] at hj; cases hj
      · simp only [setPhase, if_neg he] at hj; exact h.ctx j d hj
    · intro j d hj
      by_cases he : j = i
      · subst he
        simp only [setPhase, if_true] at hj
        rcases hj with hj | hj | hj <;> cases hj
      · simp only [setPhase, if_neg he] at hj; exact h.reg j d hj
    · intro j d hj
      by_cases he : j = i
      · subst he; simp only [setPhase, if_true] at hj; cases hj
      · simp only [setPhase, if_neg he] at hj; exact absurd hj (nol j d he)
    · intro j k d e hj
      by_cases he : j = i
      · subst he; simp only [setPhase, if_true] at hj; cases hj
      · simp only [setPhase, if_neg he] at hj; exact absurd hj (nol j d he)
    · have := h.task
      simp only [setPhase, ht] at this ⊢
      rcases this with ⟨a, -⟩ | ⟨k, a, b, d, -⟩
      · exact absurd a hr
      · exact .inr ⟨k, a, b, d, .inl trivial⟩

/-- The steps of the event task. -/
theorem inv_task {num : Nat} {s s' : State} {l : Step} {r : Option Result} (h : Inv num s) (hl : l = .take ∨ l = .ready ∨ l = .run ∨ l = .finish ∨ l = .clear)
    (hs : step num s l = some (s', r)) : Inv num s' := by
  have quiet : s.task ≠ .waiting → (∀ i c, s.phase i ≠ .unlocked c) ∧ s.lock = none := fun ht =>
    ⟨fun i c hx => ht (h.given i c hx).1, Classical.byContradiction fun hx => ht (h.locked hx).2⟩
  have htask := h.task
  rcases hl with rfl | rfl | rfl | rfl | rfl
  · -- take
    simp only [step] at hs
    by_cases hn : s.notified = true
    · rw [if_pos hn] at hs
      cases ht : s.task with
      | boot =>
        rw [ht] at hs htask
        injection hs with hs; injection hs with hs; subst hs
        obtain ⟨q1, q2⟩ := quiet (by rw [ht]; decide)
        exact ⟨h.holder, h.notifying, h.ctx, h.reg, fun hx => absurd q2 hx, fun i c hx => absurd hx (q1 i c), h.one, htask.1, htask.2.1, htask.2.2, rfl⟩
      | waiting =>
        rw [ht] at hs htask
        injection hs with hs; injection hs with hs; subst hs
        rcases htask with ⟨-, -, a⟩ | ⟨k, a, b, c, -⟩
        · rw [hn] at a; cases a
        · have q1 : ∀ i c, s.phase i ≠ .unlocked c := fun i c hx => by have := (h.given i c hx).2.2; rw [hn] at this; cases this
          have q2 : s.lock = none := Classical.byContradiction fun hx => by have := (h.locked hx).1; rw [a] at this; cases this
          exact ⟨h.holder, h.notifying, h.ctx, h.reg, fun hx => absurd q2 hx, fun i c hx => absurd hx (q1 i c), h.one, k, a, b, c, rfl⟩
      | starting => rw [ht] at hs; cases hs
      | woken => rw [ht] at hs; cases hs
      | running => rw [ht] at hs; cases hs
      | done => rw [ht] at hs; cases hs
    · rw [if_neg hn] at hs; cases hs
  · -- ready
    simp only [step] at hs
    by_cases hc : s.task = .starting ∧ s.lock = none
    · rw [if_pos hc] at hs
      injection hs with hs; injection hs with hs; subst hs
      rw [hc.1] at htask
      obtain ⟨q1, q2⟩ := quiet (by rw [hc.1]; decide)
      exact ⟨h.holder, h.notifying, h.ctx, h.reg, fun hx => absurd q2 hx, fun i c hx => absurd hx (q1 i c), h.one, .inl ⟨rfl, htask.2.1.trans htask.2.2.1.symm, htask.2.2.2⟩⟩
    · rw [if_neg hc] at hs; cases hs
  · -- run
    simp only [step] at hs
    by_cases hc : s.task = .woken
    · rw [if_pos hc] at hs
      rw [hc] at htask
      obtain ⟨k, a, b, c, d⟩ := htask
      rw [a] at hs
      simp only [if_pos b] at hs
      injection hs with hs; injection hs with hs; subst hs
      obtain ⟨q1, q2⟩ := quiet (by rw [hc]; decide)
      exact ⟨h.holder, h.notifying, h.ctx, h.reg, fun hx => absurd q2 hx, fun i c hx => absurd hx (q1 i c), h.one, k, rfl, c, by simp, d⟩
    · rw [if_neg hc] at hs; cases hs
  · -- finish
    simp only [step] at hs
    by_cases hc : s.task = .running
    · rw [if_pos hc] at hs
      rw [hc] at htask
      obtain ⟨k, a, b, c, d⟩ := htask
      injection hs with hs; injection hs with hs; subst hs
      obtain ⟨q1, q2⟩ := quiet (by rw [hc]; decide)
      exact ⟨h.holder, h.notifying, h.ctx, h.reg, fun hx => absurd q2 hx, fun i c hx => absurd hx (q1 i c), h.one, by simp [a], b, d⟩
    · rw [if_neg hc] at hs; cases hs
  · -- clear
    simp only [step] at hs
    by_cases hc : s.task = .done ∧ s.lock = none
    · rw [if_pos hc] at hs
      rw [hc.1] at htask
      injection hs with hs; injection hs with hs; subst hs
      obtain ⟨q1, q2⟩ := quiet (by rw [hc.1]; decide)
      exact ⟨h.holder, h.notifying, h.ctx, h.reg, fun hx => absurd q2 hx, fun i c hx => absurd hx (q1 i c), h.one, .inl ⟨rfl, htask.2.1, htask.2.2⟩⟩
    · rw [if_neg hc] at hs; cases hs

/-- A schedule in which every call names a handler of the list, and the task is not started. -/
def Ordinary (num : Nat) (ls : List Step) : Prop := ∀ l ∈ ls, l ≠ .start ∧ ∀ i c, l = .submit i c → Registered num c

theorem inv_step {num : Nat} {s s' : State} {l : Step} {r : Option Result} (h : Inv num s) (h1 : l ≠ .start) (h2 : ∀ i c, l = .submit i c → Registered num c) (hs : step num s l = some (s', r)) : Inv num s' := by
  cases l with
  | submit i c => exact inv_submit h (h2 i c rfl) hs
  | fill i => exact inv_fill h hs
  | notify i => exact inv_notify h hs
  | give i => exact inv_give h hs
  | start => exact absurd rfl h1
  | take => exact inv_task h (by simp) hs
  | ready => exact inv_task h (by simp) hs
  | run => exact inv_task h (by simp) hs
  | finish => exact inv_task h (by simp) hs
  | clear => exact inv_task h (by simp) hs

theorem inv_run {num : Nat} : ∀ {ls : List Step} {s s' : State}, Inv num s → Ordinary num ls → runAll num s ls = some s' → Inv num s' := by
  intro ls
  induction ls with
  | nil => intro s s' h _ hs; injection hs with hs; exact hs ▸ h
  | cons l ls ih =>
    intro s s' h ho hs
    simp only [runAll] at hs
    cases hst : step num s l with
    | none => rw [hst] at hs; cases hs
    | some p =>
      obtain ⟨t, r⟩ := p
      rw [hst] at hs
      exact ih (inv_step h (ho l (by simp)).1 (ho l (by simp)).2 hst) (fun x hx => ho x (by simp [hx])) hs

theorem runAll_append {num : Nat} : ∀ {a : List Step} {b : List Step} {s s' : State}, runAll num s (a ++ b) = some s' → ∃ t, runAll num s a = some t ∧ runAll num t b = some s' := by
  intro a
  induction a with
  | nil => intro b s s' h; exact ⟨s, rfl, h⟩
  | cons l a ih =>
    intro b s s' h
    simp only [List.cons_append, runAll] at h ⊢
    cases hst : step num s l with
    | none => rw [hst] at h; cases h
    | some p => rw [hst] at h; exact ih h

/-- Before the start nothing happens. -/
theorem before_start {num : Nat} : ∀ {ls : List Step} {s s' : State}, Inv num s → s.task = .boot → s.notified = false → Ordinary num ls → runAll num s ls = some s' → s'.task = .boot ∧ s'.notified = false := by
  intro ls
  induction ls with
  | nil => intro s s' _ h1 h2 _ hs; injection hs with hs; exact hs ▸ ⟨h1, h2⟩
  | cons l ls ih =>
    intro s s' h h1 h2 ho hs
    simp only [runAll] at hs
    cases hst : step num s l with
    | none => rw [hst] at hs; cases hs
    | some p =>
      obtain ⟨t, r⟩ := p
      rw [hst] at hs
      have hi := inv_step h (ho l (by simp)).1 (ho l (by simp)).2 hst
      have hq : ∀ i, s.phase i = .idle := by
        intro i
        have hnl : s.lock = none := Classical.byContradiction fun hx => by have := (h.locked hx).2; rw [h1] at this; cases this
        cases hp : s.phase i with
        | idle => rfl
        | got c => have := (h.holder i).mpr ⟨c, .inl hp⟩; rw [hnl] at this; cases this
        | filled c => have := (h.holder i).mpr ⟨c, .inr hp⟩; rw [hnl] at this; cases this
        | unlocked c => have := (h.given i c hp).1; rw [h1] at this; cases this
      have ht : t.task = .boot ∧ t.notified = false := by
        have hr : s.running = some 0 := by have := h.task; rw [h1] at this; exact this.1
        cases l with
        | submit i c =>
          simp only [step, hr] at hst
          repeat' split at hst
          all_goals first
            | (cases hst; done)
            | (injection hst with hst; injection hst with hst; subst hst; exact ⟨h1, h2⟩)
            | (rename_i hx; cases hx.2)
        | fill i => simp only [step, hq i] at hst; cases hst
        | notify i => simp only [step, hq i] at hst; cases hst
        | give i => simp only [step, hq i] at hst; cases hst
        | start => exact absurd rfl (ho _ (by simp)).1
        | take => simp only [step, h2] at hst; cases hst
        | ready => simp only [step, h1] at hst; cases hst
        | run => simp only [step, h1] at hst; cases hst
        | finish => simp only [step, h1] at hst; cases hst
        | clear => simp only [step, h1] at hst; cases hst
      exact ih hi ht.1 ht.2 (fun x hx => ho x (by simp [hx])) hs

/-- The states that are reached with one start of the task and calls for handlers of its list. -/
def Reachable (num : Nat) (s : State) : Prop := ∃ pre post, Ordinary num pre ∧ Ordinary num post ∧ runAll num init (pre ++ .start :: post) = some s

theorem reachable_inv {num : Nat} {s : State} (h : Reachable num s) : Inv num s := by
  obtain ⟨pre, post, h1, h2, h3⟩ := h
  obtain ⟨t, h4, h5⟩ := runAll_append h3
  have hi := inv_run (inv_init num) h1 h4
  obtain ⟨hb, hn⟩ := before_start (inv_init num) rfl rfl h1 h4
  simp only [runAll, step] at h5
  refine inv_run ?_ h2 h5
  have ht := hi.task
  rw [hb] at ht
  refine ⟨hi.holder, hi.notifying, hi.ctx, hi.reg, hi.locked, fun i c hx => ?_, hi.one, ?_⟩
  · have := (hi.given i c hx).1; rw [hb] at this; cases this
  · simp only [hb]; exact ht

/-- Handlers are run for exactly the accepted events in the order in which they were accepted, each once and with its data; at most the last one has not been run yet. -/
theorem exactly_once_partial {num : Nat} {s : State} (h : Reachable num s) : s.accepted = s.executed ∨ ∃ k, s.running = some k ∧ s.accepted = s.executed ++ [(k, s.context)] := by
  have := (reachable_inv h).task
  cases ht : s.task with
  | boot => rw [ht] at this; exact .inl (this.2.1.trans this.2.2.symm)
  | starting => rw [ht] at this; exact .inl (this.2.1.trans this.2.2.1.symm)
  | waiting =>
    rw [ht] at this
    rcases this with a | ⟨k, a, -, b, -⟩
    · exact .inl a.2.1
    · exact .inr ⟨k, a, b⟩
  | woken => rw [ht] at this; obtain ⟨k, a, -, b, -⟩ := this; exact .inr ⟨k, a, b⟩
  | running => rw [ht] at this; obtain ⟨k, a, b, -⟩ := this; exact .inl b
  | done => rw [ht] at this; exact .inl this.2.1

/-- An accepted event that has not been run is not forgotten: its notification is still to be given, or given, or taken. -/
theorem never_lost_partial {num : Nat} {s : State} (h : Reachable num s) (hne : s.accepted ≠ s.executed) : (∃ i c, s.phase i = .unlocked c) ∨ (s.notified = true ∧ s.task = .waiting) ∨ s.task = .woken := by
  have := (reachable_inv h).task
  cases ht : s.task with
  | boot => rw [ht] at this; exact absurd (this.2.1.trans this.2.2.symm) hne
  | starting => rw [ht] at this; exact absurd (this.2.1.trans this.2.2.1.symm) hne
  | waiting =>
    rw [ht] at this
    rcases this with a | ⟨k, -, -, -, a⟩
    · exact absurd a.2.1 hne
    · rcases a with a | a
      · exact .inr (.inl ⟨a, rfl⟩)
      · exact .inl a
  | woken => exact .inr (.inr rfl)
  | running => rw [ht] at this; obtain ⟨k, a, b, -⟩ := this; exact absurd b hne
  | done => rw [ht] at this; exact absurd this.2.1 hne

/-- A call that records an event records the event and handler it was made with. -/
theorem accepted_exact_partial {num : Nat} {s s' : State} {i : Nat} {c : Call} {r : Option Result} (h : Reachable num s) (hp : s.phase i = .filled c) (hs : step num s (.notify i) = some (s', r)) :
    ∃ k, c.handler = some k ∧ k < num ∧ s'.accepted = s.accepted ++ [(k, c.event)] := by
  obtain ⟨k, h1, h2, h3⟩ := notify_step (reachable_inv h) hp
  rw [h3] at hs
  injection hs with hs; injection hs with hs
  subst hs
  exact ⟨k, h1, h2, rfl⟩

/-- While a handler runs, no other task can change the event it works on. -/
theorem context_stable_partial {num : Nat} {s : State} (h : Reachable num s) (ht : s.task = .running) : (∃ k, s.executed.getLast? = some (k, s.context)) ∧ ∀ i c, s.phase i ≠ .got c ∧ s.phase i ≠ .filled c := by
  have hi := reachable_inv h
  have := hi.task
  rw [ht] at this
  obtain ⟨k, -, -, a, -⟩ := this
  refine ⟨⟨k, a⟩, fun i c => ?_⟩
  have hl : s.lock = none := Classical.byContradiction fun hx => by have := (hi.locked hx).2; rw [ht] at this; cases this
  exact ⟨(fun hx => by have := (hi.holder i).mpr ⟨c, .inl hx⟩; rw [hl] at this; cases this), (fun hx => by have := (hi.holder i).mpr ⟨c, .inr hx⟩; rw [hl] at this; cases this)⟩

namespace Example

def call (n : UInt8) : Call := { handler := some 0, event := ⟨1, [n]⟩ }
/-- A call for a handler that is not in the list, or without a handler, the documented way to give the context back. -/
def cancel : Call := { handler := none, event := ⟨1, []⟩ }

/-- Two tasks submit an event each; the second is refused while the first one is executed and accepted later. -/
example : (runAll 1 init [.submit 7 (call 9), .start, .take, .ready, .submit 0 (call 1), .fill 0, .notify 0, .give 0, .take, .submit 1 (call 2), .run, .finish, .clear, .submit 1 (call 2), .fill 1, .notify 1, .give 1, .take, .run]).map
    (fun s => (s.accepted, s.executed)) = some ([(0, ⟨1, [1]⟩), (0, ⟨1, [2]⟩)], [(0, ⟨1, [1]⟩), (0, ⟨1, [2]⟩)]) := by decide +kernel

def lossy : List Step :=
  [.start, .take, .ready, .submit 0 cancel, .fill 0, .notify 0, .submit 1 (call 1), .fill 1, .notify 1, .give 0, .take, .give 1, .run, .finish, .clear, .take, .run, .submit 2 (call 2), .fill 2, .notify 2, .clear, .give 2]

/-- A call without a handler in the list, at the same time as another call: its late look at `running` gives a second notification, after which the task clears `running` of a third call whose event is then lost, although the call succeeded. -/
theorem cancel_loses_event : (runAll 1 init lossy).map (fun s => (s.accepted, s.executed)) = some ([(0, ⟨1, [1]⟩), (0, ⟨1, [2]⟩)], [(0, ⟨1, [1]⟩)]) ∧
    (runAll 1 init lossy).map (fun s => (s.running, s.notified, s.task)) = some (none, false, Task.waiting) ∧ (runAll 1 init lossy).map (fun s => [s.phase 0, s.phase 1, s.phase 2]) = some [.idle, .idle, .idle] := by decide +kernel

end Example

end Verif.EventTask
