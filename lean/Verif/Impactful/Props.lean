import Verif.Impactful.Model
/-! Decision, lifetime of an authorization, and locks. -/
namespace Verif.Impactful

/-! ### The decision -/

theorem allowedLoop_zero : ∀ (cs : List Check) (a : Nat), allowedLoop a cs = 0 ↔ a = 0 ∧ ∀ c ∈ cs, c.notImpactful = 0 ∨ (c.authAllowed = 0 ∧ c.authorized = true) := by
  intro cs
  induction cs with
  | nil => intro a; simp [allowedLoop]
  | cons c cs ih =>
    intro a
    rw [allowedLoop]
    by_cases h1 : c.notImpactful = 0
    · rw [if_neg (by simpa using h1), ih]; simp [h1]
    · rw [if_pos h1]
      by_cases h2 : c.authAllowed = 0
      · rw [if_neg (by simpa using h2), ih]
        cases h3 : c.authorized <;> simp [h1, h2, h3]
      · rw [if_pos h2]; simp [h1, h2]

/-- An update is allowed exactly if each check finds it harmless, or can be overruled and found an authorization. -/
theorem allowed_exact (cs : List Check) : isAllowed cs = 0 ↔ ∀ c ∈ cs, c.notImpactful = 0 ∨ (c.authAllowed = 0 ∧ c.authorized = true) := by
  rw [isAllowed, allowedLoop_zero]; simp

/-- It is not impactful exactly if every check says so. -/
theorem not_impactful_exact (cs : List Check) : isNotImpactful cs = 0 ↔ ∀ c ∈ cs, c.notImpactful = 0 := by
  induction cs with
  | nil => simp [isNotImpactful]
  | cons c cs ih =>
    rw [isNotImpactful]
    by_cases h1 : c.notImpactful = 0
    · rw [if_neg (by simpa using h1), ih]; simp [h1]
    · rw [if_pos h1]; simp [h1]

/-- A check that forbids authorizations blocks the update whatever the other checks say and whether or not there is an authorization. -/
theorem blocked (cs : List Check) (c : Check) (hc : c ∈ cs) (h1 : c.notImpactful ≠ 0) (h2 : c.authAllowed ≠ 0) : isAllowed cs ≠ 0 := by
  rw [Ne, allowed_exact]
  intro h
  rcases h c hc with h | ⟨h, -⟩
  · exact h1 h
  · exact h2 h

/-! ### The lifetime -/

/-- Something is under way that ends the authorization. -/
def Ending (s : State) : Prop := s.armed = true ∨ (s.expired > 0 ∧ s.off = false) ∨ s.resets > 0

structure Inv (s : State) : Prop where
  timer : s.armed = true → s.off = false
  ends : s.authorized = true → s.timed = true → Ending s ∨ s.auth = some 0
  new : ∀ ms, s.auth = some ms → ms ≠ 0 → Ending s

theorem inv_init : Inv init := ⟨(fun h => by cases h), (fun h => by cases h), (fun ms h => by cases h)⟩

theorem inv_step {s t : State} (h : Inv s) (l : Step) (hs : step s l = some t) : Inv t := by
  cases l with
  | arm ms =>
    simp only [step] at hs
    by_cases ha : s.auth = none
    · rw [if_pos ha] at hs
      injection hs with hs; subst hs
      by_cases hm : ms ≠ 0
      · rw [if_pos hm]; exact ⟨fun _ => rfl, fun _ _ => .inl (.inl rfl), fun _ _ _ => .inl rfl⟩
      · rw [if_neg hm]
        have hm : ms = 0 := by simpa using hm
        subst hm
        exact ⟨(fun h => by cases h), fun _ _ => .inr rfl, fun n hn h0 => by injection hn with hn; exact absurd hn.symm h0⟩
    · rw [if_neg ha] at hs; cases hs
  | armFail =>
    simp only [step] at hs
    split at hs
    · injection hs with hs; exact hs ▸ h
    · cases hs
  | set =>
    simp only [step] at hs
    cases ha : s.auth with
    | none => rw [ha] at hs; cases hs
    | some ms =>
      rw [ha] at hs
      injection hs with hs; subst hs
      exact ⟨h.timer, fun _ ht => .inl (h.new ms ha (by simpa using ht)), fun n hn => by cases hn⟩
  | disarm =>
    simp only [step] at hs
    injection hs with hs; subst hs
    exact ⟨(fun h => by cases h), fun _ _ => .inl (.inr (.inr (by simp))), fun _ _ _ => .inr (.inr (by simp))⟩
  | clear =>
    simp only [step] at hs
    by_cases hc : s.auth = none ∧ s.resets > 0
    · rw [if_pos hc] at hs
      injection hs with hs; subst hs
      exact ⟨h.timer, (fun h => by cases h), fun n hn => by rw [hc.1] at hn; cases hn⟩
    · rw [if_neg hc] at hs; cases hs
  | expire =>
    simp only [step] at hs
    by_cases ha : s.armed = true
    · rw [if_pos ha] at hs
      injection hs with hs; subst hs
      have : s.off = false := h.timer ha
      exact ⟨(fun h => by cases h), fun _ _ => .inl (.inr (.inl ⟨by simp, this⟩)), fun _ _ _ => .inr (.inl ⟨by simp, this⟩)⟩
    · rw [if_neg ha] at hs; cases hs
  | callback =>
    simp only [step] at hs
    split at hs
    · injection hs with hs; subst hs
      exact ⟨(fun h => by cases h), fun _ _ => .inl (.inr (.inr (by simp))), fun _ _ _ => .inr (.inr (by simp))⟩
    · cases hs
  | skip =>
    simp only [step] at hs
    by_cases hc : s.expired > 0 ∧ s.off = true
    · rw [if_pos hc] at hs
      injection hs with hs; subst hs
      have key : Ending s → Ending { s with expired := s.expired - 1 } := by
        rintro (a | ⟨a, b⟩ | a)
        · exact .inl a
        · rw [hc.2] at b; cases b
        · exact .inr (.inr a)
      exact ⟨h.timer, fun a b => (h.ends a b).imp key id, fun n hn h0 => key (h.new n hn h0)⟩
    · rw [if_neg hc] at hs; cases hs

theorem inv_run : ∀ {ls : List Step} {s t : State}, Inv s → run s ls = some t → Inv t := by
  intro ls
  induction ls with
  | nil => intro s t h hs; injection hs with hs; exact hs ▸ h
  | cons l ls ih =>
    intro s t h hs
    rw [run] at hs
    cases hst : step s l with
    | none => rw [hst] at hs; cases hs
    | some u => rw [hst] at hs; exact ih (inv_step h l hst) hs

/-- An authorization with a limit always ends: as long as it holds the timer runs, or its callback or a reset is under way, or a new authorization without limit is just being given. -/
theorem limited_ends (ls : List Step) (s : State) (h : run init ls = some s) (ha : s.authorized = true) (ht : s.timed = true) :
    s.armed = true ∨ (s.expired > 0 ∧ s.off = false) ∨ s.resets > 0 ∨ s.auth = some 0 := by
  rcases (inv_run inv_init h).ends ha ht with (a | a | a) | a
  · exact .inl a
  · exact .inr (.inl a)
  · exact .inr (.inr (.inl a))
  · exact .inr (.inr (.inr a))

/-- Once the timer has run out and no call is under way, there is no authorization with a limit. -/
theorem limited_over (ls : List Step) (s : State) (h : run init ls = some s) (h1 : s.armed = false) (h2 : s.expired = 0) (h3 : s.resets = 0) (h4 : s.auth = none) : s.authorized = true → s.timed = false := by
  intro ha
  cases ht : s.timed with
  | false => rfl
  | true =>
    rcases limited_ends ls s h ha ht with a | ⟨a, -⟩ | a | a
    · rw [h1] at a; cases a
    · omega
    · omega
    · rw [h4] at a; cases a

theorem authorized_run : ∀ (ls : List Step) (s t : State), run s ls = some t →
    (t.authorized = true ↔ (∃ pre post, ls = pre ++ .set :: post ∧ Step.clear ∉ post) ∨ (s.authorized = true ∧ Step.clear ∉ ls)) := by
  intro ls
  induction ls with
  | nil => intro s t h; injection h with h; subst h; simp
  | cons l ls ih =>
    intro s t h
    rw [run] at h
    cases hst : step s l with
    | none => rw [hst] at h; cases h
    | some u =>
      rw [hst] at h
      have hi := ih u t h
      rw [hi]
      have hu : (l = .set ∧ u.authorized = true) ∨ (l = .clear ∧ u.authorized = false) ∨ (l ≠ .set ∧ l ≠ .clear ∧ u.authorized = s.authorized) := by
        cases l <;> simp only [step] at hst
        case arm ms => (repeat' split at hst) <;> first | (cases hst; done) | (injection hst with hst; subst hst; exact .inr (.inr ⟨by simp, by simp, rfl⟩))
        case armFail => split at hst <;> first | (cases hst; done) | (injection hst with hst; subst hst; exact .inr (.inr ⟨by simp, by simp, rfl⟩))
        case set => split at hst <;> first | (cases hst; done) | (injection hst with hst; subst hst; exact .inl ⟨rfl, rfl⟩)
        case disarm => injection hst with hst; subst hst; exact .inr (.inr ⟨by simp, by simp, rfl⟩)
        case clear => split at hst <;> first | (cases hst; done) | (injection hst with hst; subst hst; exact .inr (.inl ⟨rfl, rfl⟩))
        case expire => split at hst <;> first | (cases hst; done) | (injection hst with hst; subst hst; exact .inr (.inr ⟨by simp, by simp, rfl⟩))
        case callback => split at hst <;> first | (cases hst; done) | (injection hst with hst; subst hst; exact .inr (.inr ⟨by simp, by simp, rfl⟩))
        case skip => split at hst <;> first | (cases hst; done) | (injection hst with hst; subst hst; exact .inr (.inr ⟨by simp, by simp, rfl⟩))
      constructor
      · rintro (⟨pre, post, rfl, hp⟩ | ⟨ha, hp⟩)
        · exact .inl ⟨l :: pre, post, rfl, hp⟩
        · rcases hu with ⟨rfl, -⟩ | ⟨-, hx⟩ | ⟨-, hc, hx⟩
          · exact .inl ⟨[], ls, rfl, hp⟩
          · rw [hx] at ha; cases ha
          · exact .inr ⟨by rw [← hx]; exact ha, fun hm => by rcases List.mem_cons.mp hm with hm | hm; exact hc hm.symm; exact hp hm⟩
      · rintro (⟨pre, post, e, hp⟩ | ⟨ha, hp⟩)
        · cases pre with
          | nil =>
            injection e with e1 e2
            subst e2
            rcases hu with ⟨-, hx⟩ | ⟨hx, -⟩ | ⟨hx, -⟩
            · exact .inr ⟨hx, hp⟩
            · rw [e1] at hx; cases hx
            · exact absurd e1 hx
          | cons y pre => injection e with e1 e2; exact .inl ⟨pre, post, e2, hp⟩
        · rcases hu with ⟨-, hx⟩ | ⟨rfl, -⟩ | ⟨-, -, hx⟩
          · exact .inr ⟨hx, fun hm => hp (by simp [hm])⟩
          · exact absurd (by simp) hp
          · exact .inr ⟨by rw [hx]; exact ha, fun hm => hp (by simp [hm])⟩

/-- Updates are authorized exactly if an authorization was given and nothing was reset since. -/
theorem authorized_exact (ls : List Step) (s : State) (h : run init ls = some s) : s.authorized = true ↔ ∃ pre post, ls = pre ++ .set :: post ∧ Step.clear ∉ post := by
  rw [authorized_run ls init s h]
  exact ⟨fun h => h.elim id (fun h => by cases h.1), .inl⟩

/-! ### The locks -/

open Verif.Attest

/-- Any number of tasks that reset authorizations, look at them or are called by the timer do not block each other for good, in any schedule. -/
theorem no_deadlock_partial (tasks : List (List (List Act))) (h : ∀ calls ∈ tasks, ∀ c ∈ calls, c = resetActs ∨ c = expireActs ∨ c = lookActs) (sched : List Nat) :
    ¬ Deadlock (sysRun (begin_ (tasks.map List.flatten)) sched) := by
  have ord : ∀ c, c = resetActs ∨ c = expireActs ∨ c = lookActs → Ordered [] c := by
    rintro c (rfl | rfl | rfl)
    · exact ⟨by simp, _, rfl, by simp, _, rfl, rfl⟩
    · exact ⟨by simp, by simp [timerLock, stateLock], _, rfl, _, rfl, rfl⟩
    · exact ⟨by simp, _, rfl, rfl⟩
  obtain ⟨held, hi⟩ := sysInv_run (s := begin_ (tasks.map List.flatten)) sched (begin_inv (fun as ha => by
    obtain ⟨calls, hc, rfl⟩ := List.mem_map.mp ha
    exact calls_ordered (fun c hx => ord c (h calls hc c hx))))
  exact not_stuck hi

/-- A new authorization at the moment at which the old one runs out: the task holds the lock of the state and waits for that of the timer, the timer holds its lock and waits for that of the state. -/
theorem authorize_expire_deadlock : Deadlock (sysRun (begin_ [authorizeActs, expireActs]) [0, 1]) := by
  refine ⟨⟨_, List.mem_cons_self, by simp⟩, fun i => ?_⟩
  match i with
  | 0 => rfl
  | 1 => rfl
  | n + 2 => rfl

/-- An authorization for one second that runs out while it is renewed. -/
example : (run init [.arm 1000, .set, .expire, .arm 500, .set, .callback, .clear]).map (fun s => (s.authorized, s.armed)) = some (false, false) := by decide
example : isAllowed [⟨0, 0, false⟩, ⟨5, 0, true⟩] = 0 ∧ isAllowed [⟨5, 0, false⟩, ⟨6, 7, true⟩] = 7 := by decide

end Verif.Impactful
