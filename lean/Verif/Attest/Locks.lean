import Verif.Attest.Model
/-! The locks of the responder and of the keys: which calls can block each other for good. -/
namespace Verif.Attest

/-- What a call does with locks: they are not recursive. -/
inductive Act
  | acquire (l : Nat)
  | release (l : Nat)
  deriving DecidableEq, Repr

/-- The lock of the keys, `riot->state->auth_lock`. -/
def keysLock : Nat := 0
/-- The lock of the responder, `attestation->lock`. -/
def responderLock : Nat := 1

/-- `attestation_responder_get_digests`, attestation_responder.c:42, 68, 116 and 118. -/
def digestsActs : List Act := [.acquire keysLock, .acquire responderLock, .release responderLock, .release keysLock]

/-- `attestation_responder_get_digests` if a certificate is missing or the buffer is too small, attestation_responder.c:42 and 118. -/
def digestsFailActs : List Act := [.acquire keysLock, .release keysLock]

/-- `attestation_responder_get_certificate`, attestation_responder.c:197 and 255, and the ECDH seed, aux_attestation.c:609-612. -/
def certificateActs : List Act := [.acquire keysLock, .release keysLock]

/-- `attestation_responder_challenge_response`, attestation_responder.c:287, 342, 345 and 351. -/
def challengeActs : List Act := [.acquire responderLock, .acquire keysLock, .release keysLock, .release responderLock]

/-- `attestation_responder_challenge_response` that fails before the signature, attestation_responder.c:287 and 358. -/
def challengeFailActs : List Act := [.acquire responderLock, .release responderLock]

/-- Which task holds a lock, and what each task has still to do. -/
structure Sys where
  owner : Nat → Option Nat
  todo : List (List Act)

/-- Task `i` can go on. -/
def canStep (s : Sys) (i : Nat) : Bool := match s.todo[i]? with
  | some (.acquire l :: _) => (s.owner l).isNone
  | some (.release _ :: _) => true
  | _ => false

/-- One action of task `i`, if it can go on. -/
def sysStep (s : Sys) (i : Nat) : Sys := match s.todo[i]? with
  | some (.acquire l :: as) => if (s.owner l).isNone then { owner := fun k => if k = l then some i else s.owner k, todo := s.todo.set i as } else s
  | some (.release l :: as) => { owner := fun k => if k = l then none else s.owner k, todo := s.todo.set i as }
  | _ => s

def sysRun (s : Sys) (sched : List Nat) : Sys := sched.foldl sysStep s

/-- No lock is held, and every task has calls to make. -/
def begin_ (todo : List (List Act)) : Sys := ⟨fun _ => none, todo⟩

/-- Some task is not done, and none can go on. -/
def Deadlock (s : Sys) : Prop := (∃ as ∈ s.todo, as ≠ []) ∧ ∀ i, canStep s i = false

/-- With these locks held (the last one first), the actions take locks in increasing order, give back the last one taken, and end without locks. -/
def Ordered : List Nat → List Act → Prop
  | held, [] => held = []
  | held, .acquire l :: as => (∀ h ∈ held, h < l) ∧ Ordered (l :: held) as
  | held, .release l :: as => ∃ rest, held = l :: rest ∧ Ordered rest as

theorem Ordered.append {as bs : List Act} : ∀ {held : List Nat}, Ordered held as → Ordered [] bs → Ordered held (as ++ bs) := by
  induction as with
  | nil => intro held h hb; rw [show held = [] from h]; exact hb
  | cons a as ih =>
    intro held h hb
    cases a with
    | acquire l => exact ⟨h.1, ih h.2 hb⟩
    | release l => obtain ⟨rest, e, h⟩ := h; exact ⟨rest, e, ih h hb⟩

/-- What is held fits what is to be done. -/
structure SysInv (s : Sys) (held : Nat → List Nat) : Prop where
  ordered : ∀ i as, s.todo[i]? = some as → Ordered (held i) as
  nodup : ∀ i, (held i).Nodup
  owner : ∀ l i, s.owner l = some i ↔ l ∈ held i
  range : ∀ i, s.todo[i]? = none → held i = []

theorem sysInv_step {s : Sys} {held : Nat → List Nat} (h : SysInv s held) (i : Nat) : ∃ held', SysInv (sysStep s i) held' := by
  unfold sysStep
  split
  · rename_i l as hi
    split
    · rename_i ho
      have hn : s.owner l = none := by simpa using ho
      have hl : ∀ j, l ∉ held j := fun j hj => by have := (h.owner l j).mpr hj; rw [hn] at this; cases this
      obtain ⟨o1, o2⟩ := h.ordered i _ hi
      have hlt : i < s.todo.length := by
        rcases Nat.lt_or_ge i s.todo.length with x | x
        · exact x
        · rw [List.getElem?_eq_none x] at hi; cases hi
      refine ⟨fun j => if j = i then l :: held i else held j, ⟨fun j bs hj => ?_, fun j => ?_, fun k j => ?_, fun j hj => ?_⟩⟩
      · by_cases e : j = i
        · subst e
          simp only [List.getElem?_set_self hlt, Option.some.injEq] at hj
          subst hj; simp only [if_true]; exact o2
        · simp only [List.getElem?_set_ne (fun x => e x.symm)] at hj
          simp only [e, if_false]; exact h.ordered j bs hj
      · by_cases e : j = i
        · simp only [e, if_true]; exact List.nodup_cons.mpr ⟨hl i, h.nodup i⟩
        · simp only [e, if_false]; exact h.nodup j
      · by_cases e : j = i
        · subst e
          simp only [if_true]
          by_cases ek : k = l
          · simp [ek]
          · simp only [ek, if_false, List.mem_cons, false_or]; exact h.owner k j
        · simp only [e, if_false]
          by_cases ek : k = l
          · subst ek
            simp only [if_true]
            constructor
            · intro x; injection x with x; exact absurd x.symm e
            · intro x; exact absurd x (hl j)
          · simp only [ek, if_false]; exact h.owner k j
      · by_cases e : j = i
        · subst e; rw [List.getElem?_set_self hlt] at hj; cases hj
        · simp only [List.getElem?_set_ne (fun x => e x.symm)] at hj
          simp only [e, if_false]; exact h.range j hj
    · exact ⟨held, h⟩
  · rename_i l as hi
    obtain ⟨rest, e0, o⟩ := h.ordered i _ hi
    have hlt : i < s.todo.length := by
      rcases Nat.lt_or_ge i s.todo.length with x | x
      · exact x
      · rw [List.getElem?_eq_none x] at hi; cases hi
    have hnd := h.nodup i
    rw [e0] at hnd
    have hnd' := List.nodup_cons.mp hnd
    refine ⟨fun j => if j = i then rest else held j, ⟨fun j bs hj => ?_, fun j => ?_, fun k j => ?_, fun j hj => ?_⟩⟩
    · by_cases e : j = i
      · subst e
        simp only [List.getElem?_set_self hlt, Option.some.injEq] at hj
        subst hj; simp only [if_true]; exact o
      · simp only [List.getElem?_set_ne (fun x => e x.symm)] at hj
        simp only [e, if_false]; exact h.ordered j bs hj
    · by_cases e : j = i
      · simp only [e, if_true]; exact hnd'.2
      · simp only [e, if_false]; exact h.nodup j
    · by_cases ek : k = l
      · subst ek
        simp only [if_true]
        constructor
        · intro x; cases x
        · intro x
          by_cases e : j = i
          · simp only [e, if_true] at x; exact absurd x hnd'.1
          · simp only [e, if_false] at x
            have h1 := (h.owner k j).mpr x
            have h2 := (h.owner k i).mpr (by rw [e0]; simp)
            rw [h1] at h2; injection h2 with h2; exact absurd h2 e
      · simp only [ek, if_false]
        by_cases e : j = i
        · subst e
          simp only [if_true]
          rw [h.owner k j, e0]; simp [ek]
        · simp only [e, if_false]; exact h.owner k j
    · by_cases e : j = i
      · subst e; rw [List.getElem?_set_self hlt] at hj; cases hj
      · simp only [List.getElem?_set_ne (fun x => e x.symm)] at hj
        simp only [e, if_false]; exact h.range j hj
  · exact ⟨held, h⟩

theorem sysInv_run {s : Sys} (sched : List Nat) : (∃ held, SysInv s held) → ∃ held, SysInv (sysRun s sched) held := by
  induction sched generalizing s with
  | nil => exact id
  | cons i is ih => rintro ⟨held, h⟩; exact ih (sysInv_step h i)

theorem not_stuck {s : Sys} {held : Nat → List Nat} (h : SysInv s held) : ¬ Deadlock s := by
  rintro ⟨⟨as, hm, hne⟩, hs⟩
  -- A stuck task that is not done waits for a lock that a stuck task holds, which waits for a larger one.
  have next : ∀ (i l : Nat) (bs : List Act), s.todo[i]? = some (Act.acquire l :: bs) → ∃ (j m : Nat) (cs : List Act), s.todo[j]? = some (Act.acquire m :: cs) ∧ l < m := by
    intro i l bs hi
    have h1 := hs i
    rw [canStep, hi] at h1
    cases ho : s.owner l with
    | none => simp only [ho] at h1; cases h1
    | some j =>
      have hj := (h.owner l j).mp ho
      cases ht : s.todo[j]? with
      | none => rw [h.range j ht] at hj; cases hj
      | some cs =>
        have oj := h.ordered j cs ht
        cases cs with
        | nil => rw [show held j = [] from oj] at hj; cases hj
        | cons a cs =>
          cases a with
          | acquire m => exact ⟨j, m, cs, ht, oj.1 l hj⟩
          | release m => have := hs j; rw [canStep, ht] at this; cases this
  have up : ∀ n, ∃ (j m : Nat) (cs : List Act), s.todo[j]? = some (Act.acquire m :: cs) ∧ n ≤ m := by
    intro n
    induction n with
    | zero =>
      obtain ⟨i, hi⟩ := List.getElem?_of_mem hm
      cases as with
      | nil => exact absurd rfl hne
      | cons a bs =>
        cases a with
        | acquire l => exact ⟨i, l, bs, hi, Nat.zero_le _⟩
        | release l => have := hs i; rw [canStep, hi] at this; cases this
    | succ n ih =>
      obtain ⟨j, m, cs, h1, h2⟩ := ih
      obtain ⟨j', m', cs', h3, h4⟩ := next j m cs h1
      exact ⟨j', m', cs', h3, by omega⟩
  -- There are finitely many tasks.
  have bound : ∃ B, ∀ (j m : Nat) (cs : List Act), s.todo[j]? = some (Act.acquire m :: cs) → m ≤ B := by
    generalize s.todo = t
    induction t with
    | nil => exact ⟨0, fun j m cs hx => by simp at hx⟩
    | cons a t ih =>
      obtain ⟨B, hB⟩ := ih
      have : ∃ C, ∀ m cs, a = Act.acquire m :: cs → m ≤ C := by
        cases a with
        | nil => exact ⟨0, fun m cs e => (by cases e)⟩
        | cons x cs => cases x with
          | acquire l => exact ⟨l, fun m cs e => by injection e with e _; injection e with e; omega⟩
          | release l => exact ⟨0, fun m cs e => by injection e with e _; cases e⟩
      obtain ⟨C, hC⟩ := this
      refine ⟨max B C, fun j m cs hx => ?_⟩
      cases j with
      | zero => simp at hx; have := hC m cs hx; omega
      | succ j => have := hB j m cs (by simpa using hx); omega
  obtain ⟨B, hB⟩ := bound
  obtain ⟨j, m, cs, h1, h2⟩ := up (B + 1)
  have := hB j m cs h1
  omega

/-- The calls of a task that makes no challenge. -/
def quietCalls : List (List Act) := [digestsActs, digestsFailActs, certificateActs, challengeFailActs]

theorem quiet_ordered : ∀ as ∈ quietCalls, Ordered [] as := by
  intro as h
  simp only [quietCalls, List.mem_cons, List.not_mem_nil, or_false] at h
  rcases h with rfl | rfl | rfl | rfl
  · exact ⟨by simp, by simp [keysLock, responderLock], _, rfl, _, rfl, rfl⟩
  · exact ⟨by simp, _, rfl, rfl⟩
  · exact ⟨by simp, _, rfl, rfl⟩
  · exact ⟨by simp, _, rfl, rfl⟩

theorem calls_ordered {calls : List (List Act)} (h : ∀ c ∈ calls, Ordered [] c) : Ordered [] calls.flatten := by
  induction calls with
  | nil => rfl
  | cons c cs ih => rw [List.flatten_cons]; exact (h c (by simp)).append (ih (fun x hx => h x (by simp [hx])))

theorem begin_inv {todo : List (List Act)} (h : ∀ as ∈ todo, Ordered [] as) : ∃ held, SysInv (begin_ todo) held :=
  ⟨fun _ => [], ⟨fun i as hi => h as (List.mem_of_getElem? hi), fun _ => List.nodup_nil, fun l i => by simp [begin_], fun _ _ => rfl⟩⟩

/-- Any number of tasks that read digests and certificates, each in any order and any number of times, never block each other for good. -/
theorem no_deadlock_partial (tasks : List (List (List Act))) (h : ∀ calls ∈ tasks, ∀ c ∈ calls, c ∈ quietCalls) (sched : List Nat) :
    ¬ Deadlock (sysRun (begin_ (tasks.map List.flatten)) sched) := by
  obtain ⟨held, hi⟩ := sysInv_run (s := begin_ (tasks.map List.flatten)) sched (begin_inv (fun as ha => by
    obtain ⟨calls, hc, rfl⟩ := List.mem_map.mp ha
    exact calls_ordered (fun c hx => quiet_ordered c (h calls hc c hx))))
  exact not_stuck hi

/-- A single task never blocks itself, challenges included. -/
theorem single_task (calls : List (List Act)) (h : ∀ c ∈ calls, c = challengeActs ∨ c ∈ quietCalls) :
    (sysRun (begin_ [calls.flatten]) (List.replicate calls.flatten.length 0)).todo = [[]] := by
  have key : ∀ (c rest : List Act), (c = challengeActs ∨ c ∈ quietCalls) → ∃ o, sysRun (begin_ [c ++ rest]) (List.replicate c.length 0) = ⟨o, [rest]⟩ ∧ ∀ l, o l = none := by
    intro c rest hc
    simp only [quietCalls, List.mem_cons, List.not_mem_nil, or_false] at hc
    rcases hc with rfl | rfl | rfl | rfl | rfl
    all_goals
      refine ⟨_, rfl, fun l => ?_⟩
      rcases l with _ | _ | l <;> rfl
  induction calls with
  | nil => rfl
  | cons c cs ih =>
    obtain ⟨o, e, ho⟩ := key c cs.flatten (h c (by simp))
    rw [List.flatten_cons, List.length_append, ← List.replicate_append_replicate, sysRun, List.foldl_append]
    rw [show List.foldl sysStep (begin_ [c ++ cs.flatten]) (List.replicate c.length 0) = _ from e]
    have : o = fun _ => none := funext ho
    subst this
    exact ih (fun x hx => h x (by simp [hx]))

/-- Reading of digests and a challenge in two tasks block each other for good: they take the locks in opposite order. -/
theorem digests_challenge_deadlock : Deadlock (sysRun (begin_ [digestsActs, challengeActs]) [0, 1]) := by
  refine ⟨⟨_, List.mem_cons_self, by decide⟩, fun i => ?_⟩
  rcases i with _ | _ | i
  · rfl
  · rfl
  · rfl

/-- The hypotheses of `no_deadlock_partial` are met, by tasks that do block each other for a while. -/
example : canStep (sysRun (begin_ ([[digestsActs, certificateActs], [certificateActs]].map List.flatten)) [0]) 1 = false ∧
    canStep (sysRun (begin_ ([[digestsActs, certificateActs], [certificateActs]].map List.flatten)) [0]) 0 = true := by decide

end Verif.Attest
