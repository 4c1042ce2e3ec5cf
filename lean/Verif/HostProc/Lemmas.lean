import Verif.HostProc.Spec
/-! A program logic for `M`: every state on the way has the safety property. -/
namespace Verif.HostProc
variable {P C α β : Type}

/-- From a state with `pre`, all states on the way are `safe`; then `ok` holds after a success and `er` after an error. -/
def Tri (safe : St P C → Prop) (pre : St P C → Prop) (m : M P C α) (ok : α → St P C → Prop) (er : St P C → Prop) : Prop :=
  ∀ r, pre r.st → (∀ s ∈ r.log, safe s) → (∀ s ∈ (m r).2.log, safe s) ∧
    match (m r).1 with
    | .ok a => ok a (m r).2.st
    | .error (.err _) => er (m r).2.st
    | .error .hang => True

/-- The predicate survives what happens besides, and is safe. -/
def Stab (safe : St P C → Prop) (q : St P C → Prop) : Prop := ∀ s, q s → safe s ∧ ∀ r, q (interfere r s)

section
variable {safe pre er : St P C → Prop} {ok mid : α → St P C → Prop} {e : Nat → Resp C} {m : M P C α}

theorem Tri.bind {f : α → M P C β} {okb : β → St P C → Prop} (h : Tri safe pre m mid er) (k : ∀ a, Tri safe (mid a) (f a) okb er) :
    Tri safe pre (m >>= f) okb er := by
  intro r hp hl
  have h1 := h r hp hl
  show (∀ s ∈ (M.bind m f r).2.log, safe s) ∧ match (M.bind m f r).1 with
    | .ok a => okb a (M.bind m f r).2.st
    | .error (.err _) => er (M.bind m f r).2.st
    | .error .hang => True
  unfold M.bind
  generalize m r = x at h1
  obtain ⟨y, r'⟩ := x
  cases y with
  | ok a => exact k a r' h1.2 h1.1
  | error z => cases z <;> exact h1

theorem Tri.conseq {pre' er' : St P C → Prop} {ok' : α → St P C → Prop} (h : Tri safe pre m ok er) (hp : ∀ s, pre' s → pre s)
    (ho : ∀ a s, ok a s → ok' a s) (he : ∀ s, er s → er' s) : Tri safe pre' m ok' er' := by
  intro r h1 hl
  have := h r (hp _ h1) hl
  refine ⟨this.1, ?_⟩
  have h2 := this.2
  generalize (m r).1 = x at h2 ⊢
  cases x with
  | ok a => exact ho _ _ h2
  | error z => cases z with
    | err y => exact he _ h2
    | hang => trivial

theorem Tri.weaken {pre' : St P C → Prop} (h : Tri safe pre m ok er) (hp : ∀ s, pre' s → pre s) : Tri safe pre' m ok er :=
  h.conseq hp (fun _ _ x => x) (fun _ x => x)

theorem Tri.pure {a : α} (h : ∀ s, pre s → ok a s) : Tri safe pre (Pure.pure a : M P C α) ok er := fun r hp hl => ⟨hl, h _ hp⟩

theorem Tri.pure' {a : α} (h : ∀ s, pre s → ok a s) : Tri safe pre (M.pure a : M P C α) ok er := fun r hp hl => ⟨hl, h _ hp⟩

theorem Tri.throw {x : Err} (h : ∀ s, pre s → er s) : Tri safe pre (M.throw x : M P C α) ok er := fun r hp hl => ⟨hl, h _ hp⟩

theorem Tri.hang : Tri safe pre (M.hang : M P C α) ok er := fun r hp hl => ⟨hl, trivial⟩

theorem Tri.get {f : St P C → M P C α} (h : ∀ s, pre s → Tri safe (fun t => t = s) (f s) ok er) : Tri safe pre (get >>= f) ok er := by
  intro r hp hl
  exact h r.st hp r rfl hl

theorem Tri.status {m : M P C Unit} {oks : St P C → Prop} {er' : St P C → Prop} (h : Tri safe pre m (fun _ => oks) er) :
    Tri safe pre m.status (fun x s => match x with | none => oks s | some _ => er s) er' := by
  intro r hp hl
  have h1 := h r hp hl
  unfold M.status
  generalize m r = x at h1
  obtain ⟨y, r'⟩ := x
  cases y with
  | ok a => exact h1
  | error z => cases z <;> exact h1

theorem Tri.ignore {m : M P C Unit} {q er' : St P C → Prop} (h : Tri safe pre m (fun _ => q) q) : Tri safe pre m.ignore (fun _ => q) er' :=
  (Tri.status h).bind fun a => Tri.pure' (by cases a <;> exact fun _ h => h)

theorem Tri.onlyIf {m : M P C Unit} {q : St P C → Prop} {b : Bool} (h : b = true → Tri safe pre m (fun _ => q) er) (h' : b = false → ∀ s, pre s → q s) :
    Tri safe pre (m.onlyIf b) (fun _ => q) er := by
  unfold M.onlyIf
  cases b with
  | true => exact h rfl
  | false => exact Tri.pure' (h' rfl)

theorem Tri.ofStatus {x : Option Err} {oks : St P C → Prop} (h : x = none → ∀ s, pre s → oks s) (h' : x ≠ none → ∀ s, pre s → er s) :
    Tri safe pre (M.ofStatus x : M P C Unit) (fun _ => oks) er := by
  cases x with
  | none => exact Tri.pure' (h rfl)
  | some x => exact Tri.throw (h' (by simp))

theorem Tri.step {f : St P C → St P C} {q : St P C → Prop} (h : ∀ s, pre s → q (f s)) (st : Stab safe q) :
    Tri safe pre (step e f) (fun _ => q) er := by
  intro r hp hl
  have hq := h _ hp
  have h2 := (st _ hq).2 (e r.n)
  refine ⟨?_, h2⟩
  intro s hs
  rcases List.mem_cons.mp hs with rfl | hs
  · exact (st _ h2).1
  rcases List.mem_cons.mp hs with rfl | hs
  · exact (st _ hq).1
  · exact hl _ hs

theorem Tri.call {f : Resp C → St P C → St P C} {q : St P C → Prop} (h : ∀ r s, pre s → q (f r s)) (h1 : ∀ s, pre s → er s)
    (h2 : ∀ r s, pre s → er (f r s)) (st : Stab safe q) (st' : Stab safe er) :
    Tri safe pre (call e f) (fun _ => q) er := by
  intro r hp hl
  unfold HostProc.call
  cases hx : (e r.n).err with
  | none =>
    have hq := h (e r.n) _ hp
    have hq' := (st _ hq).2 (e r.n)
    refine ⟨?_, ?_⟩
    · intro s hs
      simp only [hx] at hs
      rcases List.mem_cons.mp hs with rfl | hs
      · simpa using (st _ hq').1
      rcases List.mem_cons.mp hs with rfl | hs
      · simpa using (st _ hq).1
      · exact hl _ hs
    · simpa [hx] using hq'
  | some y =>
    have hq : er (if (e r.n).err = none || (e r.n).done then f (e r.n) r.st else r.st) := by
      split
      · exact h2 _ _ hp
      · exact h1 _ hp
    have hq' := (st' _ hq).2 (e r.n)
    refine ⟨?_, ?_⟩
    · intro s hs
      simp only at hs
      rcases List.mem_cons.mp hs with rfl | hs
      · exact (st' _ hq').1
      rcases List.mem_cons.mp hs with rfl | hs
      · exact (st' _ hq).1
      · exact hl _ hs
    · simp only [hx] at hq' ⊢
      exact hq'

/-- A call that keeps a predicate. -/
theorem Tri.call' {f : Resp C → St P C → St P C} {q : St P C → Prop} (h : ∀ r s, q s → q (f r s)) (st : Stab safe q) :
    Tri safe q (HostProc.call e f) (fun _ => q) q := Tri.call h (fun _ x => x) h st st

theorem Tri.probe {q : St P C → Prop} (st : Stab safe q) : Tri safe q (probe e) (fun _ => q) q := Tri.call' (fun _ _ h => h) st

theorem Tri.forever {m : M P C Unit} {q : St P C → Prop} (h : Tri safe pre m (fun _ => q) pre) (n : Nat) :
    Tri safe pre (forever m n) (fun _ => q) er := by
  induction n with
  | zero => exact Tri.hang
  | succ n ih =>
    refine (Tri.status h).bind fun a => ?_
    cases a with
    | none => exact Tri.pure (fun _ h => h)
    | some x => exact ih

theorem Tri.retry {m : M P C Unit} {q : St P C → Prop} {stop : Err → Bool} (h : Tri safe pre m (fun _ => q) pre) (n : Nat) :
    Tri safe pre (retry stop m n) (fun _ => q) pre := by
  induction n with
  | zero => exact h
  | succ n ih =>
    refine (Tri.status h).bind fun a => ?_
    cases a with
    | none => exact Tri.pure (fun _ h => h)
    | some x =>
      simp only
      split
      · exact Tri.throw (fun _ h => h)
      · exact ih

theorem Tri.again {m : M P C Unit} {q : St P C → Prop} {stop : Err → Bool} {x : Option Err} (h : Tri safe pre m (fun _ => q) pre) (n : Nat) :
    Tri safe (fun s => match x with | none => q s | some _ => pre s) (again stop m n x) (fun x s => match x with | none => q s | some _ => pre s) er := by
  induction n generalizing x with
  | zero => exact Tri.pure (fun _ h => h)
  | succ n ih =>
    cases x with
    | none => exact Tri.pure (fun _ h => h)
    | some x =>
      unfold HostProc.again
      simp only
      split
      · exact Tri.pure (fun _ h => h)
      · exact (Tri.status h).bind fun a => ih

end

/-- The host does not run. -/
def Off (s : St P C) : Prop := s.ctl = false ∨ s.held = true

theorem Off.not_running {s : St P C} (h : Off s) : s.running = false := by
  unfold St.running
  rcases h with h | h <;> simp [h]

theorem Off.interfere {s : St P C} (h : Off s) (r : Resp C) : interfere r s = s ∨ interfere r s = s.setDirty true := by
  have h1 : (s.setDirty true).running = false := Off.not_running (s := s.setDirty true) h
  unfold HostProc.interfere
  cases r.irq
  · left; simp [h.not_running]
  · right; simp [h1]

/-- A predicate of states in which the host does not run. -/
theorem Stab.off {c : Cfg P C} {T : P → Prop} {q : St P C → Prop} (h : ∀ s, q s → Off s) (h' : ∀ s, q s → q (s.setDirty true)) :
    Stab (RunsVerified c T) q := by
  intro s hs
  refine ⟨fun hr => ?_, fun r => ?_⟩
  · rw [(h s hs).not_running] at hr; simp at hr
  · rcases (h s hs).interfere r with h1 | h1 <;> rw [h1]
    · exact hs
    · exact h' s hs

end Verif.HostProc
