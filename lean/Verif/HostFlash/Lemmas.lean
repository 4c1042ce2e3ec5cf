import Verif.HostFlash.Spec
import Verif.HostFw.Props
/-! Rules for the model of `host_flash_manager.c`. -/
namespace Verif.HostFlash
open Verif.Flash Verif.HostFw

/-- From a state with `P`, `m` gives a result and state with `Q`, or an error and a state with `E`. -/
def Tri (P : St → Prop) (m : M α) (Q : α → St → Prop) (E : Err → St → Prop) : Prop :=
  ∀ s, P s → match m s with
    | (.ok a, t) => Q a t
    | (.error e, t) => E e t

variable {P : St → Prop} {Q : α → St → Prop} {E : Err → St → Prop} {m : M α}

theorem Tri.ret {a : α} (h : ∀ s, P s → Q a s) : Tri P (pure a : M α) Q E := fun s hs => h s hs

theorem Tri.bind {f : α → M β} {R : β → St → Prop} (h : Tri P m Q E) (hf : ∀ a, Tri (Q a) (f a) R E) : Tri P (m >>= f) R E := by
  intro s hs
  have h := h s hs
  show match M.bind m f s with | (.ok a, t) => R a t | (.error e, t) => E e t
  unfold M.bind
  cases e : m s with
  | mk r t =>
    rw [e] at h
    cases r with
    | ok a => exact hf a t h
    | error x => exact h

theorem Tri.conseq {P' : St → Prop} {Q' : α → St → Prop} {E' : Err → St → Prop} (h : Tri P m Q E) (hp : ∀ s, P' s → P s)
    (hq : ∀ a s, Q a s → Q' a s) (he : ∀ e s, E e s → E' e s) : Tri P' m Q' E' := by
  intro s hs
  have h := h s (hp s hs)
  cases e : m s with
  | mk r t =>
    rw [e] at h
    cases r with
    | ok a => exact hq a t h
    | error x => exact he x t h

theorem Tri.fail {x : Err} (h : ∀ s, P s → E x s) : Tri P (fail x : M α) Q E := fun s hs => h s hs

theorem Tri.onErr {c : M Unit} {E' : Err → St → Prop} (h : Tri P m Q E') (hc : ∀ e s, E' e s → E e (c s).2) : Tri P (onErr m c) Q E := by
  intro s hs
  have h := h s hs
  unfold HostFlash.onErr
  cases e : m s with
  | mk r t =>
    rw [e] at h
    cases r with
    | ok a => exact h
    | error x => exact hc x t h

theorem Tri.always {c : M Unit} {Q' : α → St → Prop} {E' : Err → St → Prop} (h : Tri P m Q' E') (hq : ∀ a s, Q' a s → Q a (c s).2)
    (he : ∀ e s, E' e s → E e (c s).2) : Tri P (always m c) Q E := by
  intro s hs
  have h := h s hs
  unfold HostFlash.always
  cases e : m s with
  | mk r t =>
    rw [e] at h
    cases r with
    | ok a => exact hq a t h
    | error x => exact he x t h

/-- A pure fact can be used. -/
theorem Tri.pull {p : Prop} (h : p → Tri P m Q E) : Tri (fun s => p ∧ P s) m Q E := fun s hs => h hs.1 s hs.2

/-! ### The flash and the entries -/

/-- The flash holds `c`. -/
def On (c : Mem) (s : St) : Prop := s.fs.mem = c

/-- `f` leaves the flash alone. -/
def Keeps (f : M α) : Prop := ∀ s, (f s).2.fs.mem = s.fs.mem

theorem free_keeps (o : Obj) : Keeps (free o) := fun _ => rfl
theorem alloc_keeps (o : Obj) : Keeps (alloc o) := fun _ => rfl
theorem pure_keeps (a : α) : Keeps (pure a : M α) := fun _ => rfl

theorem seq_keeps {a : M α} {b : α → M β} (ha : Keeps a) (hb : ∀ x, Keeps (b x)) : Keeps (a >>= b) := by
  intro s
  show (M.bind a b s).2.fs.mem = _
  have h := ha s
  unfold M.bind
  cases e : a s with
  | mk r t =>
    rw [e] at h
    cases r with
    | ok a => exact (hb a t).trans h
    | error x => exact h

theorem freeEach_keeps (f : Nat → Obj) : ∀ n, Keeps (freeEach f n)
  | 0 => pure_keeps ()
  | n + 1 => seq_keeps (freeEach_keeps f n) fun _ => free_keeps _

theorem freeRw_keeps (n : Nat) : Keeps (freeRw n) := seq_keeps (freeEach_keeps _ n) fun _ => free_keeps _

theorem freeImages_keeps (n : Nat) : Keeps (freeImages n) := seq_keeps (freeEach_keeps _ n) fun _ => free_keeps _

theorem cleanup_keeps (w : Bool) (n : Nat) : Keeps (cleanup w n) := by
  unfold cleanup
  refine seq_keeps ?_ fun _ => seq_keeps (freeImages_keeps n) fun _ => free_keeps _
  unfold doIf
  split
  · exact freeRw_keeps n
  · exact pure_keeps _

variable {c : Mem}

theorem get_on {α : Type} {o : Obj} {x : Option α} :
    Tri (On c) (get o x) (fun a s => x = some a ∧ On c s) (fun _ s => On c s) := by
  unfold get
  cases x with
  | none => exact Tri.fail fun s hs => hs
  | some a => exact Tri.bind (Q := fun _ => On c) (fun s hs => hs) fun _ => Tri.ret fun s hs => ⟨rfl, hs⟩

theorem lift_on {α : Type} {f : FS → Except HostFw.Err α × FS} {R : α → Prop}
    (h : ∀ fs, fs.mem = c → (f fs).2.mem = c ∧ ∀ a, (f fs).1 = .ok a → R a) :
    Tri (On c) (lift f) (fun a s => R a ∧ On c s) (fun _ s => On c s) := by
  intro s hs
  have h := h s.fs hs
  unfold lift
  cases e : f s.fs with
  | mk r t =>
    rw [e] at h
    cases r with
    | ok a => exact ⟨h.2 a rfl, h.1⟩
    | error x => exact h.1

theorem liftOpt_on {α : Type} {f : FS → Option (Except HostFw.Err α × FS)} {R : α → Prop}
    (h : ∀ fs, fs.mem = c → ∀ r t, f fs = some (r, t) → t.mem = c ∧ ∀ a, r = .ok a → R a) :
    Tri (On c) (liftOpt f) (fun a s => R a ∧ On c s) (fun _ s => On c s) := by
  intro s hs
  have h := h s.fs hs
  unfold liftOpt
  cases e : f s.fs with
  | none => exact hs
  | some x =>
    obtain ⟨r, t⟩ := x
    have h := h r t e
    cases r with
    | ok a => exact ⟨h.2 a rfl, h.1⟩
    | error x => exact h.1

theorem keeps_on {f : M α} (h : Keeps f) {s : St} (hs : On c s) : On c (f s).2 := (h s).trans hs

theorem imageEntry_on {env : Env} {p : Pfm} {off : Nat} {w : Bool} {i : Nat} {id : Bytes} (hp : p.WellFormed env.eg off) :
    Tri (On c) (imageEntry env p off w i id) (fun x s => (x.Of p c off id ∧ (w = true → x.Regions p id)) ∧ On c s) (fun _ s => On c s) := by
  unfold imageEntry
  refine get_on.bind fun vs => Tri.pull fun hvs => ?_
  refine Tri.onErr (E' := fun _ s => On c s) ?_ fun _ s hs => keeps_on (free_keeps _) hs
  refine (lift_on (R := fun v => v ∈ vs ∧ v.On c off) ?_).bind fun v => Tri.pull fun hv => ?_
  · intro fs hfs
    obtain ⟨h1, h2, _⟩ := version_exact env.dv off vs fs (hp.versions id vs hvs)
    rw [hfs] at h1 h2
    refine ⟨h1, fun v hv => ?_⟩
    obtain ⟨pre, post, e, ho, _⟩ := h2 v hv
    exact ⟨by rw [e]; simp, ho⟩
  refine get_on.bind fun l => Tri.pull fun hl => ?_
  refine Tri.bind (Q := fun rw s => (w = true → p.rw id v.id = some rw) ∧ On c s) ?_ fun rw => Tri.pull fun hrw => ?_
  · refine Tri.onErr (E' := fun _ s => On c s) ?_ fun _ s hs => keeps_on (free_keeps _) hs
    split
    · exact get_on.conseq (fun _ h => h) (fun a s h => ⟨fun _ => h.1, h.2⟩) (fun _ _ h => h)
    · rename_i hw
      exact Tri.ret fun s hs => ⟨fun h => absurd h hw, hs⟩
  exact Tri.ret fun s hs => ⟨⟨⟨⟨vs, hvs, hv.1⟩, hv.2, hl⟩, hrw⟩, hs⟩

theorem entriesLoop_on {env : Env} {p : Pfm} {off : Nat} {w : Bool} (hp : p.WellFormed env.eg off) :
    ∀ (ids : List Bytes) (i : Nat), Tri (On c) (entriesLoop env p off w i ids)
      (fun xs s => Each (fun id x => x.Of p c off id ∧ (w = true → x.Regions p id)) ids xs ∧ On c s) (fun _ s => On c s)
  | [], _ => Tri.ret fun s hs => ⟨trivial, hs⟩
  | id :: ids, i => by
    unfold entriesLoop
    refine Tri.bind (Tri.onErr (imageEntry_on hp) fun _ s hs => keeps_on (cleanup_keeps _ _) hs) fun x => Tri.pull fun hx => ?_
    refine Tri.bind (Q := fun _ => On c) (fun s hs => hs) fun _ => ?_
    exact (entriesLoop_on hp ids (i + 1)).bind fun xs => Tri.pull fun hxs => Tri.ret fun s hs => ⟨⟨hx, hxs⟩, hs⟩

theorem firmwareTypes_on {env : Env} {p : Pfm} {w1 w2 : Bool} :
    Tri (On c) (firmwareTypes env p w1 w2) (fun ids s => p.firmware = some ids ∧ On c s) (fun _ s => On c s) := by
  unfold firmwareTypes
  refine get_on.bind fun ids => Tri.pull fun h => ?_
  refine Tri.onErr (E' := fun _ s => On c s) ?_ fun _ s hs => keeps_on (free_keeps _) hs
  refine Tri.bind (Q := fun _ => On c) ?_ fun _ => Tri.bind (Q := fun _ => On c) ?_ fun _ => Tri.ret fun s hs => ⟨h, hs⟩
  · unfold doIf
    split
    · split
      · exact fun s hs => hs
      · exact Tri.fail fun s hs => hs
    · exact Tri.ret fun s hs => hs
  · unfold doIf
    split
    · refine Tri.onErr (E' := fun _ s => On c s) ?_ fun _ s hs => keeps_on ?_ hs
      · split
        · exact fun s hs => hs
        · exact Tri.fail fun s hs => hs
      · split
        · exact free_keeps _
        · exact pure_keeps _
    · exact Tri.ret fun s hs => hs

theorem finish_on {w : Bool} {xs : List Entry} {m : M Unit} {R : Prop} (h : Tri (On c) m (fun _ s => R ∧ On c s) (fun _ s => On c s)) :
    Tri (On c) (finish w xs m) (fun _ s => R ∧ On c s) (fun _ s => On c s) := by
  unfold finish
  have hk : Keeps (do freeImages xs.length; free .firmware : M Unit) := seq_keeps (freeImages_keeps _) fun _ => free_keeps _
  refine Tri.always (Tri.onErr h fun _ s hs => keeps_on ?_ hs) (fun _ s hs => ⟨hs.1, keeps_on hk hs.2⟩) fun _ s hs => keeps_on hk hs
  unfold doIf
  split
  · exact freeRw_keeps _
  · exact pure_keeps _

theorem Each.mem {R : Bytes → Entry → Prop} : ∀ {ids : List Bytes} {xs : List Entry}, Each R ids xs → ∀ x ∈ xs, ∃ id ∈ ids, R id x
  | [], [], _ => by simp
  | id :: ids, x :: xs, h => by
    intro y hy
    rcases List.mem_cons.1 hy with rfl | hy
    · exact ⟨id, by simp, h.1⟩
    · obtain ⟨j, hj, r⟩ := Each.mem h.2 y hy
      exact ⟨j, by simp [hj], r⟩
  | [], _ :: _, h => h.elim
  | _ :: _, [], h => h.elim

theorem Each.imp {R R' : Bytes → Entry → Prop} (hr : ∀ id x, R id x → R' id x) :
    ∀ {ids : List Bytes} {xs : List Entry}, Each R ids xs → Each R' ids xs
  | [], [], _ => trivial
  | id :: ids, x :: xs, h => ⟨hr id x h.1, Each.imp hr h.2⟩
  | [], _ :: _, h => h.elim
  | _ :: _, [], h => h.elim

theorem Each.length {R : Bytes → Entry → Prop} : ∀ {ids : List Bytes} {xs : List Entry}, Each R ids xs → ids.length = xs.length
  | [], [], _ => rfl
  | _ :: _, _ :: _, h => congrArg (· + 1) (Each.length h.2)
  | [], _ :: _, h => h.elim
  | _ :: _, [], h => h.elim

/-! ### The heap -/

/-- What is allocated while the entries are collected, after `i` of them. -/
def held (w : Bool) (i : Nat) : Obj → Bool
  | .firmware => true
  | .imageArray => true
  | .rwArray => w
  | .images j => j < i
  | .rw j => w && decide (j < i)
  | .versions _ => false
  | .known _ => false

/-- `L` is allocated, nothing was freed twice. -/
def Heap (L : Obj → Bool) (s : St) : Prop := s.live = L ∧ s.bad = false

theorem heap_alloc {L : Obj → Bool} {o : Obj} (h : L o = false) :
    Tri (Heap L) (alloc o) (fun _ => Heap fun x => if x = o then true else L x) E := by
  intro s hs
  refine ⟨by rw [hs.1], ?_⟩
  show (s.bad || s.live o) = false
  rw [hs.1, hs.2, h]; rfl

theorem heap_free {L : Obj → Bool} {o : Obj} (h : L o = true) :
    Tri (Heap L) (free o) (fun _ => Heap fun x => if x = o then false else L x) E := by
  intro s hs
  refine ⟨by rw [hs.1], ?_⟩
  show (s.bad || !s.live o) = false
  rw [hs.1, hs.2, h]; rfl

theorem heap_get {L : Obj → Bool} {o : Obj} {x : Option α} (h : L o = false) :
    Tri (Heap L) (get o x) (fun _ => Heap fun x => if x = o then true else L x) (fun _ => Heap L) := by
  unfold get
  cases x with
  | none => exact Tri.fail fun s hs => hs
  | some a => exact (heap_alloc h).bind fun _ => Tri.ret fun s hs => hs

theorem heap_lift {L : Obj → Bool} {f : FS → Except HostFw.Err α × FS} : Tri (Heap L) (lift f) (fun _ => Heap L) (fun _ => Heap L) := by
  intro s hs
  unfold lift
  rcases f s.fs with ⟨_ | _, _⟩ <;> exact hs

theorem heap_liftOpt {L : Obj → Bool} {f : FS → Option (Except HostFw.Err α × FS)} :
    Tri (Heap L) (liftOpt f) (fun _ => Heap L) (fun _ => Heap L) := by
  intro s hs
  unfold liftOpt
  rcases f s.fs with _ | ⟨_ | _, _⟩ <;> exact hs

theorem Heap.congr {L L' : Obj → Bool} {s : St} (h : Heap L s) (e : ∀ o, L o = L' o) : Heap L' s := ⟨h.1.trans (funext e), h.2⟩

/-- The state after a step that cannot fail. -/
theorem Tri.after {c : M Unit} {Q : Unit → St → Prop} (h : Tri P c Q (fun _ _ => False)) {s : St} (hs : P s) : Q () (c s).2 := by
  have h := h s hs
  cases e : c s with
  | mk r t =>
    rw [e] at h
    cases r with
    | ok a => exact h
    | error x => exact h.elim

theorem heap_freeEach {f : Nat → Obj} (hf : ∀ i j, f i = f j → i = j) : ∀ (n : Nat) (L : Obj → Bool), (∀ i, i < n → L (f i) = true) →
    Tri (Heap L) (freeEach f n) (fun _ s => ∃ L', Heap L' s ∧ (∀ i, i < n → L' (f i) = false) ∧ ∀ o, (∀ i, i < n → o ≠ f i) → L' o = L o) E
  | 0, L, _ => Tri.ret fun s hs => ⟨L, hs, by simp, fun _ _ => rfl⟩
  | n + 1, L, h => by
    unfold freeEach
    refine (heap_freeEach hf n L fun i hi => h i (by omega)).bind fun _ => ?_
    rintro s ⟨L', hs, h1, h2⟩
    have hn : L' (f n) = true := by
      rw [h2 (f n) (fun i hi e => by have := hf _ _ e; omega)]
      exact h n (by omega)
    have := heap_free (E := fun _ _ => False) hn s hs
    refine ⟨_, this, ?_, ?_⟩
    · intro i hi
      by_cases e : i = n
      · subst e; simp
      · have : f i ≠ f n := fun h => e (hf _ _ h)
        simp only [this, if_false]
        exact h1 i (by omega)
    · intro o ho
      simp only [ho n (by omega), if_false]
      exact h2 o fun i hi => ho i (by omega)

/-- Freeing a list of regions or images. -/
theorem heap_freeRw {L : Obj → Bool} {n : Nat} (h : ∀ i, i < n → L (.rw i) = true) (ha : L .rwArray = true) :
    Tri (Heap L) (freeRw n) (fun _ => Heap fun o => match o with | .rwArray => false | .rw i => if i < n then false else L (.rw i) | o => L o) E := by
  unfold freeRw
  refine (heap_freeEach (fun i j e => by injection e) n L h).bind fun _ => ?_
  rintro s ⟨L', hs, h1, h2⟩
  have hn : L' .rwArray = true := by rw [h2 _ (by simp)]; exact ha
  refine Heap.congr (heap_free (E := fun _ _ => False) hn s hs) ?_
  intro o
  cases o with
  | rwArray => simp
  | rw i =>
    simp only [reduceCtorEq, if_false]
    by_cases hi : i < n
    · simp [hi, h1 i hi]
    · simp only [hi, if_false]
      refine h2 _ fun j hj e => ?_
      injection e with e; omega
  | _ => simp [h2]

theorem heap_freeImages {L : Obj → Bool} {n : Nat} (h : ∀ i, i < n → L (.images i) = true) (ha : L .imageArray = true) :
    Tri (Heap L) (freeImages n) (fun _ => Heap fun o => match o with | .imageArray => false | .images i => if i < n then false else L (.images i) | o => L o) E := by
  unfold freeImages
  refine (heap_freeEach (fun i j e => by injection e) n L h).bind fun _ => ?_
  rintro s ⟨L', hs, h1, h2⟩
  have hn : L' .imageArray = true := by rw [h2 _ (by simp)]; exact ha
  refine Heap.congr (heap_free (E := fun _ _ => False) hn s hs) ?_
  intro o
  cases o with
  | imageArray => simp
  | images i =>
    simp only [reduceCtorEq, if_false]
    by_cases hi : i < n
    · simp [hi, h1 i hi]
    · simp only [hi, if_false]
      refine h2 _ fun j hj e => ?_
      injection e with e; omega
  | _ => simp [h2]

/-- Nothing is allocated. -/
def none' : Obj → Bool := fun _ => false

theorem heap_end {n : Nat} {L : Obj → Bool} (h1 : ∀ i, L (.images i) = decide (i < n)) (h2 : L .imageArray = true) (h3 : L .firmware = true) :
    Tri (Heap L) (do freeImages n; free .firmware)
      (fun _ => Heap fun o => match o with | .imageArray => false | .images _ => false | .firmware => false | o => L o) E := by
  refine (heap_freeImages (fun i hi => by rw [h1]; simpa using hi) h2).bind fun _ => ?_
  refine (heap_free (by simp only [h3])).conseq (fun _ h => h) (fun _ s h => h.congr ?_) (fun _ _ h => h)
  intro o
  cases o with
  | images i => simp [h1]
  | firmware => simp
  | _ => simp

theorem cleanup_heap {w : Bool} {n : Nat} : Tri (Heap (held w n)) (cleanup w n) (fun _ => Heap none') (fun _ _ => False) := by
  unfold cleanup
  refine Tri.bind (Q := fun _ => Heap fun o => match o with | .rwArray => false | .rw _ => false | o => held w n o) ?_ fun _ => ?_
  · unfold doIf
    split
    · rename_i hw
      refine (heap_freeRw (fun i hi => by simp [held, hw, hi]) (by simp [held, hw])).conseq (fun _ h => h) (fun _ s h => h.congr ?_) (fun _ _ h => h)
      intro o
      cases o with
      | rw i => simp [held, hw]
      | _ => rfl
    · rename_i hw
      refine Tri.ret fun s h => h.congr ?_
      intro o
      cases o <;> simp [held, hw]
  refine (heap_end (fun i => rfl) rfl rfl).conseq (fun _ h => h) (fun _ s h => h.congr ?_) (fun _ _ h => h)
  intro o
  cases o <;> simp [held, none']

theorem imageEntry_heap {env : Env} {p : Pfm} {off : Nat} {w : Bool} {i : Nat} {id : Bytes} :
    Tri (Heap (held w i)) (imageEntry env p off w i id)
      (fun _ => Heap fun o => if o = .versions i then true else held w (i + 1) o) (fun _ => Heap (held w i)) := by
  unfold imageEntry
  refine (heap_get (by simp [held])).bind fun vs => ?_
  refine Tri.onErr (E' := fun _ => Heap fun x => if x = .versions i then true else held w i x) ?_ fun _ s hs => ?_
  · refine heap_lift.bind fun v => ?_
    refine (heap_get (by simp [held])).bind fun l => ?_
    refine Tri.bind (Q := fun _ => Heap fun o => if o = .versions i then true else held w (i + 1) o) ?_ fun rw => Tri.ret fun s h => h
    refine Tri.onErr (E' := fun _ => Heap fun x => if x = .images i then true else if x = .versions i then true else held w i x) ?_ fun _ s hs => ?_
    · split
      · rename_i hw
        refine (heap_get (by simp [held])).conseq (fun _ h => h) (fun _ s h => h.congr ?_) (fun _ _ h => h)
        intro o
        cases o <;> simp [held, hw]
        · rename_i j
          by_cases e : j = i
          · simp [e]
          · simp [e]; omega
        · rename_i j
          by_cases e : j = i
          · simp [e]
          · simp [e]; omega
      · rename_i hw
        refine Tri.ret fun s h => h.congr ?_
        intro o
        cases o <;> simp [held, hw]
        · rename_i j
          by_cases e : j = i
          · simp [e]
          · simp [e]; omega
    · refine Heap.congr (Tri.after (heap_free (E := fun _ _ => False) (by simp)) hs) ?_
      intro o
      by_cases e : o = .images i
      · subst e; simp [held]
      · simp [e]
  · refine Heap.congr (Tri.after (heap_free (E := fun _ _ => False) (by simp)) hs) ?_
    intro o
    by_cases e : o = .versions i
    · subst e; simp [held]
    · simp [e]

theorem freeVersions_heap {w : Bool} {i n : Nat} :
    Tri (Heap fun o => if o = .versions i then true else held w n o) (free (.versions i)) (fun _ => Heap (held w n)) E := by
  refine (heap_free (by simp)).conseq (fun _ h => h) (fun _ s h => h.congr ?_) (fun _ _ h => h)
  intro o
  by_cases e : o = .versions i
  · subst e; simp [held]
  · simp [e]

theorem entriesLoop_heap {env : Env} {p : Pfm} {off : Nat} {w : Bool} :
    ∀ (ids : List Bytes) (i : Nat), Tri (Heap (held w i)) (entriesLoop env p off w i ids)
      (fun xs s => xs.length = ids.length ∧ Heap (held w (i + xs.length)) s) (fun _ => Heap none')
  | [], i => Tri.ret fun s hs => ⟨rfl, hs⟩
  | id :: ids, i => by
    unfold entriesLoop
    refine Tri.bind (Tri.onErr imageEntry_heap fun _ s hs => Tri.after cleanup_heap hs) fun x => ?_
    refine freeVersions_heap.bind fun _ => ?_
    refine (entriesLoop_heap ids (i + 1)).bind fun xs => Tri.pull fun hl => Tri.ret fun s hs => ⟨by simp [hl], ?_⟩
    have e : i + 1 + xs.length = i + (x :: xs).length := by simp; omega
    rw [← e]; exact hs

theorem firmwareTypes_heap {env : Env} {p : Pfm} {w1 w : Bool} :
    Tri (Heap none') (firmwareTypes env p w1 w)
      (fun _ => Heap fun o => match o with | .imageArray => w1 | o => held w 0 o) (fun _ => Heap none') := by
  unfold firmwareTypes
  refine (heap_get rfl).bind fun ids => ?_
  refine Tri.onErr (E' := fun _ => Heap fun x => if x = .firmware then true else none' x) ?_ fun _ s hs => ?_
  · refine Tri.bind (Q := fun _ => Heap fun o => match o with | .imageArray => w1 | .firmware => true | _ => false) ?_ fun _ => ?_
    · unfold doIf
      split
      · rename_i hx
        split
        · refine (heap_alloc (by simp [none'])).conseq (fun _ h => h) (fun _ s h => h.congr ?_) (fun _ _ h => h)
          intro o; cases o <;> simp [none', hx]
        · exact Tri.fail fun s h => h
      · rename_i hx
        refine Tri.ret fun s h => h.congr ?_
        intro o; cases o <;> simp [none', hx]
    refine Tri.bind (Q := fun _ => Heap fun o => match o with | .imageArray => w1 | o => held w 0 o) ?_ fun _ => Tri.ret fun s h => h
    unfold doIf
    split
    · rename_i hx
      refine Tri.onErr (E' := fun _ => Heap fun o => match o with | .imageArray => w1 | .firmware => true | _ => false) ?_ fun _ s hs => ?_
      · split
        · refine (heap_alloc (by simp)).conseq (fun _ h => h) (fun _ s h => h.congr ?_) (fun _ _ h => h)
          intro o; cases o <;> simp [held, hx]
        · exact Tri.fail fun s h => h
      · split
        · rename_i hw
          refine Heap.congr (Tri.after (heap_free (E := fun _ _ => False) (by simp [hw])) hs) ?_
          intro o; cases o <;> simp [none']
        · rename_i hw
          refine Heap.congr (L := fun o => match o with | .imageArray => w1 | .firmware => true | _ => false) hs ?_
          intro o; cases o <;> simp [none', hw]
    · rename_i hx
      refine Tri.ret fun s h => h.congr ?_
      intro o; cases o <;> simp [held, hx]
  · refine Heap.congr (Tri.after (heap_free (E := fun _ _ => False) (by simp)) hs) ?_
    intro o
    by_cases e : o = .firmware
    · subst e; simp [none']
    · simp [e]

/-- Only the read/write regions are allocated. -/
def onlyRw (w : Bool) (n : Nat) : Obj → Bool
  | .rwArray => w
  | .rw i => w && decide (i < n)
  | _ => false

theorem finish_heap {w : Bool} {xs : List Entry} {m : M Unit} (h : Tri (Heap (held w xs.length)) m (fun _ => Heap (held w xs.length)) (fun _ => Heap (held w xs.length))) :
    Tri (Heap (held w xs.length)) (finish w xs m) (fun _ => Heap (onlyRw w xs.length)) (fun _ => Heap none') := by
  unfold finish
  refine Tri.always (Q' := fun _ => Heap (held w xs.length)) (E' := fun _ => Heap fun o => match o with | .rwArray => false | .rw _ => false | o => held w xs.length o)
    (Tri.onErr h fun _ s hs => ?_) ?_ ?_
  · unfold doIf
    split
    · rename_i hw
      refine Heap.congr (Tri.after (heap_freeRw (E := fun _ _ => False) (fun i hi => by simp [held, hw, hi]) (by simp [held, hw])) hs) ?_
      intro o
      cases o with
      | rw i => simp [held, hw]
      | _ => rfl
    · rename_i hw
      refine Heap.congr (L := held w xs.length) hs ?_
      intro o
      cases o <;> simp [held, hw]
  · intro _ s hs
    refine Heap.congr (Tri.after (heap_end (E := fun _ _ => False) (fun i => rfl) rfl rfl) hs) ?_
    intro o
    cases o <;> simp [held, onlyRw]
  · intro _ s hs
    refine Heap.congr (Tri.after (heap_end (E := fun _ _ => False) (fun i => rfl) rfl rfl) hs) ?_
    intro o
    cases o <;> simp [held, none']

theorem readBlank_heap {env : Env} {xs : List Entry} {L : Obj → Bool} : Tri (Heap L) (readBlank env xs) (fun _ => Heap L) (fun _ => Heap L) := by
  intro s hs
  unfold readBlank
  cases xs.getLast? with
  | none => exact hs
  | some x =>
    dsimp only
    by_cases h : s.live (.versions (xs.length - 1)) = true
    · rw [if_pos h]; exact hs
    · rw [if_neg h]
      cases env.stale x.version.blank with
      | none => exact hs
      | some b => exact hs

theorem verifyEntries_heap {env : Env} {full w : Bool} {off : Nat} {xs : List Entry} {L : Obj → Bool} :
    Tri (Heap L) (verifyEntries env full w off xs) (fun _ => Heap L) (fun _ => Heap L) := by
  unfold verifyEntries
  split
  · split
    · exact readBlank_heap.bind fun _ => heap_liftOpt
    · exact Tri.fail fun s hs => hs
  · exact heap_lift

end Verif.HostFlash
