/-! Model of `core/common/observable.c`: the linked list of observers at pointer level. Address 0 is NULL. Every function holds the lock
while it works on the list, so calls are atomic. An access to memory that is not allocated is a fault (`none`). -/
namespace Verif.Observable

/-- `struct observable_observer`, observable.h. -/
structure Cell where
  obs : Nat
  next : Nat
deriving DecidableEq, Repr

/-- The memory handed out by `platform_malloc` for list entries. -/
abbrev Mem := Nat → Option Cell

def upd (m : Mem) (a : Nat) (v : Option Cell) : Mem := fun x => if x = a then v else m x

structure State where
  head : Nat
  mem : Mem

/-- `observable_init`, lines 17-33. -/
def init : State := ⟨0, fun _ => none⟩

/-- Where the loop of `observable_add_observer` (lines 94-103) ends: at an entry of this observer, or behind the last entry `prev`. The first
argument bounds the number of iterations; a list that is longer is a fault. -/
inductive AddEnd | found | last (prev : Nat)

def addLoop (m : Mem) (o : Nat) : Nat → Nat → Nat → Option AddEnd
  | 0, _, _ => none
  | n + 1, pos, prev =>
    if pos = 0 then some (.last prev)
    else match m pos with
      | none => none
      | some c => if c.obs = o then some .found else addLoop m o n c.next pos

inductive Err | invalidArgument | noMemory
deriving DecidableEq, Repr

/-- `observable_add_observer`, lines 70-113. `alloc` is what `platform_malloc` returns. -/
def add (n : Nat) (s : State) (o : Nat) (alloc : Option Nat) : Option (State × Option Err) :=
  if o = 0 then some (s, some .invalidArgument)
  else match alloc with
    | none => some (s, some .noMemory)
    | some a =>
      let m := upd s.mem a (some ⟨o, 0⟩)
      if s.head = 0 then some (⟨a, m⟩, none)
      else match addLoop m o n s.head 0 with
        | none => none
        | some .found => some (⟨s.head, upd m a none⟩, none)
        | some (.last p) =>
          match m p with
          | none => none
          | some c => some (⟨s.head, upd m p (some { c with next := a })⟩, none)

/-- `observable_remove_observer`, lines 123-156 (the loop; `prev = 0` is NULL). -/
def removeLoop (s : State) (o : Nat) : Nat → Nat → Nat → Option State
  | 0, _, _ => none
  | n + 1, pos, prev =>
    if pos = 0 then some s
    else match s.mem pos with
      | none => none
      | some c =>
        if c.obs = o then
          if prev = 0 then some ⟨c.next, upd s.mem pos none⟩
          else match s.mem prev with
            | none => none
            | some pc => some ⟨s.head, upd (upd s.mem prev (some { pc with next := c.next })) pos none⟩
        else removeLoop s o n c.next pos

def remove (n : Nat) (s : State) (o : Nat) : Option (State × Option Err) :=
  if o = 0 then some (s, some .invalidArgument)
  else (removeLoop s o n s.head 0).map (·, none)

/-- `FOR_EACH_OBSERVER`, lines 167-189: the observers called. `cb o` says whether the callback of `o` for this event is set. The callbacks
themselves are not part of the model; one that registers or removes an observer would wait for the lock held here. -/
def notifyLoop (m : Mem) (cb : Nat → Bool) : Nat → Nat → Option (List Nat)
  | 0, _ => none
  | n + 1, pos =>
    if pos = 0 then some []
    else match m pos with
      | none => none
      | some c => (notifyLoop m cb n c.next).map (fun l => if cb c.obs then c.obs :: l else l)

def notify (n : Nat) (s : State) (cb : Nat → Bool) : Option (List Nat) := notifyLoop s.mem cb n s.head

/-- `observable_release`, lines 40-52. -/
def release : Nat → State → Option State
  | 0, _ => none
  | n + 1, s =>
    if s.head = 0 then some s
    else match s.mem s.head with
      | none => none
      | some c => release n ⟨c.next, upd s.mem s.head none⟩

end Verif.Observable
