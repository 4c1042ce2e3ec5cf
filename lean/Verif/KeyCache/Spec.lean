import Verif.KeyCache.Model
/-! What a key cache is for: a bounded queue of keys, each of which is handed out once. -/
namespace Verif.KeyCache

/-- A call. The environment's part (outcomes of the flash operations) is part of the call. -/
inductive Op
  | add (key : Bytes) (outs : List Out)
  | remove (r : Nat) (readable : Bool) (er : Out)

inductive Result
  | added
  | got (key : Bytes)
  | failed (e : Err)
deriving DecidableEq

/-- One call. -/
def step (c : Cfg) (s : State) (f : Store) : Op → State × Store × Result
  | .add key outs => ((add c s f key outs).1, (add c s f key outs).2.1, match (add c s f key outs).2.2 with | none => .added | some e => .failed e)
  | .remove r readable er => ((remove c s f r readable er).1, (remove c s f r readable er).2.1,
      match (remove c s f r readable er).2.2 with | .ok k => .got k | .error e => .failed e)

/-- The results of a sequence of calls. -/
def results (c : Cfg) (s : State) (f : Store) : List Op → List Result
  | [] => []
  | op :: l => (step c s f op).2.2 :: results c (step c s f op).1 (step c s f op).2.1 l

/-- What may happen to a bounded queue of keys in one call with a given result. `none` stands for a cache that went out of service. -/
def Moves (cap : Nat) : Option (List Bytes) → Op → Result → Option (List Bytes) → Prop
  | none, _, .failed _, q => q = none
  | some Q, .add k _, .added, q => q = some (Q ++ [k]) ∧ Q.length < cap
  | some Q, .add _ _, .failed e, some Q' => Q' = Q ∧ (e = .queueFull → Q.length = cap)
  | some Q, .add _ _, .failed e, none => e = .store ∨ Q.length = cap
  | some Q, .remove _ _ _, .got k, some Q' => Q = k :: Q'
  | some Q, .remove _ _ _, .got k, none => Q.head? = some k
  | some Q, .remove _ readable _, .failed e, some Q' => (e ≠ .store ∧ Q' = Q ∧ (e = .queueEmpty → Q = [])) ∨ (readable = false ∧ e = .store ∧ Q ≠ [] ∧ Q' = Q.tail)
  | some _, .remove _ readable _, .failed e, none => readable = false ∧ e = .store
  | _, _, _, _ => False

/-- A sequence of calls and results a bounded queue allows. -/
def Allowed (cap : Nat) : Option (List Bytes) → List Op → List Result → Prop
  | _, [], [] => True
  | q, op :: l, r :: rs => ∃ q', Moves cap q op r q' ∧ Allowed cap q' l rs
  | _, _, _ => False

/-- The keys handed out. -/
def handed : List Result → List Bytes
  | [] => []
  | .got k :: l => k :: handed l
  | _ :: l => handed l

/-- The keys accepted. -/
def accepted : List Op → List Result → List Bytes
  | .add k _ :: l, .added :: rs => k :: accepted l rs
  | _ :: l, _ :: rs => accepted l rs
  | _, _ => []

/-- Calls, and the two ways the flash is scanned again: on the running cache, and after a reset. -/
inductive Event
  | call (op : Op)
  | rescan (scans : List Scan)
  | restart (scans : List Scan)

def event (c : Cfg) (s : State) (f : Store) : Event → State × Store × Option Result
  | .call op => ((step c s f op).1, (step c s f op).2.1, some (step c s f op).2.2)
  | .rescan scans => ((initCache c s f scans).1, (initCache c s f scans).2, none)
  | .restart scans =>
    match init c c.sectors with
    | .ok s0 => ((initCache c s0 f scans).1, (initCache c s0 f scans).2, none)
    | .error _ => (s, f, none)

def handed1 : Option Result → List Bytes
  | some (.got k) => [k]
  | _ => []

/-- The keys handed out over a life of the device. -/
def lifeHanded (c : Cfg) (s : State) (f : Store) : List Event → List Bytes
  | [] => []
  | e :: l => handed1 (event c s f e).2.2 ++ lifeHanded c (event c s f e).1 (event c s f e).2.1 l

/-- The keys offered to the cache. -/
def offered : List Event → List Bytes
  | [] => []
  | .call (.add k _) :: l => k :: offered l
  | _ :: l => offered l

/-- Flash in which erasing works, and a failed write leaves either nothing or the key. -/
def Event.reliable : Event → Prop
  | .call (.add k outs) => ∀ o ∈ outs, o = .ok ∨ o = .fail none ∨ o = .fail (some k)
  | .call (.remove _ _ er) => er = .ok
  | .rescan scans => ∀ sc ∈ scans, sc.erase = .ok
  | .restart scans => ∀ sc ∈ scans, sc.erase = .ok

/-- A sector can be used if it holds a readable key or can be erased. -/
def usable (f : Store) (i : Nat) (sc : Scan) : Bool :=
  (f i).isSome && sc.readable || (match sc.erase with | .ok => true | .fail _ => false)

/-- The number of usable sectors, starting with sector `i`. -/
def usableCount (f : Store) (i : Nat) : List Scan → Nat
  | [] => 0
  | sc :: l => (if usable f i sc then 1 else 0) + usableCount f (i + 1) l

end Verif.KeyCache
