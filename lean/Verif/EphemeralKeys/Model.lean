import Verif.EphemeralKeys.Spec
/-! Model of `core/keystore/ephemeral_key_manager.c`. The key cache is modelled by its contract (`core/keystore/key_cache.h:17-94`; the
flash implementation is the subject of `Verif.KeyCache`): a bounded queue each of whose calls can fail without effect, and whose
preparation keeps the keys. The order of the keys is an assumption: the contract does not mention it. Every event
carries the answers of the other parties, so that all failures are covered. NULL arguments are not modelled. -/
namespace Verif.EphemeralKeys
open Spec (Did)

/-- The key cache, key_cache.h:17-94. -/
structure Cache where
  error : Bool
  ready : Bool
  capacity : Nat
  keys : List Bytes
deriving DecidableEq, Repr

/-- `is_full`, key_cache.h:39-46. -/
def Cache.full (c : Cache) : Bool := decide (c.capacity ≤ c.keys.length)

/-- The answers during one execution: the new timeout if it can be made, and the results of `initialize_cache`, `generate_key` and
`add`. -/
structure Answers where
  timer : Option Nat
  init : Int
  gen : Int ⊕ Bytes
  add : Int
deriving DecidableEq, Repr

/-- The manager: the cache, the time of the next execution (`next` with `next_valid`, ephemeral_key_manager.h:20-23) and the temporary
buffer. `generate_key` is taken to leave the buffer unchanged when it fails. -/
structure St where
  cache : Cache
  next : Option Nat
  buf : Bytes
deriving DecidableEq, Repr

/-- `ephemeral_key_manager_schedule_next_execute`, ephemeral_key_manager.c:18-27. -/
def schedule (s : St) (a : Answers) : St := { s with next := a.timer }

/-- `ephemeral_key_manager_get_next_execution`, ephemeral_key_manager.c:29-42: `none` is NULL, no wait. -/
def getNext (s : St) : Option Nat := s.next

/-- `ephemeral_key_manager_execute`, ephemeral_key_manager.c:44-102. Log entries are the failures in the result. -/
def execute (s : St) (a : Answers) : Did × St :=
  if s.cache.error = false then
    if s.cache.ready = false then
      if a.init ≠ 0 then (.prepareFailed a.init, schedule s a)
      else (.prepared, { s with cache := { s.cache with ready := true }, next := none })
    else if s.cache.full = false then
      match a.gen with
      | .inr k =>
        if a.add ≠ 0 then (.storeFailed k a.add, { s with buf := k, next := none })
        else (.stored k, { cache := { s.cache with keys := s.cache.keys ++ [k] }, buf := k, next := none })
      | .inl e => (.generateFailed e, { s with next := none })
    else (.waited, schedule s a)
  else (.waited, schedule s a)

/-- `ephemeral_key_manager_get_key`, ephemeral_key_manager.c:188-201, with `remove` of the cache (key_cache.h:78-93): `refuse` stands for
its failures, among them a missing credit and a small buffer. -/
def getKey (s : St) (refuse : Bool) : Did × St :=
  if s.cache.error || !s.cache.ready || refuse then (.gaveNone, s)
  else match s.cache.keys with
    | [] => (.gaveNone, s)
    | k :: ks => (.gave k, { s with cache := { s.cache with keys := ks } })

/-- Events. -/
inductive Event where
  | execute (a : Answers)
  | getKey (refuse : Bool)

/-- One event. -/
def step (s : St) : Event → Did × St
  | .execute a => execute s a
  | .getKey r => getKey s r

/-- A history of events. -/
def run : St → List Event → List Did × St
  | s, [] => ([], s)
  | s, e :: es =>
    let r := step s e
    let t := run r.2 es
    (r.1 :: t.1, t.2)

/-- The state after `ephemeral_key_manager_init`, ephemeral_key_manager.c:119-165: the first execution does not wait. -/
def init (c : Cache) (buf : Bytes) : St := ⟨c, none, buf⟩

end Verif.EphemeralKeys
