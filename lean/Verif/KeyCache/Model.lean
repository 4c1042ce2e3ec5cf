import Verif.Common.Bytes
/-! Model of `core/keystore/key_cache_flash.c`.

The flash store is a function from block ids to the data stored there (`none`: no valid data). Every call of the store has an outcome chosen
by the environment (missing outcomes of writes count as failures that change nothing); a failed write or erase leaves any content in that block. Every function except `initialize_cache` runs under the lock of
the cache, so calls are atomic. -/
namespace Verif.KeyCache

/-- `enum key_cache_flash_key_status`, key_cache_flash.h:31-35. -/
inductive St | invalid | valid | corrupted
deriving DecidableEq, Repr, Inhabited

/-- `struct key_cache_flash_key_info`, key_cache_flash.h:40-60. `physical_id` has 10 bits. -/
structure Info where
  valid : St
  phys : Nat
  req : Nat
deriving DecidableEq, Repr, Inhabited

/-- The sizes given to `key_cache_flash_init`: sectors, requestors and credits per requestor. -/
structure Cfg where
  sectors : Nat
  requestors : Nat
  credits : Nat

/-- `num_keys`, key_cache_flash.c:648. -/
def Cfg.keys (c : Cfg) : Nat := c.requestors * c.credits + 1

/-- `struct key_cache_flash_state` with the arrays it is used with. -/
structure State where
  info : List Info
  credit : List Nat
  add : Nat
  rem : Nat
  free : Nat
  inited : Bool
  err : Bool
deriving DecidableEq, Repr

abbrev Store := Nat → Option Bytes

def setAt (f : Store) (i : Nat) (v : Option Bytes) : Store := fun j => if j = i then v else f j

/-- The outcome of a write or erase: success, or failure leaving some content behind. -/
inductive Out
  | ok
  | fail (left : Option Bytes)

inductive Err
  | invalidArgument | notInitialized | unavailableStorage | memoryCorrupted | queueFull | queueEmpty | invalidRequestor | invalidRemoveIndex
  | notFoundAtIndex | noCredit | insufficientStorage | storageMismatch | store
deriving DecidableEq, Repr

/-- `KEY_CACHE_FLASH_UNASSIGNED_REQUESTOR_ID`, key_cache_flash.h:17. -/
def unassigned : Nat := 0xffff

/-- `key_cache_flash_increment_queue_index`, lines 22-40, for an index in range (the invariant). -/
def incr (i n : Nat) : Nat := if i < n then (i + 1) % n else 0

/-- `key_cache_flash_decrement_queue_index`, lines 51-72. -/
def decr (i n : Nat) : Nat := if i = 0 then n - 1 else if i < n then i - 1 else 0

/-- `key_cache_flash_try_erase`, lines 82-97. -/
def tryErase (f : Store) (i : Nat) : Out → Store × St
  | .ok => (setAt f i none, .invalid)
  | .fail v => (setAt f i v, .corrupted)

/-- What happens to a block when it is scanned: whether it can be read into memory, and the outcome of the erase if it cannot. -/
structure Scan where
  readable : Bool
  erase : Out

/-- `key_cache_flash_read_key_and_validate_flash_sector`, lines 109-152. A failed length query, allocation or read are one outcome. -/
def validate (f : Store) (i : Nat) (sc : Scan) : Store × St :=
  match f i with
  | none => tryErase f i sc.erase
  | some _ => if sc.readable then (f, .valid) else tryErase f i sc.erase

/-- The loop of lines 374-378. -/
def scanAll (f : Store) (i : Nat) : List Scan → Store × List Info
  | [] => (f, [])
  | sc :: l =>
    let (f, st) := validate f i sc
    let (f, infos) := scanAll f (i + 1) l
    (f, ⟨st, i % 1024, 0⟩ :: infos)

def swap (l : List Info) (i j : Nat) : List Info := (l.set i l[j]!).set j l[i]!

/-- The loop of lines 245-277. -/
def arrangeLoop (l : List Info) (low mid high : Nat) : List Info × Nat × Nat :=
  if mid < high then
    match (l[mid]!).valid with
    | .valid => arrangeLoop (if (l[low]!).valid ≠ (l[mid]!).valid then swap l low mid else l) (low + 1) (mid + 1) high
    | .invalid => arrangeLoop l low (mid + 1) high
    | .corrupted => arrangeLoop (if (l[mid]!).valid ≠ (l[high]!).valid then swap l mid high else l) low mid (high - 1)
  else (l, low, high)
termination_by high - mid

/-- `key_cache_flash_arrange_key_info`, lines 232-307. -/
def arrange (c : Cfg) (s : State) : State :=
  let (l, low, high) := arrangeLoop s.info 0 0 (c.sectors - 1)
  { s with info := l, rem := 0, add := if low ≥ c.keys then c.keys - 1 else low,
           err := s.err || decide (high + 1 < c.keys), free := high }

/-- The loop of lines 391-403: `n` slots starting with `i`, `r` is `requestor_id`. -/
def assign (c : Cfg) (s : State) (i r : Nat) : Nat → State
  | 0 => s
  | n + 1 =>
    let inf := s.info[i]!
    let s := if inf.valid = .valid ∧ s.credit[r]! < c.credits
      then { s with credit := s.credit.set r (s.credit[r]! + 1), info := s.info.set i { inf with req := unassigned } }
      else { s with info := s.info.set i { inf with req := r } }
    assign c s (i + 1) (incr r c.requestors) n

/-- `key_cache_flash_initialize_cache`, lines 361-408. One scan outcome for every sector. -/
def initCache (c : Cfg) (s : State) (f : Store) (scans : List Scan) : State × Store :=
  let (f, infos) := scanAll f 0 scans
  let infos := (infos.zip s.info).map (fun p => { p.1 with req := p.2.req })
  let s := arrange c { s with info := infos }
  ({ assign c s 0 0 c.keys with inited := true }, f)

/-- `key_cache_flash_init` and `key_cache_flash_init_state`, lines 620-694. `blocks` is what the store reports. -/
def init (c : Cfg) (blocks : Nat) : Except Err State :=
  if c.requestors = 0 ∨ c.credits = 0 then .error .invalidArgument
  else if c.sectors < c.keys then .error .insufficientStorage
  else if blocks < c.sectors then .error .storageMismatch
  else .ok ⟨List.replicate c.sectors ⟨.invalid, 0, 0⟩, List.replicate c.requestors 0, 0, 0, 0, false, false⟩

/-- `key_cache_flash_is_full`, lines 333-347. -/
def isFull (c : Cfg) (s : State) : Bool := incr s.add c.keys = s.rem

/-- `key_cache_flash_is_empty`, lines 349-359. -/
def isEmpty (s : State) : Bool := s.add = s.rem

/-- `key_cache_flash_update_key_info_in_flash_error`, lines 160-189. -/
def flashError (c : Cfg) (s : State) (i : Nat) : State :=
  if s.free ≤ c.keys then { s with inited := false }
  else
    let bad := (s.info[i]!).phys
    let new := (s.info[s.free]!).phys
    let l := s.info.set i { s.info[i]! with phys := new }
    { s with info := l.set s.free { l[s.free]! with phys := bad }, free := s.free - 1 }

/-- `key_cache_flash_update_add_index`, lines 197-221. -/
def updateIndex (c : Cfg) (s : State) (r : Nat) : State :=
  let credit := if s.credit[r]! > 0 then s.credit.set r (s.credit[r]! - 1) else s.credit
  let prev := decr s.rem c.keys
  let l := s.info.set prev { s.info[prev]! with req := r }
  let l := l.set s.rem { l[s.rem]! with req := unassigned, valid := .invalid }
  { s with credit := credit, info := l, rem := incr s.rem c.keys }

/-- The write loop of lines 472-477, at most three attempts. -/
def writeRetry (f : Store) (i : Nat) (key : Bytes) : List Out → Nat → Store × Bool
  | _, 0 => (f, false)
  | [], _ => (f, false)
  | .ok :: _, _ + 1 => (setAt f i (some key), true)
  | .fail v :: l, n + 1 => writeRetry (setAt f i v) i key l n

/-- `key_cache_flash_add`, lines 410-504. `outs`: outcomes of the write attempts. -/
def add (c : Cfg) (s : State) (f : Store) (key : Bytes) (outs : List Out) : State × Store × Option Err :=
  if key.length = 0 then (s, f, some .invalidArgument)
  else if s.inited = false then (s, f, some .notInitialized)
  else if s.err then (s, f, some .unavailableStorage)
  else if s.add ≥ c.keys then ({ s with inited := false }, f, some .memoryCorrupted)
  else
    let r := (s.info[s.add]!).req
    if r ≥ c.requestors then ({ s with inited := false }, f, some .memoryCorrupted)
    else
      let p := (s.info[s.add]!).phys
      if p ≥ c.sectors then ({ s with inited := false }, f, some .memoryCorrupted)
      else if isFull c s then (s, f, some .queueFull)
      else
        match writeRetry f p key outs 3 with
        | (f, true) =>
          ({ s with credit := if s.credit[r]! < c.credits then s.credit.set r (s.credit[r]! + 1) else s.credit,
                    info := s.info.set s.add { s.info[s.add]! with req := unassigned, valid := .valid },
                    add := incr s.add c.keys }, f, none)
        | (f, false) => (flashError c s s.add, f, some .store)

/-- `key_cache_flash_remove`, lines 506-599. `readable`: the outcome of the read (which also fails if the buffer of the caller is too
small), `er`: of the erase. The result is the key, or an error. -/
def remove (c : Cfg) (s : State) (f : Store) (r : Nat) (readable : Bool) (er : Out) : State × Store × Except Err Bytes :=
  if s.inited = false then (s, f, .error .notInitialized)
  else if s.err then (s, f, .error .unavailableStorage)
  else if r ≥ c.requestors then (s, f, .error .invalidRequestor)
  else if s.rem > c.keys then ({ s with inited := false }, f, .error .invalidRemoveIndex)
  else if isEmpty s then (s, f, .error .queueEmpty)
  else if (s.info[s.rem]!).valid ≠ .valid then (updateIndex c s r, f, .error .notFoundAtIndex)
  else
    let p := (s.info[s.rem]!).phys
    if p ≥ c.sectors then ({ s with inited := false }, f, .error .memoryCorrupted)
    else if s.credit[r]! = 0 then (s, f, .error .noCredit)
    else
      let res : Except Err Bytes := match f p with
        | some k => if readable then .ok k else .error .store
        | none => .error .store
      let e := tryErase f p er
      let s := if e.2 ≠ .invalid then flashError c s s.rem else s
      (updateIndex c s r, e.1, res)

end Verif.KeyCache
