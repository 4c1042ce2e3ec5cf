import Verif.Common.Bytes
/-! Storage for a TPM, `core/tpm/tpm.c`, on a flash store with one block for the header and one for each segment. -/
namespace Verif.Tpm

/-- `struct tpm_header`, tpm.h:33-38. The bytes of the block behind the header and the format id, which nothing reads, are left out; blocks are assumed to have room for the header. -/
structure Header where
  magic : Nat
  counter : Nat
  clear : Nat
  deriving DecidableEq, Repr

/-- The flash store: `none` is a block without valid data. `writes` is the number of writes of the current operation, `up` is false once the power was lost during it. -/
structure Store where
  head : Option Header
  segs : List (Option Bytes)
  size : Nat
  writes : Nat
  up : Bool
  deriving DecidableEq, Repr

/-- What happens to one write. -/
inductive Write
  | ok
  /-- An error that leaves the block as it was. -/
  | fail (code : Nat)
  /-- An error that leaves the block without valid data. -/
  | spoil (code : Nat)
  /-- The power is lost; the block is as before or, if `torn`, without valid data. -/
  | crash (torn : Bool)
  deriving DecidableEq, Repr

/-- The faults of one operation: an error of the read of the header other than missing or corrupt data, an error of the query for the number of blocks, and the results of the writes. -/
structure Faults where
  read : Option Nat
  num : Option Nat
  write : Nat → Write

/-- Which block is written. -/
inductive Target
  | head (h : Header)
  | seg (i : Nat) (d : Bytes)

/-- The block is written. -/
def put (s : Store) : Target → Store
  | .head h => { s with head := some h }
  | .seg i d => { s with segs := s.segs.set i (some d) }

/-- The block loses its data. -/
def spoil (s : Store) : Target → Store
  | .head _ => { s with head := none }
  | .seg i _ => { s with segs := s.segs.set i none }

/-- `write` of the flash store: status and store. Nothing is written once the power is lost. -/
def write (f : Faults) (s : Store) (t : Target) : Nat × Store :=
  if s.up then
    let s' := { s with writes := s.writes + 1 }
    match f.write s.writes with
    | .ok => (0, put s' t)
    | .fail e => (e + 1, s')
    | .spoil e => (e + 1, spoil s' t)
    | .crash torn => (1, { (if torn then spoil s' t else s') with up := false })
  else (1, s)

/-- TPM_MAGIC, tpm.h:26. -/
def magic : Nat := 0xACFE

/-- The header that `tpm_init_header` makes, tpm.c:59-61. -/
def freshHeader : Header := { magic := magic, counter := 0, clear := 0 }

/-- The loop over the segments, tpm.c:44-52, for the segments `n`, …, 1 of the store, here number `n - 1`, …, 0. The last status that is not 0. -/
def eraseLoop (f : Faults) : Nat → Nat → Store → Nat × Store
  | 0, st, s => (st, s)
  | n + 1, st, s =>
    let (r, s) := write f s (.seg n (List.replicate s.size 0xff))
    eraseLoop f n (if r ≠ 0 then r else st) s

/-- `tpm_init_header`, tpm.c:28-71: status, header in the buffer (`none`: not changed) and store. Logging is left out. -/
def initHeader (f : Faults) (s : Store) (clear doWrite : Bool) : Nat × Option Header × Store :=
  match (if clear then f.num else none) with
  | some e => (e + 1, none, s)
  | none =>
    let (erase, s) := if clear then eraseLoop f s.segs.length 0 s else (0, s)
    if doWrite then
      let (r, s) := write f s (.head freshHeader)
      if r ≠ 0 then (r, some freshHeader, s) else (erase, some freshHeader, s)
    else (erase, some freshHeader, s)

/-- `tpm_read_header`, tpm.c:83-130, with `init`: status, header in the buffer and store. -/
def readHeaderInit (f : Faults) (s : Store) (doWrite : Bool) : Nat × Header × Store :=
  match f.read, s.head with
  | none, some h =>
    if h.magic ≠ magic then
      let (r, _, s) := initHeader f s false doWrite
      (r, freshHeader, s)
    else (0, h, s)
  | _, _ =>
    let (r, _, s) := initHeader f s false doWrite
    (r, freshHeader, s)

/-- `tpm_init_state`, tpm.c:346-375, and `tpm_on_soft_reset`, tpm.c:137-163, which is the same without a result. The checks of the sizes are left out. -/
def start (f : Faults) (s : Store) : Nat × Store :=
  let (r, h, s) := readHeaderInit f s true
  if r ≠ 0 then (r, s)
  else if h.clear = 1 then
    let (r, _, s) := initHeader f s true true
    (r, s)
  else (0, s)

/-- `tpm_schedule_clear`, tpm.c:172-196. -/
def scheduleClear (f : Faults) (s : Store) : Nat × Store :=
  let (r, h, s) := readHeaderInit f s false
  if r ≠ 0 then (r, s)
  else if h.clear ≠ 1 then write f s (.head { h with clear := 1 })
  else (0, s)

/-- `tpm_increment_counter`, tpm.c:205-223. -/
def increment (f : Faults) (s : Store) : Nat × Store :=
  let (r, h, s) := readHeaderInit f s false
  if r ≠ 0 then (r, s)
  else write f s (.head { h with counter := (h.counter + 1) % 2 ^ 64 })

/-- `tpm_get_counter`, tpm.c:233-251; `none` is an error. -/
def getCounter (f : Faults) (s : Store) : Option Nat :=
  match f.read, s.head with
  | none, some h => if h.magic ≠ magic then none else some h.counter
  | _, _ => none

/-- `tpm_set_storage`, tpm.c:263-270. A segment that does not exist is refused by the flash store. -/
def setStorage (f : Faults) (s : Store) (i : Nat) (d : Bytes) : Nat × Store :=
  if i < s.segs.length then write f s (.seg i d) else (1, s)

/-- `tpm_get_storage`, tpm.c:285-308; `none` is an error. -/
def getStorage (f : Faults) (s : Store) (i len : Nat) (mask : Bool) : Option Bytes :=
  if f.read ≠ none ∨ ¬ i < s.segs.length then none
  else match (s.segs[i]?).join with
    | some d => some (d.take len)
    | none => if mask then some (List.replicate len 0xff) else none

/-- The operations that change the store. -/
inductive Op
  | start
  | scheduleClear
  | increment
  | setStorage (i : Nat) (d : Bytes)
  deriving DecidableEq, Repr

/-- One operation with its faults. The store is then up again: if the power was lost the next operation of the history is the one after the boot. -/
def step (s : Store) (of : Op × Faults) : Nat × Store :=
  let s := { s with writes := 0, up := true }
  match of.1 with
  | .start => start of.2 s
  | .scheduleClear => scheduleClear of.2 s
  | .increment => increment of.2 s
  | .setStorage i d => setStorage of.2 s i d

end Verif.Tpm
