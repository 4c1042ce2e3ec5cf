import Verif.Common.Res
import Verif.BufferUtil.Model
/-! Model of `core/logging/logging_memory.c`. -/
namespace Verif.LoggingMemory

/-- `LOGGING_INVALID_ARGUMENT`, `LOGGING_BAD_ENTRY_LENGTH`, `LOGGING_INSUFFICIENT_STORAGE`, and an error of another log. -/
inductive Err | badEntryLength | insufficientStorage | invalidArgument | dest
deriving DecidableEq, Repr

abbrev R := Res Err

/-- `sizeof (struct logging_entry_header)`, logging.h:34-38 (packed). -/
def hdrLen : Nat := 7

/-- `LOGGING_IS_ENTRY_START`, logging.h:20. -/
def isEntryStart (b : UInt8) : Bool := b.toNat / 16 == 0xC

/-- The constant part of `struct logging_memory`, as set up at logging_memory.c:196-201. -/
structure Cfg where
  size : Nat
  entrySize : Nat

/-- The log buffer and `struct logging_memory_state`. -/
structure Log where
  buf : Bytes
  start : Nat := 0
  end_ : Nat := 0
  next : Nat := 0
  full : Bool := false
deriving DecidableEq, Repr

/-- The entry header, logging_memory.c:27-29, logging.h:34-38. -/
def header (length id : Nat) : Bytes := [0xCB] ++ toLE 2 (hdrLen + length) ++ toLE 4 id

/-- `logging_memory_create_entry`, logging_memory.c:12-48. `next_entry_id` is 32 bits. -/
def create (cfg : Cfg) (l : Log) (entry : Bytes) : R Log := do
  if entry.length ≠ cfg.entrySize - hdrLen then .err .badEntryLength
  else
    let buf ← wrN l.buf l.end_ (header entry.length l.next)
    let buf ← wrN buf (l.end_ + hdrLen) entry
    let e := l.end_ + hdrLen + entry.length
    let (e, full) := if e = cfg.size then (0, true) else (e, l.full)
    return { buf := buf, start := if full then e else l.start, end_ := e, next := (l.next + 1) % 2 ^ 32, full := full }

/-- `logging_memory_clear`, logging_memory.c:59-77. -/
def clear (cfg : Cfg) (l : Log) : R Log := do
  let buf ← wrN l.buf 0 (List.replicate cfg.size 0)
  return { l with buf := buf, start := 0, end_ := 0, full := false }

/-- `logging_memory_get_size`, logging_memory.c:79-102. -/
def getSize (cfg : Cfg) (l : Log) : Nat :=
  if l.end_ ≠ l.start ∨ l.full = true then
    if l.end_ = l.start then cfg.size else l.end_
  else 0

/-- `logging_memory_read_contents`, logging_memory.c:104-129. -/
def readContents (cfg : Cfg) (l : Log) (offset length : Nat) : R Bytes := do
  if l.end_ ≠ l.start ∨ l.full = true then
    let second ← rdN l.buf 0 l.end_
    if l.end_ = l.start then
      let first ← rdN l.buf l.start (cfg.size - l.start)
      return (BufferUtil.copyAll [first, second] ⟨offset, length, []⟩).out
    else return (BufferUtil.copyAll [second] ⟨offset, length, []⟩).out
  else return []

/-- `logging_memory_init_from_buffer` and `logging_memory_init_state`, logging_memory.c:187-214, 333-346. -/
def init (buf : Bytes) (entryLength : Nat) : R (Cfg × Log) :=
  let entrySize := entryLength + hdrLen
  let size := buf.length - buf.length % entrySize
  if entryLength = 0 then .err .invalidArgument
  else if size < entrySize then .err .insufficientStorage
  else .ok ({ size, entrySize }, { buf })

/-- The loop of `logging_memory_find_last_entry`, logging_memory.c:226-238. Returns the end of the log, the next id and whether older
entries follow. -/
def findLoop (cfg : Cfg) (buf : Bytes) (end_ next : Nat) (prev : Bool) : R (Nat × Nat × Bool) :=
  if he : end_ = cfg.size then .ok (end_, next, false)
  else if hs : cfg.size < end_ ∨ cfg.entrySize = 0 then .oob
  else do
    let magic ← rd buf end_
    if isEntryStart magic then
      let idBytes ← rdN buf (end_ + 3) 4
      if prev = true ∧ leNat idBytes ≠ next then .ok (end_, next, true)
      else findLoop cfg buf (end_ + cfg.entrySize) ((leNat idBytes + 1) % 2 ^ 32) true
    else .ok (end_, next, false)
termination_by cfg.size - end_

/-- `logging_memory_find_last_entry`, logging_memory.c:221-244. -/
def findLast (cfg : Cfg) (buf : Bytes) : R Log := do
  let (e, next, older) ← findLoop cfg buf 0 0 false
  if e = cfg.size then return { buf := buf, start := if older then e else 0, end_ := 0, next := next, full := true }
  else return { buf := buf, start := if older then e else 0, end_ := e, next := next, full := older }

/-- `logging_memory_init_append_existing`, logging_memory.c:268-281. -/
def initAppend (buf : Bytes) (entryLength : Nat) : R (Cfg × Log) := do
  let (cfg, l) ← init buf entryLength
  let l ← findLast cfg l.buf
  return (cfg, l)

/-- The loop of `logging_memory_copy_entries`, logging_memory.c:416-429. `accept` is the destination's result for an entry, `sent` what it
was given. The loop is given `fuel` iterations; `none` if it needs more. -/
def copyLoop (cfg : Cfg) (l : Log) (accept : Bytes → Bool) : (fuel pos : Nat) → (sent : List Bytes) → Option (R (List Bytes))
  | 0, _, _ => none
  | fuel + 1, pos, sent =>
    match (rdN l.buf (pos + 1) 2 : R Bytes) with
    | .oob => some .oob
    | .err e => some (.err e)
    | .ok lenBytes =>
      match (rdN l.buf (pos + hdrLen) (leNat lenBytes - hdrLen) : R Bytes) with
      | .oob => some .oob
      | .err e => some (.err e)
      | .ok entry =>
        if accept entry then
          let pos := if pos + leNat lenBytes ≥ cfg.size then 0 else pos + leNat lenBytes
          if pos = l.end_ then some (.ok (sent ++ [entry])) else copyLoop cfg l accept fuel pos (sent ++ [entry])
        else some (.err .dest)

/-- `logging_memory_copy_entries`, logging_memory.c:399-436. -/
def copyEntries (cfg : Cfg) (l : Log) (accept : Bytes → Bool) (fuel : Nat) : Option (R (List Bytes)) :=
  if l.start ≠ l.end_ ∨ l.full = true then copyLoop cfg l accept fuel l.start []
  else some (.ok [])

end Verif.LoggingMemory
