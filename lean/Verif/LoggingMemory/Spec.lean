import Verif.LoggingMemory.Model
/-! What a log is: the entries made since it was last cleared, of which the newest are kept. -/
namespace Verif.LoggingMemory

/-- Entry number `id` with the given data as it appears in the log: marker, total length, id, data. -/
def encode (id : Nat) (data : Bytes) : Bytes := [0xCB] ++ toLE 2 (7 + data.length) ++ toLE 4 id ++ data

/-- Entries with consecutive ids. -/
def encodeAll (id : Nat) : List Bytes → List Bytes
  | [] => []
  | d :: ds => encode id d :: encodeAll (id + 1) ds

/-- The last `n` elements. -/
def newest {α : Type} (n : Nat) (l : List α) : List α := l.drop (l.length - n)

/-- What can be done to a log. -/
inductive Op
  | create (data : Bytes)
  | clear

/-- The id of the oldest entry since the last clear, and the data of all entries since then. Entries of the wrong length are refused. -/
def history (len : Nat) : List Op → Nat × List Bytes → Nat × List Bytes
  | [], h => h
  | .create d :: ops, (id, ds) => history len ops (id, if d.length = len then ds ++ [d] else ds)
  | .clear :: ops, (id, ds) => history len ops (id + ds.length, [])

/-- The operations on the code; a refused entry leaves the log as it is. -/
def run (cfg : Cfg) (l : Log) : List Op → R Log
  | [] => .ok l
  | .create d :: ops =>
    match create cfg l d with
    | .ok l => run cfg l ops
    | .err _ => run cfg l ops
    | .oob => .oob
  | .clear :: ops => do run cfg (← clear cfg l) ops

/-- No slot of the buffer looks like a log entry. -/
def Blank (entrySize : Nat) (buf : Bytes) : Prop := ∀ j b, buf[j * entrySize]? = some b → isEntryStart b = false

end Verif.LoggingMemory
