import Verif.Common.Bytes
/-! Model of `core/common/buffer_util.c`. -/
namespace Verif.BufferUtil

/-- The cursor a sequence of `buffer_copy` calls shares: `*offset`, `*dest_length` and the bytes that have been
stored through `dest` so far (callers advance `dest` by the returned count). -/
structure Cursor where
  offset : Nat
  destLength : Nat
  out : Bytes
deriving DecidableEq, Repr

/-- `buffer_copy`, buffer_util.c:25-63, with non-NULL `dest`, `offset` and `dest_length`. Returns the
number of bytes copied. `dest` is advanced by that number, as all callers do. -/
def bufferCopy (src : Bytes) (c : Cursor) : Nat × Cursor :=
  if src.length = 0 then (0, c)
  else if c.offset ≥ src.length then (0, { c with offset := c.offset - src.length })
  else
    let bytes := min (src.length - c.offset) c.destLength
    (bytes, { offset := 0, destLength := c.destLength - bytes, out := c.out ++ (src.drop c.offset).take bytes })

/-- A caller that emits pieces one after another (the idiom of the PCR logs and of the command handlers). -/
def copyAll (pieces : List Bytes) (c : Cursor) : Cursor := pieces.foldl (fun c p => (bufferCopy p c).2) c

/-- The loop of `buffer_reverse`, buffer_util.c:78-82: `n` iterations left, indices `i`, `j`. -/
def reverseLoop : (n i j : Nat) → Bytes → Bytes
  | 0, _, _, l => l
  | n + 1, i, j, l =>
    let temp := l.getD i 0
    let l := l.set i (l.getD j 0)
    reverseLoop n (i + 1) (j - 1) (l.set j temp)

/-- `buffer_reverse`, buffer_util.c:71-84 (non-NULL). -/
def reverse (l : Bytes) : Bytes := reverseLoop (l.length / 2) 0 (l.length - 1) l

/-- The loop at buffer_util.c:105-107. -/
def reverseCopyLoop (src : Bytes) : (n i j : Nat) → Bytes → Bytes
  | 0, _, _, dest => dest
  | n + 1, i, j, dest => reverseCopyLoop src n (i + 1) (j - 1) (dest.set i (src.getD j 0))

/-- `buffer_reverse_copy`, buffer_util.c:99-109 (non-NULL, `dest` has at least `length` bytes). -/
def reverseCopy (dest src : Bytes) : Bytes := reverseCopyLoop src src.length 0 (src.length - 1) dest

/-- One memory access of the comparison: which buffer, which index. -/
inductive Access | buf1 (i : Nat) | buf2 (i : Nat)
deriving DecidableEq, Repr

/-- The loop of `buffer_compare`, buffer_util.c:173-177, also recording the memory accesses. The
buffers are functions from index to byte. -/
def compareLoop (b1 b2 : Nat → UInt8) : (n i : Nat) → (mat : UInt8) → List Access → UInt8 × List Access
  | 0, _, m, t => (m, t)
  | n + 1, i, m, t =>
    let check := b1 i ^^^ 0xff
    let check := check ^^^ b2 i
    compareLoop b1 b2 n (i + 1) (m &&& check) (t ++ [.buf1 i, .buf2 i])

/-- `buffer_compare`, buffer_util.c:159-180, non-NULL buffers. `true` is the return value 0; the second
component is the trace of memory accesses. -/
def compare (b1 b2 : Nat → UInt8) (length : Nat) : Bool × List Access :=
  let (m, t) := compareLoop b1 b2 length 0 0xff []
  (m == 0xff, t)

/-- `buffer_compare` with the NULL cases, buffer_util.c:165-171: `none` is NULL. -/
def compareNull (b1 b2 : Option (Nat → UInt8)) (length : Nat) : Bool :=
  match b1, b2 with
  | some a, some b => (compare a b length).1
  | none, none => length == 0
  | _, _ => false

end Verif.BufferUtil
