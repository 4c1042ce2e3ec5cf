import Verif.Common.Bytes
/-! Model of `core/memory_mgmt/heap_with_defrag.c` at pointer level, for a 32-bit target: pointers, `size_t` and the four fields of a control
block are 32-bit words, so a control block takes 16 bytes.

Memory is a function from addresses to words. Sums of block sizes are not reduced modulo 2^32 in `place` and `mergeNext`: both blocks lie in the arena, which fits the address space. All addresses used by the allocator are multiples of 4 when the arena is aligned, so distinct
words never overlap. NULL is address 0. Loops over the lists are bounded by `fuel`; running out (a cycle in a list) is the outcome
`none`, which the theorems exclude. -/
namespace Verif.Heap

abbrev Mem := Nat → Nat

/-- A store of one word. -/
def upd (m : Mem) (a v : Nat) : Mem := fun i => if i = a then v else m i

/-- `size_t` arithmetic. -/
def u32 (n : Nat) : Nat := n % 2 ^ 32

/-- The static variables `allocated_list` and `free_list` (heap_with_defrag.c:40,46) and the memory. -/
structure Heap where
  mem : Mem
  alloc : Nat
  free : Nat
  fuel : Nat

/-- `HEAP_WITH_DEFRAG_BLOCK_MAGIC_NUM`, line 10. -/
def magic : Nat := 0xAA920221

/-- `HEAP_WITH_DEFRAG_BLOCK_END`, lines 25-26. -/
def blockEnd (m : Mem) (a : Nat) : Nat := u32 (a + 16 + m (a + 4))

/-- Write `magic`, `size`, `next` and `prev` of a control block (heap_with_defrag.h:24-29). -/
def setHdr (m : Mem) (a mg size next prev : Nat) : Mem := upd (upd (upd (upd m a mg) (a + 4) size) (a + 8) next) (a + 12) prev

/-- `heap_with_defrag_init`, lines 57-71. `none`: invalid argument. -/
def init (m : Mem) (base len : Nat) : Option Heap :=
  if base = 0 ∨ len ≤ 16 then none
  else some ⟨setHdr m base magic (len - 16) 0 0, 0, base, len⟩

/-- Take a node out of a doubly linked list: lines 92-105 for the free list, 245-258 for the allocated list. The second part is the new
head of the list. -/
def unlink (m : Mem) (head a : Nat) : Mem × Nat :=
  if m (a + 12) = 0 then (if m (a + 8) ≠ 0 then upd m (m (a + 8) + 12) 0 else m, m (a + 8))
  else
    let m1 := upd m (m (a + 12) + 8) (m (a + 8))
    (if m1 (a + 8) ≠ 0 then upd m1 (m1 (a + 8) + 12) (m1 (a + 12)) else m1, head)

/-- What the search of `heap_with_defrag_allocate` ends with. -/
inductive Fit | none | exact (r : Nat) | carve (r : Nat)
deriving DecidableEq, Repr

/-- The search of lines 89-124. The outer `none` is a search that does not end. -/
def findFit (m : Mem) (size allocSize : Nat) : Nat → Nat → Option Fit
  | 0, _ => Option.none
  | fuel + 1, r =>
    if r = 0 then some .none
    else if m (r + 4) = size then some (.exact r)
    else if m (r + 4) ≥ allocSize then some (.carve r)
    else findFit m size allocSize fuel (m (r + 8))

/-- Lines 126-139: the block `r` becomes the first of the allocated list. -/
def finish (s : Heap) (r size : Nat) : Heap × Nat :=
  let m := setHdr s.mem r magic size s.alloc 0
  ({ s with mem := if s.alloc ≠ 0 then upd m (s.alloc + 12) r else m, alloc := r }, u32 (r + 16))

/-- `heap_with_defrag_round_to_nearest_dword`, line 35. -/
def round4 (n : Nat) : Nat := u32 (n + 3) / 4 * 4

/-- `heap_with_defrag_allocate`, lines 80-144. The pointer is 0 for NULL. -/
def allocate (s : Heap) (n : Nat) : Option (Heap × Nat) :=
  let size := round4 n
  let allocSize := u32 (size + 16)
  match findFit s.mem size allocSize s.fuel s.free with
  | Option.none => Option.none
  | some .none => some (s, 0)
  | some (.exact r) =>
    let (m, head) := unlink s.mem s.free r
    some (finish { s with mem := m, free := head } r size)
  | some (.carve r) =>
    let m := upd s.mem (r + 4) (s.mem (r + 4) - allocSize)
    some (finish { s with mem := m } (blockEnd m r) size)

/-- The loop of lines 273-275. -/
def findPrev (m : Mem) (a : Nat) : Nat → Nat → Option Nat
  | 0, _ => none
  | fuel + 1, r => if m (r + 8) ≠ 0 ∧ m (r + 8) < a then findPrev m a fuel (m (r + 8)) else some r

/-- What lines 277-301 leave: memory, head of the free list, `free_block`, `runner_next`, `in_free_list`. -/
structure Placed where
  mem : Mem
  head : Nat
  block : Nat
  next : Nat
  inList : Bool

/-- Lines 277-301. -/
def place (m : Mem) (head r a : Nat) : Placed :=
  if r > a then ⟨upd (upd m (a + 8) r) (r + 12) a, a, a, r, true⟩
  else if blockEnd m r = a then
    ⟨setHdr (upd m (r + 4) (m (r + 4) + m (a + 4) + 16)) a 0 0 0 0, head, r, m (r + 8), true⟩
  else ⟨m, head, a, m (r + 8), false⟩

/-- Lines 305-321: the block is combined with the free block behind it. -/
def mergeNext (m : Mem) (b rn : Nat) (inList : Bool) : Mem :=
  let m := upd m (b + 4) (m (b + 4) + m (rn + 4) + 16)
  let m := upd m (b + 8) (m (rn + 8))
  let m := if m (rn + 8) ≠ 0 then upd m (m (rn + 8) + 12) b else m
  let m := if !inList then
      let m := upd m (b + 12) (m (rn + 12))
      upd m (m (rn + 12) + 8) b
    else m
  setHdr m rn 0 0 0 0

/-- Lines 325-331: the block is added to the free list behind `r`. -/
def insertAfter (m : Mem) (r b : Nat) : Mem :=
  let m := upd m (b + 8) (m (r + 8))
  let m := upd m (b + 12) r
  let m := upd m (r + 8) b
  if m (b + 8) ≠ 0 then upd m (m (b + 8) + 12) b else m

/-- Lines 303-332. -/
def combine (r : Nat) (p : Placed) : Mem :=
  if p.next ≠ 0 ∧ blockEnd p.mem p.block = p.next then mergeNext p.mem p.block p.next p.inList
  else if !p.inList then insertAfter p.mem r p.block
  else p.mem

/-- `heap_with_defrag_free`, lines 226-333. -/
def free (s : Heap) (p : Nat) : Option Heap :=
  if p = 0 then some s
  else
    let a := p - 16
    if s.mem a ≠ magic then some s
    else
      let (m, ah) := unlink s.mem s.alloc a
      let m := upd (upd m (a + 8) 0) (a + 12) 0
      if s.free = 0 then some { s with mem := m, alloc := ah, free := a }
      else
        match findPrev m a s.fuel s.free with
        | none => none
        | some r =>
          let pl := place m s.free r a
          some { s with mem := combine r pl, alloc := ah, free := pl.head }

/-- The words `[src, src + 4 k)` copied to `dst`: `memcpy` of whole words. -/
def copyWords (m : Mem) (dst src : Nat) : Nat → Mem
  | 0 => m
  | k + 1 => copyWords (upd m dst (m src)) (dst + 4) (src + 4) k

/-- The words `[dst, dst + 4 k)` set to zero. -/
def zeroWords (m : Mem) (dst : Nat) : Nat → Mem
  | 0 => m
  | k + 1 => zeroWords (upd m dst 0) (dst + 4) k

/-- `heap_with_defrag_allocate_zeroize`, lines 154-164. Memory is zeroed in whole words: a block is a whole number of words. -/
def allocateZero (s : Heap) (num size : Nat) : Option (Heap × Nat) :=
  let total := u32 (num * size)
  match allocate s total with
  | none => none
  | some (s, p) => if p ≠ 0 then some ({ s with mem := zeroWords s.mem p ((total + 3) / 4) }, p) else some (s, p)

/-- `heap_with_defrag_get_block_size`, lines 173-184. -/
def blockSize (m : Mem) (p : Nat) : Nat := if p = 0 then 0 else m (p - 16 + 4)

/-- `heap_with_defrag_reallocate`, lines 194-219. `min (size, old_size)` bytes are copied, in whole words. -/
def reallocate (s : Heap) (p n : Nat) : Option (Heap × Nat) :=
  let old := blockSize s.mem p
  if old = round4 n then some (s, p)
  else
    match allocate s n with
    | none => none
    | some (s, q) =>
      if q = 0 then some (s, 0)
      else if p ≠ 0 then
        match free { s with mem := copyWords s.mem q p ((min n old + 3) / 4) } p with
        | none => none
        | some s => some (s, q)
      else some (s, q)

/-- The counts of `heap_with_defrag_get_stats`, lines 342-371: number and total size of the blocks of a list. -/
def listStats (m : Mem) : Nat → Nat → Option (Nat × Nat)
  | 0, _ => none
  | fuel + 1, r =>
    if r = 0 then some (0, 0) else (listStats m fuel (m (r + 8))).map (fun t => (t.1 + 1, t.2 + m (r + 4)))

end Verif.Heap
