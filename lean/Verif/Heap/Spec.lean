import Verif.Heap.Model
/-! What a user of the heap sees: the blocks that are live, and their contents. -/
namespace Verif.Heap

/-- The live blocks: pointer and requested size. -/
abbrev Live := List (Nat × Nat)

inductive Op
  | alloc (n : Nat)
  | calloc (num size : Nat)
  | free (p : Nat)
  | realloc (p n : Nat)
  | write (y v : Nat)

/-- One call. A block is live from the call that returns it until it is given back. `write` is a store of the user into its own block. -/
def step (s : Heap) (L : Live) : Op → Option (Heap × Live)
  | .alloc n => (allocate s n).map (fun r => (r.1, if r.2 = 0 then L else (r.2, n) :: L))
  | .calloc num size => (allocateZero s num size).map (fun r => (r.1, if r.2 = 0 then L else (r.2, num * size) :: L))
  | .free p => (free s p).map (fun s' => (s', L.filter (fun b => b.1 ≠ p)))
  | .realloc p n => (reallocate s p n).map (fun r => (r.1, if r.2 = 0 then L else (r.2, n) :: L.filter (fun b => b.1 ≠ p)))
  | .write y v => some ({ s with mem := upd s.mem y v }, L)

/-- The size of the memory a block takes: the next multiple of 4. -/
def up4 (n : Nat) : Nat := (n + 3) / 4 * 4

/-- What a correct user does: give back only live blocks, write only into live blocks, and ask for less than 4 GiB - 20. -/
def Op.legal (L : Live) : Op → Prop
  | .alloc n => n + 20 ≤ 2 ^ 32
  | .calloc num size => num * size + 20 ≤ 2 ^ 32
  | .free p => p = 0 ∨ ∃ n, (p, n) ∈ L
  | .realloc p n => n + 20 ≤ 2 ^ 32 ∧ (p = 0 ∨ ∃ k, (p, k) ∈ L)
  | .write y _ => y % 4 = 0 ∧ ∃ b ∈ L, b.1 ≤ y ∧ y < b.1 + up4 b.2

/-- Histories of legal calls. -/
inductive Reach (s0 : Heap) : Heap → Live → Prop
  | init : Reach s0 s0 []
  | step {s s' : Heap} {L L' : Live} {o : Op} (h : Reach s0 s L) (hl : o.legal L) (hs : step s L o = some (s', L')) : Reach s0 s' L'

/-- Two blocks do not share a byte. -/
def Disjoint (b c : Nat × Nat) : Prop := b.1 + b.2 ≤ c.1 ∨ c.1 + c.2 ≤ b.1

end Verif.Heap
