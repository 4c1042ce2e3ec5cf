import Verif.FlashStore.Model
/-! What a block of the store should contain, and what a properly set up store is. -/
namespace Verif.FlashStore
open Flash (Dev FS Mem bytesAt u32)

/-- The content of a block: header (variable length storage only), data, appended data. -/
def image (st : Store) (d x : Bytes) : Bytes := (if st.varLen then st.header d.length else []) ++ d ++ x

/-- A store set up for `extra` appended bytes whose blocks lie in the 32-bit address space. -/
structure Store.OK (st : Store) (sector extra : Nat) : Prop where
  sectorPos : 0 < sector
  size : 0 < st.blockSize
  sizeAligned : st.blockSize % sector = 0
  baseAligned : st.base % sector = 0
  up : st.decreasing = false → st.base + st.blockSize * st.blocks < 2 ^ 32
  down : st.decreasing = true → st.blockSize * (st.blocks - 1) ≤ st.base ∧ st.base + st.blockSize < 2 ^ 32
  room : (if st.varLen then 4 else 0) + st.maxSize + extra ≤ st.blockSize
  max : st.varLen = true → st.maxSize ≤ 65535
  page : ∀ p, st.page = some p → 4 < p

/-- Where block `id` starts: growing up or down from the base address. -/
def Store.start (st : Store) (id : Nat) : Nat := if st.decreasing then st.base - id * st.blockSize else st.base + id * st.blockSize

/-- Length-only headers: the length does not look like the marker of the newer header. -/
def NotAmbiguous (st : Store) (len : Nat) : Prop := st.varLen = true → st.oldHeader = true → len / 256 ≠ 0xa5

/-- How a variant of the store turns data into what is kept in flash: the data part and the appended part. -/
abbrev Pack := Bytes → Option (Bytes × Bytes)

/-- What a variant produces from data the store accepts fits in a block. -/
def Fits (st : Store) (extra : Nat) (pack : Pack) : Prop :=
  ∀ d b x, 0 < d.length → d.length ≤ st.maxSize - st.overhead → pack d = some (b, x) →
    0 < b.length ∧ b.length ≤ st.maxSize ∧ x.length ≤ extra

/-- Operations on a store. Each write has its own `pack`, since for instance the IV differs from write to write. -/
inductive Op
  | write (id : Nat) (d : Bytes) (pack : Pack)
  | erase (id : Nat)

/-- The block an operation is for. -/
def Op.id : Op → Nat
  | .write id _ _ => id
  | .erase id => id

/-- What is written fits in a block. -/
def Op.Fits (st : Store) (extra : Nat) : Op → Prop
  | .write _ _ pack => FlashStore.Fits st extra pack
  | .erase _ => True

/-- The flash after an operation, whatever its result. -/
def step (dv : Dev) (st : Store) (s : FS) : Op → FS
  | .write id d pack => (writeSealed pack dv st s id d).2
  | .erase id => (erase dv st s id).2

/-- Operations on blocks other than `id`. -/
def Others (st : Store) (extra id : Nat) (ops : List Op) : Prop := ∀ o ∈ ops, o.id ≠ id ∧ o.Fits st extra

end Verif.FlashStore
