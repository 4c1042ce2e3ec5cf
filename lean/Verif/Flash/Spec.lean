import Verif.Flash.Lemmas
/-! Vocabulary for the statements about flash: histories of an updater. -/
namespace Verif.Flash

/-- Two address ranges of the same length share an erase block. -/
def ShareBlock (block a b len : Nat) : Prop := ∃ i j, i < len ∧ j < len ∧ (a + i) / block = (b + j) / block

/-- What can be done with an updater. -/
inductive UpdOp
  | prepare (len : Nat)           -- flash_updater_prepare_for_update
  | prepareAll (len : Nat)        -- flash_updater_prepare_for_update_erase_all
  | data (d : Bytes)              -- flash_updater_write_update_data
  | offset (n : Nat)              -- flash_updater_apply_update_offset

/-- One call. -/
def updStep (w : Nat) (dv : Dev) (u : Updater) (s : FS) : UpdOp → Status × Updater × FS
  | .prepare len => prepare dv u s len len
  | .prepareAll len => prepare dv u s len u.maxSize
  | .data d => writeUpdate w dv u s d
  | .offset n => (.ok, applyOffset w u n, s)

/-- Everything that can be done with an updater created for `[base, base + size)`. The caller's buffers fit the address space of the
processor and an offset applied to the region lies within it. `prepared` is the length given to the last successful prepare. -/
inductive UpdReach (w : Nat) (dv : Dev) (base size eraseSize : Nat) (m : Mem) : Updater → FS → (prepared : Nat) → Prop
  | init : UpdReach w dv base size eraseSize m ⟨base, size, eraseSize, 0, 0⟩ ⟨m, 0⟩ 0
  | prep (u u' : Updater) (s s' : FS) (p : Nat) (op : UpdOp) (len : Nat) (st : Status) : UpdReach w dv base size eraseSize m u s p →
      (op = .prepare len ∨ op = .prepareAll len) → updStep w dv u s op = (st, u', s') →
      UpdReach w dv base size eraseSize m u' s' (if st = .ok then len else p)
  | data (u u' : Updater) (s s' : FS) (p : Nat) (d : Bytes) (st : Status) : UpdReach w dv base size eraseSize m u s p →
      size + d.length < 2 ^ w → updStep w dv u s (.data d) = (st, u', s') → UpdReach w dv base size eraseSize m u' s' p
  | offset (u u' : Updater) (s s' : FS) (p n : Nat) (st : Status) : UpdReach w dv base size eraseSize m u s p →
      n ≤ u.maxSize → updStep w dv u s (.offset n) = (st, u', s') → UpdReach w dv base size eraseSize m u' s' p

/-- Write a list of buffers one after the other; stop at the first failure. -/
def writeChunks (w : Nat) (dv : Dev) : Updater → FS → List Bytes → Status × Updater × FS
  | u, s, [] => (.ok, u, s)
  | u, s, d :: ds =>
    match updStep w dv u s (.data d) with
    | (.ok, u, s) => writeChunks w dv u s ds
    | r => r

end Verif.Flash
