import Verif.RamFlash.Model
/-! Flash kept in RAM: property theorems (C147). -/
namespace Verif.RamFlash
open Verif

/-- The first `n` bytes of a memory. -/
private def bytesOf (n : Nat) (m : Spec.Mem) : Bytes := (List.range n).map m

private theorem bytesOf_length (n m) : (bytesOf n m).length = n := by simp [bytesOf]

private theorem regionBase_eq (a : Nat) (h : a < 2 ^ 32) : regionBase a = a / 256 * 256 := by
  have : regionBase a = a &&& 0xffffff00 := rfl
  rw [this]
  apply Nat.eq_of_testBit_eq
  intro i
  rw [Nat.testBit_and, show a / 256 * 256 = (a >>> 8) <<< 8 by rw [Nat.shiftRight_eq_div_pow, Nat.shiftLeft_eq], Nat.testBit_shiftLeft, Nat.testBit_shiftRight]
  by_cases h32 : i < 32
  · have key : ∀ i < 32, Nat.testBit 0xffffff00 i = decide (8 ≤ i) := by decide
    rw [key i h32]
    by_cases h8 : 8 ≤ i
    · have e : 8 + (i - 8) = i := by omega
      simp [h8, e]
    · simp [h8]
  · have hz : a.testBit i = false := Nat.testBit_lt_two_pow (Nat.lt_of_lt_of_le h (Nat.pow_le_pow_right (by decide) (by omega)))
    have e : 8 + (i - 8) = i := by omega
    simp [hz, e]

private theorem copyIn_eq (n a : Nat) (m : Spec.Mem) (d : Bytes) (h : a + d.length ≤ n) :
    copyIn (bytesOf n m) a d = .ok (bytesOf n fun i => if a ≤ i ∧ i < a + d.length then d.getD (i - a) 0 else m i) := by
  unfold copyIn
  rw [bytesOf_length, if_pos h]
  congr 1
  apply List.ext_getElem
  · simp [bytesOf]; omega
  · intro i h1 h2
    have hi : i < n := by simpa [bytesOf] using h2
    have hm : ∀ j (hj : j < (bytesOf n m).length), (bytesOf n m)[j] = m j := by intro j hj; simp [bytesOf]
    have hl := bytesOf_length n m
    rw [show ((bytesOf n fun i => if a ≤ i ∧ i < a + d.length then d.getD (i - a) 0 else m i)[i]) = (if a ≤ i ∧ i < a + d.length then d.getD (i - a) 0 else m i) by simp [bytesOf]]
    by_cases c1 : i < a
    · rw [List.getElem_append_left (by simp; omega), List.getElem_append_left (by simp; omega), List.getElem_take, hm, if_neg (by omega)]
    · by_cases c2 : i < a + d.length
      · rw [List.getElem_append_left (by simp; omega), List.getElem_append_right (by simp; omega), if_pos (by omega)]
        have e : min a n = a := by omega
        simp [List.getD, hl, e, List.getElem?_eq_getElem (show i - a < d.length by omega)]
      · rw [List.getElem_append_right (by simp; omega), if_neg (by omega), List.getElem_drop, hm]
        congr 1
        simp only [List.length_append, List.length_take, hl]
        omega

private theorem step_eq (size : Nat) (m : Spec.Mem) (o : Spec.Op) (h0 : 256 ∣ size) (h31 : size < 2 ^ 31) :
    step (bytesOf size m) o = .ok (bytesOf size (Spec.step size m o).1, (Spec.step size m o).2) := by
  cases o with
  | read a n =>
    simp only [step, read, Spec.step, bytesOf_length, Spec.InRange]
    by_cases h : a < size ∧ a + n ≤ size
    · rw [if_pos h, if_neg (by omega)]
      have : copyOut (bytesOf size m) a n = .ok ((List.range n).map fun i => m (a + i)) := by
        unfold copyOut
        rw [bytesOf_length, if_pos h.2]
        congr 1
        apply List.ext_getElem
        · simp [bytesOf]; omega
        · intro i h1 h2
          simp [bytesOf]
      rw [this]; rfl
    · rw [if_neg h, if_pos (by omega)]; rfl
  | write a d =>
    simp only [step, write, Spec.step, bytesOf_length, Spec.InRange]
    by_cases h : a < size ∧ a + d.length ≤ size
    · rw [if_pos h, if_neg (by omega), copyIn_eq _ _ _ _ h.2]
      have : toInt d.length = (d.length : Int) := by
        have e : d.length % 2 ^ 32 = d.length := Nat.mod_eq_of_lt (by omega)
        unfold toInt; rw [e, if_pos (by omega)]
      simp only [this]
    · rw [if_neg h, if_pos (by omega)]
  | erase a =>
    simp only [step, blockErase, Spec.step, bytesOf_length]
    by_cases h : a < size
    · rw [if_pos h, if_neg (by omega), regionBase_eq a (by omega), copyIn_eq _ _ _ _ (by rw [List.length_replicate, blockSize]; omega)]
      simp only [answerOf, Out.ok.injEq, Prod.mk.injEq, and_true]
      congr 1
      funext i
      simp only [List.length_replicate, blockSize]
      by_cases c : i / 256 = a / 256
      · rw [if_pos c, if_pos (by omega)]
        rw [List.getD_eq_getElem?_getD, List.getElem?_replicate, if_pos (by omega)]; rfl
      · rw [if_neg c, if_neg (by omega)]
    · rw [if_neg h, if_pos (by omega)]; rfl
  | eraseAll =>
    simp only [step, chipErase, Spec.step, bytesOf_length]
    rw [copyIn_eq _ _ _ _ (by simp)]
    simp only [answerOf, Out.ok.injEq, Prod.mk.injEq, and_true]
    apply List.ext_getElem
    · simp [bytesOf]
    · intro i h1 h2
      simp only [bytesOf, List.length_map, List.length_range] at h2
      simp only [bytesOf, List.getElem_map, List.getElem_range, List.length_replicate]
      rw [if_pos (by omega), List.getD_eq_getElem?_getD, List.getElem?_replicate, if_pos (by omega)]; rfl

private theorem run_eq (size : Nat) (h0 : 256 ∣ size) (h31 : size < 2 ^ 31) : ∀ (ops : List Spec.Op) (m : Spec.Mem),
    run (bytesOf size m) ops = .ok (bytesOf size (Spec.run size m ops).1, (Spec.run size m ops).2)
  | [], m => rfl
  | o :: os, m => by
    simp only [run, step_eq size m o h0 h31, run_eq size h0 h31 os, Spec.run]

/-- C147, partial: a flash in a buffer whose size is a multiple of 256 and below 2 GB answers every history of requests as
the memory of the specification, and never leaves the buffer. `buf` is what the buffer held at first.
Missing: other sizes, `counterexample_erase`, `counterexample_write`, `counterexample_size`. -/
theorem history_exact_partial (buf : Bytes) (ops : List Spec.Op) (hs : 256 ∣ buf.length) (hl : buf.length < 2 ^ 31) :
    ∃ buf' answers, run buf ops = .ok (buf', answers) ∧
      answers = (Spec.run buf.length (fun i => buf.getD i 0) ops).2 ∧
      buf'.length = buf.length ∧
      ∀ i < buf.length, buf'[i]? = some ((Spec.run buf.length (fun i => buf.getD i 0) ops).1 i) := by
  have hb : buf = bytesOf buf.length (fun i => buf.getD i 0) := by
    apply List.ext_getElem
    · simp [bytesOf]
    · intro i h1 h2
      simp [bytesOf, List.getElem?_eq_getElem h1]
  refine ⟨_, _, (congrArg (run · ops) hb).trans (run_eq buf.length hs hl ops _), rfl, by simp [bytesOf], ?_⟩
  intro i hi
  simp [bytesOf, hi]

/-- Two blocks; the second one is written, and the first one erased. -/
example : ∃ b, run (List.replicate 512 0x11) [.write 0xff [1, 2, 3], .erase 7, .read 0xfe 5, .read 511 2, .write 512 [], .eraseAll, .read 0 1]
    = .ok (b, [.wrote 3, .done, .data [0xff, 0xff, 2, 3, 0x11], .outOfRange, .outOfRange, .done, .data [0xff]]) := by
  obtain ⟨b, as, h, e, -, -⟩ := history_exact_partial (List.replicate 512 0x11) [.write 0xff [1, 2, 3], .erase 7, .read 0xfe 5, .read 511 2, .write 512 [], .eraseAll, .read 0 1] (by rw [List.length_replicate]; decide) (by rw [List.length_replicate]; decide)
  rw [List.length_replicate] at e
  exact ⟨b, h.trans (by rw [e]; congr 2)⟩

/-- C147 for every size: all requests other than erasing a block stay in the buffer, and so does that one in whole blocks. -/
theorem only_last_block_oob (buf : Bytes) (o : Spec.Op) (h32 : buf.length < 2 ^ 32) :
    step buf o = .oob ↔ ∃ a, o = .erase a ∧ a < buf.length ∧ buf.length < a / 256 * 256 + 256 := by
  cases o with
  | read a n =>
    simp only [step, read, copyOut, reduceCtorEq, false_and, exists_false, iff_false]
    by_cases h : a ≥ buf.length ∨ n > buf.length - a
    · simp [if_pos h]
    · rw [if_neg h, if_pos (by omega)]; simp
  | write a d =>
    simp only [step, write, copyIn, reduceCtorEq, false_and, exists_false, iff_false]
    by_cases h : a ≥ buf.length ∨ d.length > buf.length - a
    · simp [if_pos h]
    · rw [if_neg h, if_pos (by omega)]; simp
  | erase a =>
    simp only [step, blockErase, copyIn, List.length_replicate, blockSize]
    by_cases h : a ≥ buf.length
    · simp only [if_pos h, reduceCtorEq, false_iff]
      rintro ⟨a', e, h1, -⟩
      cases e; omega
    · rw [if_neg h, regionBase_eq a (by omega)]
      by_cases h' : a / 256 * 256 + 256 ≤ buf.length
      · simp only [if_pos h', reduceCtorEq, false_iff]
        rintro ⟨a', e, h1, h2⟩
        cases e; omega
      · simp only [if_neg h', true_iff]
        exact ⟨a, rfl, by omega, by omega⟩
  | eraseAll =>
    simp [step, chipErase, copyIn]

/-- C147 is false of other sizes: in a flash of 300 bytes, erasing the block at 256 writes beyond the buffer,
flash_virtual_ram.c:93. Initialisation accepts every size but 0. -/
theorem counterexample_erase : init 300 = .value 0 ∧ ∀ buf : Bytes, buf.length = 300 → step buf (.erase 256) = .oob := by
  refine ⟨rfl, fun buf h => (only_last_block_oob buf _ (by omega)).mpr ⟨256, rfl, by omega, by omega⟩⟩

/-- C147 is false from 2 GB: a write of 2 GB is done, and its size is negative as the `int` that is returned,
flash_virtual_ram.c:74, so the caller takes it for an error. -/
theorem counterexample_write (buf d : Bytes) (hb : buf.length = 2 ^ 31) (hd : d.length = 2 ^ 31) :
    step buf (.write 0 d) = .ok (d, .wrote (-2 ^ 31)) := by
  have : toInt d.length = -2 ^ 31 := by rw [hd]; decide
  simp only [step, write, copyIn, hb, this]
  rw [if_neg (by omega), if_pos (by omega)]
  simp [hd, hb]

example : ∃ buf d : Bytes, buf.length = 2 ^ 31 ∧ d.length = 2 ^ 31 := ⟨List.replicate (2 ^ 31) 0, List.replicate (2 ^ 31) 0, List.length_replicate, List.length_replicate⟩

/-- The size that is reported is that of the device, below 4 GB. -/
theorem deviceSize_eq_partial (buf : Bytes) (h : buf.length < 2 ^ 32) : deviceSize buf = buf.length := Nat.mod_eq_of_lt h

/-- With a 64-bit `size_t` a device of 4 GB reports the size 0, flash_virtual_ram.c:17. -/
theorem counterexample_size (buf : Bytes) (h : buf.length = 2 ^ 32) : init buf.length = .value 0 ∧ deviceSize buf = 0 := by
  rw [deviceSize, h]; exact ⟨rfl, rfl⟩

end Verif.RamFlash
