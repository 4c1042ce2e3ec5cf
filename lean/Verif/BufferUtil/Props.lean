import Verif.BufferUtil.Model
/-! Properties C05-C07 of `buffer_util.c`. -/
namespace Verif.BufferUtil

theorem bufferCopy_spec (src : Bytes) (c : Cursor) :
    let r := bufferCopy src c
    r.2.out = c.out ++ window src c.offset c.destLength ∧
    (r.2.destLength = c.destLength - (src.length - c.offset)) ∧
    r.2.offset = c.offset - src.length ∧
    r.1 = (window src c.offset c.destLength).length := by
  unfold bufferCopy
  split
  · rename_i h
    have : src = [] := List.length_eq_zero_iff.mp h
    subst this; simp [window_nil]
  · split
    · rename_i h
      have : window src c.offset c.destLength = [] := by
        simp [window, List.drop_eq_nil_of_le h]
      simp [this]; omega
    · rename_i h1 h2
      refine ⟨?_, ?_, ?_, ?_⟩
      · simp only [window]
        congr 1
        rw [Nat.min_comm, ← List.take_take, List.take_of_length_le (i := src.length - c.offset) (by simp)]
      · simp only; omega
      · simp only; omega
      · simp only [window_length]; omega

/-- C05: emitting pieces through the copy helper appends exactly the window `[offset, offset+destLength)` of
the concatenation of the pieces. -/
theorem copyAll_window (pieces : List Bytes) (c : Cursor) :
    (copyAll pieces c).out = c.out ++ window pieces.flatten c.offset c.destLength := by
  induction pieces generalizing c with
  | nil => simp [copyAll, window_nil]
  | cons p ps ih =>
    obtain ⟨h1, h2, h3, _⟩ := bufferCopy_spec p c
    show (copyAll ps (bufferCopy p c).2).out = _
    rw [ih, h1, h2, h3, List.flatten_cons, window_append, List.append_assoc]

example : (copyAll [[1, 2, 3], [], [4, 5], [6]] ⟨2, 3, []⟩).out = [3, 4, 5] := by decide

/-- C05: no more than the caller's buffer is ever written, and the count is accounted for. -/
theorem copyAll_bounded (pieces : List Bytes) (c : Cursor) :
    (copyAll pieces c).out.length + (copyAll pieces c).destLength = c.out.length + c.destLength := by
  induction pieces generalizing c with
  | nil => rfl
  | cons p ps ih =>
    obtain ⟨h1, h2, h3, _⟩ := bufferCopy_spec p c
    show (copyAll ps (bufferCopy p c).2).out.length + (copyAll ps (bufferCopy p c).2).destLength = _
    rw [ih, h1, h2, List.length_append, window_length]
    omega

/-- C05: the returned count of each call is the number of bytes it stored. -/
theorem bufferCopy_count (src : Bytes) (c : Cursor) :
    (bufferCopy src c).2.out.length = c.out.length + (bufferCopy src c).1 := by
  obtain ⟨h1, _, _, h4⟩ := bufferCopy_spec src c
  rw [h1, h4, List.length_append]

theorem compareLoop_spec (b1 b2 : Nat → UInt8) (n i : Nat) (m : UInt8) (t : List Access) :
    ((compareLoop b1 b2 n i m t).1 = 0xff ↔ m = 0xff ∧ ∀ k, k < n → b1 (i + k) = b2 (i + k)) ∧
    (compareLoop b1 b2 n i m t).2 = t ++ (List.range' i n).flatMap (fun k => [.buf1 k, .buf2 k]) := by
  induction n generalizing i m t with
  | zero => simp [compareLoop]
  | succ n ih =>
    simp only [compareLoop]
    obtain ⟨h1, h2⟩ := ih (i + 1) (m &&& (b1 i ^^^ 0xff ^^^ b2 i)) (t ++ [.buf1 i, .buf2 i])
    refine ⟨?_, ?_⟩
    · rw [h1]
      have hand : ∀ a b : UInt8, a &&& b = 0xff ↔ a = 0xff ∧ b = 0xff := by
        intro a b
        constructor
        · intro h
          have : ∀ x y : Nat, x < 256 → x &&& y = 255 → x = 255 := by
            intro x y hx h
            have := Nat.and_le_left (n := x) (m := y); omega
          have hn : a.toNat &&& b.toNat = 255 := by rw [← UInt8.toNat_and, h]; rfl
          refine ⟨UInt8.toNat_inj.mp (this _ _ a.toNat_lt hn), UInt8.toNat_inj.mp (this _ a.toNat b.toNat_lt ?_)⟩
          rw [Nat.and_comm]; exact hn
        · rintro ⟨rfl, rfl⟩; rfl
      have hxor : ∀ a b : UInt8, a ^^^ 0xff ^^^ b = 0xff ↔ a = b := by
        intro a b
        rw [UInt8.xor_assoc, UInt8.xor_comm 0xff b, ← UInt8.xor_assoc]
        have := @UInt8.xor_left_inj (a ^^^ b) 0 0xff
        rw [UInt8.xor_eq_zero_iff] at this
        exact this
      rw [hand, hxor]
      constructor
      · rintro ⟨⟨hm, h0⟩, hr⟩
        refine ⟨hm, fun k hk => ?_⟩
        cases k with
        | zero => exact h0
        | succ k => have := hr k (by omega); rwa [Nat.add_right_comm] at this
      · rintro ⟨hm, hr⟩
        refine ⟨⟨hm, hr 0 (by omega)⟩, fun k hk => ?_⟩
        have := hr (k + 1) (by omega); rwa [← Nat.add_assoc, Nat.add_right_comm] at this
    · rw [h2, List.range'_succ, List.flatMap_cons]; simp

/-- C06: the comparison reports a match exactly if all `length` bytes are equal. -/
theorem compare_iff_equal (b1 b2 : Nat → UInt8) (length : Nat) :
    (compare b1 b2 length).1 = true ↔ ∀ k, k < length → b1 k = b2 k := by
  have := (compareLoop_spec b1 b2 length 0 0xff []).1
  simp only [compare, beq_iff_eq]
  rw [this]; simp

example : (compare (fun _ => 3) (fun i => if i = 4 then 0 else 3) 4).1 = true ∧
    (compare (fun _ => 3) (fun i => if i = 4 then 0 else 3) 5).1 = false := by decide

/-- C06: the trace of memory accesses is the same for all contents. -/
theorem compare_constant_trace (a1 a2 b1 b2 : Nat → UInt8) (length : Nat) :
    (compare a1 a2 length).2 = (compare b1 b2 length).2 := by
  simp only [compare, (compareLoop_spec a1 a2 length 0 0xff []).2, (compareLoop_spec b1 b2 length 0 0xff []).2]

/-- C06: a missing buffer never matches, except that two missing empty buffers do. -/
theorem compareNull_exact (b1 b2 : Option (Nat → UInt8)) (length : Nat) (h : b1 = none ∨ b2 = none) :
    compareNull b1 b2 length = true ↔ b1 = none ∧ b2 = none ∧ length = 0 := by
  cases b1 <;> cases b2 <;> simp_all [compareNull]

example : compareNull none (some (fun _ => 0)) 0 = false := by decide

theorem reverseLoop_getElem? (n : Nat) : ∀ (i j : Nat) (l : Bytes), i + n ≤ j + 1 - n + 0 ∨ n = 0 → j < l.length ∨ n = 0 →
    ∀ k, (reverseLoop n i j l)[k]? =
      if (i ≤ k ∧ k < i + n) ∨ (j < k + n ∧ k ≤ j) then l[i + j - k]? else l[k]? := by
  induction n with
  | zero => intro i j l _ _ k; simp only [reverseLoop]; rw [if_neg (by omega)]
  | succ n ih =>
    intro i j l h hj k
    have h : i + (n + 1) ≤ j + 1 - (n + 1) := by omega
    have hj : j < l.length := by omega
    simp only [reverseLoop]
    rw [ih _ _ _ (by omega) (by simp; omega)]
    have hset : ∀ m, ((l.set i (l.getD j 0)).set j (l.getD i 0))[m]? =
        if m = j then l[i]? else if m = i then l[j]? else l[m]? := by
      intro m
      rw [List.getElem?_set]
      by_cases h1 : m = j
      · subst h1
        rw [if_pos rfl, if_pos (by simpa using hj), if_pos rfl]
        simp only [List.getD]
        rw [List.getElem?_eq_getElem (by omega : i < l.length)]; rfl
      · rw [if_neg (fun h => h1 h.symm), if_neg h1, List.getElem?_set]
        by_cases h2 : m = i
        · subst h2
          rw [if_pos rfl, if_pos (by omega), if_pos rfl]
          simp only [List.getD]
          rw [List.getElem?_eq_getElem hj]; rfl
        · rw [if_neg (fun h => h2 h.symm), if_neg h2]
    by_cases hc : (i + 1 ≤ k ∧ k < i + 1 + n) ∨ (j - 1 < k + n ∧ k ≤ j - 1)
    · rw [if_pos hc, if_pos (by omega), hset, if_neg (by omega), if_neg (by omega)]
      congr 1; omega
    · rw [if_neg hc, hset]
      by_cases h1 : k = j
      · rw [if_pos h1, if_pos (by omega), h1]; congr 1; omega
      · rw [if_neg h1]
        by_cases h2 : k = i
        · rw [if_pos h2, if_pos (by omega), h2]; congr 1; omega
        · rw [if_neg h2, if_neg (by omega)]

theorem reverseLoop_length (n i j : Nat) (l : Bytes) : (reverseLoop n i j l).length = l.length := by
  induction n generalizing i j l with
  | zero => rfl
  | succ n ih => simp [reverseLoop, ih]

/-- C07: reversing in place yields the mirror image. -/
theorem reverse_eq (l : Bytes) : reverse l = l.reverse := by
  apply List.ext_getElem?
  intro k
  unfold reverse
  by_cases hk : k < l.length
  · rw [reverseLoop_getElem? _ _ _ _ (by omega) (by omega), List.getElem?_reverse hk]
    split
    · congr 1; omega
    · have : k = l.length - 1 - k := by omega
      rw [← this]
  · rw [List.getElem?_eq_none (by rw [reverseLoop_length]; omega), List.getElem?_eq_none (by simp; omega)]

example : reverse [1, 2, 3, 4, 5] = [5, 4, 3, 2, 1] := by decide

/-- C07: reversing twice restores the buffer. -/
theorem reverse_involution (l : Bytes) : reverse (reverse l) = l := by
  rw [reverse_eq, reverse_eq, List.reverse_reverse]

theorem reverseCopyLoop_getElem? (src : Bytes) (n : Nat) : ∀ (i j : Nat) (d : Bytes), i + n ≤ d.length → n ≤ j + 1 →
    ∀ k, (reverseCopyLoop src n i j d)[k]? = if i ≤ k ∧ k < i + n then some (src.getD (i + j - k) 0) else d[k]? := by
  induction n with
  | zero => intro i j d _ _ k; simp only [reverseCopyLoop]; rw [if_neg (by omega)]
  | succ n ih =>
    intro i j d h hj k
    simp only [reverseCopyLoop]
    by_cases hn : n = 0
    · subst hn
      simp only [reverseCopyLoop, List.getElem?_set]
      by_cases hk : i = k
      · subst hk
        rw [if_pos rfl, if_pos (by omega), if_pos (by omega)]
        congr 2; omega
      · rw [if_neg hk, if_neg (by omega)]
    · rw [ih _ _ _ (by simp; omega) (by omega), List.getElem?_set]
      by_cases hk : i = k
      · subst hk
        rw [if_neg (by omega), if_pos rfl, if_pos (by omega), if_pos (by omega)]
        congr 2; omega
      · by_cases hc : i + 1 ≤ k ∧ k < i + 1 + n
        · rw [if_pos hc, if_pos (by omega)]; congr 2; omega
        · rw [if_neg hc, if_neg hk, if_neg (by omega)]

/-- C07: the reversing copy writes the mirror image of the source and leaves the rest of the destination. -/
theorem reverseCopy_eq (dest src : Bytes) (h : src.length ≤ dest.length) :
    reverseCopy dest src = src.reverse ++ dest.drop src.length := by
  apply List.ext_getElem?
  intro k
  unfold reverseCopy
  rw [reverseCopyLoop_getElem? _ _ _ _ _ (by omega) (by omega), List.getElem?_append]
  by_cases hk : k < src.length
  · rw [if_pos (by omega), if_pos (by simpa using hk), List.getElem?_reverse hk]
    simp only [List.getD]
    rw [List.getElem?_eq_getElem (by omega : src.length - 1 - k < src.length),
      List.getElem?_eq_getElem (by omega : 0 + (src.length - 1) - k < src.length)]
    simp
  · rw [if_neg (by omega), if_neg (by simpa using hk), List.getElem?_drop]
    simp only [List.length_reverse]
    congr 1; omega

example : reverseCopy [9, 9, 9, 9] [1, 2, 3] = [3, 2, 1, 9] := by decide

end Verif.BufferUtil
