import Verif.RiotSha.Transform
/-! What a context means: the message so far. -/
namespace Verif.RiotSha
open Spec (Words)

attribute [local irreducible] transform

theorem take_writeAt (b d : Bytes) (p : Nat) (h : p + d.length ≤ b.length) :
    (writeAt b p d).take (p + d.length) = b.take p ++ d := by
  simp only [writeAt]
  rw [List.take_of_length_le (l := d) (by omega), List.take_append_of_le_length (by simp; omega),
    List.take_of_length_le (by simp)]

/-! ### Hashing block by block -/

theorem foldl_ext {α β} (f g : β → α → β) (l : List α) (h : ∀ b, ∀ a ∈ l, f b a = g b a) (b : β) :
    l.foldl f b = l.foldl g b := by
  induction l generalizing b with
  | nil => rfl
  | cons x l ih =>
    rw [List.foldl_cons, List.foldl_cons, h b x (List.mem_cons_self ..)]
    exact ih (fun b a ha => h b a (List.mem_cons_of_mem _ ha)) _

theorem addBits_state (c : Ctx) (n : Nat) : (addBits c n).state = c.state := rfl
theorem addBits_buffer (c : Ctx) (n : Nat) : (addBits c n).buffer = c.buffer := rfl
theorem addBits_bitcount (c : Ctx) (n : Nat) :
    (addBits c n).bitcount = (c.bitcount + n * 8) % 2 ^ 64 := rfl


theorem hashBlocks_append (h : Words) (a b : Bytes) (ha : a.length % 64 = 0) :
    Spec.hashBlocks h (a ++ b) = Spec.hashBlocks (Spec.hashBlocks h a) b := by
  have hl : (a ++ b).length / 64 = a.length / 64 + b.length / 64 := by
    rw [List.length_append]; omega
  unfold Spec.hashBlocks
  rw [hl, List.range_add, List.foldl_append]
  have e1 : ∀ h0, (List.range (a.length / 64)).foldl
      (fun h i => Spec.compress h (window (a ++ b) (64 * i) 64)) h0 =
      (List.range (a.length / 64)).foldl (fun h i => Spec.compress h (window a (64 * i) 64)) h0 := by
    intro h0
    apply foldl_ext
    intro h1 i hi
    have hi := List.mem_range.mp hi
    congr 1
    unfold window
    rw [List.drop_append_of_le_length (by omega), List.take_append_of_le_length (by simp; omega)]
  rw [e1, List.foldl_map]
  apply foldl_ext
  intro h1 i _
  congr 1
  unfold window
  rw [show 64 * (a.length / 64 + i) = a.length + 64 * i by omega, ← List.drop_drop,
    List.drop_left]

theorem hashBlocks_one (h : Words) (b : Bytes) (hb : b.length = 64) :
    Spec.hashBlocks h b = Spec.compress h b := by
  unfold Spec.hashBlocks
  rw [hb]
  show Spec.compress h (window b (64 * 0) 64) = _
  rw [show 64 * 0 = 0 from rfl, window_all b 64 (by omega)]

theorem hashBlocks_short (h : Words) (b : Bytes) (hb : b.length < 64) : Spec.hashBlocks h b = h := by
  unfold Spec.hashBlocks
  rw [Nat.div_eq_of_lt hb]; rfl

/-- The complete blocks of a message. -/
def whole (m : Bytes) : Bytes := m.take (64 * (m.length / 64))
/-- The rest. -/
def rest (m : Bytes) : Bytes := m.drop (64 * (m.length / 64))

theorem whole_rest (m : Bytes) : whole m ++ rest m = m := List.take_append_drop _ _
theorem whole_length (m : Bytes) : (whole m).length = 64 * (m.length / 64) := by
  simp [whole]; omega
theorem rest_length (m : Bytes) : (rest m).length = m.length % 64 := by
  simp [rest]; omega

/-- A split into complete blocks and less than a block is the split into `whole` and `rest`. -/
theorem split_unique (a b : Bytes) (ha : a.length % 64 = 0) (hb : b.length < 64) :
    whole (a ++ b) = a ∧ rest (a ++ b) = b := by
  have : 64 * ((a ++ b).length / 64) = a.length := by rw [List.length_append]; omega
  unfold whole rest
  rw [this]
  exact ⟨List.take_left, List.drop_left⟩

/-- The context stands for the message `m`. -/
structure Holds (c : Ctx) (m : Bytes) : Prop where
  state : c.state = Spec.hashBlocks Spec.H0 (whole m)
  bits : c.bitcount = 8 * m.length % 2 ^ 64
  size : c.buffer.length = 64
  buffer : c.buffer.take (m.length % 64) = rest m

theorem holds_used {c : Ctx} {m : Bytes} (h : Holds c m) : (c.bitcount >>> 3) % 64 = m.length % 64 := by
  rw [h.bits, Nat.shiftRight_eq_div_pow]; omega

theorem init_holds : Holds init [] := ⟨initialHash_eq, rfl, rfl, rfl⟩

theorem Holds.build {c : Ctx} {a b : Bytes} (ha : a.length % 64 = 0) (hb : b.length < 64)
    (h1 : c.state = Spec.hashBlocks Spec.H0 a) (h2 : c.bitcount = 8 * (a ++ b).length % 2 ^ 64)
    (h3 : c.buffer.length = 64) (h4 : c.buffer.take b.length = b) : Holds c (a ++ b) := by
  obtain ⟨e1, e2⟩ := split_unique a b ha hb
  refine ⟨by rw [e1]; exact h1, h2, h3, ?_⟩
  rw [e2, show (a ++ b).length % 64 = b.length by rw [List.length_append]; omega]
  exact h4

theorem addBits_count (x n k : Nat) (h : x = 8 * n % 2 ^ 64) : (x + k * 8) % 2 ^ 64 = 8 * (n + k) % 2 ^ 64 := by
  omega

/-- The loop over complete blocks and the rest. -/
theorem blocks_holds (n : Nat) (c : Ctx) (m data : Bytes) (h : Holds c m) (hm : m.length % 64 = 0)
    (hn : data.length < n) : Holds (blocks n c data) (m ++ data) := by
  induction n generalizing c m data with
  | zero => omega
  | succ n ih =>
    have hw : whole m = m := by unfold whole; rw [List.take_of_length_le (by omega)]
    rw [blocks]
    by_cases h64 : data.length ≥ 64
    · rw [if_pos h64]
      have hd : m ++ data = (m ++ data.take 64) ++ data.drop 64 := by
        rw [List.append_assoc, List.take_append_drop]
      rw [hd]
      have hl : (data.take 64).length = 64 := by simp; omega
      apply ih
      · have := Holds.build (c := addBits (transform c (some (data.take 64))) 64)
          (a := m ++ data.take 64) (b := []) (by rw [List.length_append, hl]; omega) (by simp) ?_ ?_ ?_ rfl
        · rwa [List.append_nil] at this
        · rw [addBits_state, transform_state _ (some (data.take 64)) hl, hashBlocks_append _ _ _ hm, h.state, hw, hashBlocks_one _ _ hl]
          rfl
        · rw [addBits_bitcount, transform_bitcount, List.append_nil, List.length_append, hl]
          exact addBits_count _ _ _ h.bits
        · rw [addBits_buffer]
          exact transform_length _ _
      · rw [List.length_append, hl]; omega
      · simp only [List.length_drop]; omega
    · rw [if_neg h64]
      by_cases h0 : data.length > 0
      · rw [if_pos h0]
        apply Holds.build hm (by omega)
        · show c.state = _
          rw [h.state, hw]
        · show (c.bitcount + data.length * 8) % 2 ^ 64 = _
          rw [List.length_append]
          exact addBits_count _ _ _ h.bits
        · show (writeAt c.buffer 0 data).length = 64
          rw [writeAt_length, h.size]
        · show (writeAt c.buffer 0 data).take data.length = data
          have := take_writeAt c.buffer data 0 (by rw [h.size]; omega)
          rw [Nat.zero_add] at this
          rw [this]; rfl
      · rw [if_neg h0]
        have : data = [] := by
          cases data with
          | nil => rfl
          | cons => simp at h0
        rw [this, List.append_nil]
        exact h

theorem update_holds (c : Ctx) (m data : Bytes) (h : Holds c m) : Holds (update c data) (m ++ data) := by
  unfold update
  by_cases h0 : data.length = 0
  · rw [if_pos h0, List.length_eq_zero_iff.mp h0, List.append_nil]
    exact h
  · rw [if_neg h0]
    simp only [holds_used h]
    have hr := rest_length m
    by_cases hu : m.length % 64 > 0
    · rw [if_pos hu]
      have hwl := whole_length m
      by_cases hf : data.length ≥ 64 - m.length % 64
      · rw [if_pos hf]
        generalize hfree : 64 - m.length % 64 = free at hf
        have htl : (data.take free).length = free := by simp; omega
        have hd : m ++ data = (m ++ data.take free) ++ data.drop free := by
          rw [List.append_assoc, List.take_append_drop]
        rw [hd]
        have hbuf : writeAt c.buffer (m.length % 64) (data.take free) = rest m ++ data.take free := by
          have := take_writeAt c.buffer (data.take free) (m.length % 64) (by rw [htl, h.size]; omega)
          rw [h.buffer, List.take_of_length_le (by rw [writeAt_length, htl, h.size]; omega)] at this
          exact this
        have hml : (m ++ data.take free).length % 64 = 0 := by rw [List.length_append, htl]; omega
        apply blocks_holds _ _ _ _ _ hml (by simp only [List.length_drop]; omega)
        have hsl : (writeAt c.buffer (m.length % 64) (data.take free)).length = 64 := by
          rw [writeAt_length, h.size]
        have := Holds.build (a := m ++ data.take free) (b := []) hml (by simp)
          (c := transform (addBits { c with buffer := writeAt c.buffer (m.length % 64) (data.take free) } free) none)
          ?_ ?_ ?_ rfl
        · rwa [List.append_nil] at this
        · rw [transform_state (addBits { c with buffer := writeAt c.buffer (m.length % 64) (data.take free) } free) none hsl]
          show Spec.compress c.state (writeAt c.buffer (m.length % 64) (data.take free)) = _
          rw [hbuf, h.state, ← hashBlocks_one _ _ (by rw [← hbuf]; exact hsl),
            ← hashBlocks_append _ _ _ (by rw [hwl]; omega), ← List.append_assoc, whole_rest]
        · rw [transform_bitcount, List.append_nil, List.length_append, htl]
          exact addBits_count _ _ _ h.bits
        · exact transform_length _ _
      · rw [if_neg hf]
        have hm : m ++ data = whole m ++ (rest m ++ data) := by rw [← List.append_assoc, whole_rest]
        have hlen : (rest m ++ data).length = m.length % 64 + data.length := by
          rw [List.length_append, hr]
        rw [hm]
        apply Holds.build (by rw [hwl]; omega) (by rw [hlen]; omega)
        · exact h.state
        · show (c.bitcount + data.length * 8) % 2 ^ 64 = _
          rw [← hm, List.length_append]
          exact addBits_count _ _ _ h.bits
        · show (writeAt c.buffer (m.length % 64) data).length = 64
          rw [writeAt_length, h.size]
        · show (writeAt c.buffer (m.length % 64) data).take _ = _
          rw [hlen, take_writeAt _ _ _ (by rw [h.size]; omega), h.buffer]
    · rw [if_neg hu]
      exact blocks_holds _ _ _ _ h (by omega) (by omega)

end Verif.RiotSha
