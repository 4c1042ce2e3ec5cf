import Verif.RiotSha1.Transform
import Verif.RiotSha.Lemmas
/-! The context of a SHA-1 calculation stands for the bytes fed so far. -/
namespace Verif.RiotSha1
open Spec (Words)
open RiotSha (foldl_ext take_writeAt whole rest whole_rest whole_length rest_length split_unique)

attribute [local irreducible] work transform

theorem hashBlocks_append (h : Words) (a b : Bytes) (ha : a.length % 64 = 0) :
    Spec.hashBlocks h (a ++ b) = Spec.hashBlocks (Spec.hashBlocks h a) b := by
  have hl : (a ++ b).length / 64 = a.length / 64 + b.length / 64 := by
    rw [List.length_append]; omega
  unfold Spec.hashBlocks
  rw [hl, List.range_add, List.foldl_append]
  have e1 : ∀ h0, (List.range (a.length / 64)).foldl
      (fun h i => Spec.compress h (window (a ++ b) (64 * i) 64)) h0 =
      (List.range (a.length / 64)).foldl (fun h i => Spec.compress h (window a (64 * i) 64)) h0 := by
    intro h0
    apply foldl_ext
    intro h1 i hi
    have hi := List.mem_range.mp hi
    congr 1
    unfold window
    rw [List.drop_append_of_le_length (by omega), List.take_append_of_le_length (by simp; omega)]
  rw [e1, List.foldl_map]
  apply foldl_ext
  intro h1 i _
  congr 1
  unfold window
  rw [show 64 * (a.length / 64 + i) = a.length + 64 * i by omega, ← List.drop_drop,
    List.drop_left]

theorem hashBlocks_one (h : Words) (b : Bytes) (hb : b.length = 64) :
    Spec.hashBlocks h b = Spec.compress h b := by
  unfold Spec.hashBlocks
  rw [hb]
  show Spec.compress h (window b (64 * 0) 64) = _
  rw [show 64 * 0 = 0 from rfl, window_all b 64 (by omega)]

/-- The context stands for the message `m`. -/
structure Holds (c : Ctx) (m : Bytes) : Prop where
  state : toWords c.state = Spec.hashBlocks Spec.H0 (whole m)
  low : c.count0 < 2 ^ 32
  bits : c.count1 * 2 ^ 32 + c.count0 = 8 * m.length % 2 ^ 64
  size : c.buffer.length = 64
  buffer : c.buffer.take (m.length % 64) = rest m

theorem holds_used {c : Ctx} {m : Bytes} (h : Holds c m) : (c.count0 >>> 3) &&& 63 = m.length % 64 := by
  have h1 := h.low
  have h2 := h.bits
  rw [Nat.shiftRight_eq_div_pow, show (63 : Nat) = 2 ^ 6 - 1 from rfl, Nat.and_two_pow_sub_one_eq_mod]
  omega

theorem holds_padded {c : Ctx} {m : Bytes} (h : Holds c m) : c.count0 &&& 504 = 8 * (m.length % 64) := by
  have h1 := h.low
  have h2 := h.bits
  have h3 : c.count0 = (c.count0 / 8) <<< 3 := by rw [Nat.shiftLeft_eq]; omega
  rw [h3, show (504 : Nat) = (2 ^ 6 - 1) <<< 3 from rfl, ← Nat.shiftLeft_and_distrib,
    Nat.and_two_pow_sub_one_eq_mod, Nat.shiftLeft_eq]
  omega

theorem init_holds (junk : Bytes) (hj : junk.length = 64) : Holds (init junk) [] :=
  ⟨rfl, by simp [init], by simp [init], hj, by simp [rest]⟩

theorem Holds.build {c : Ctx} {a b : Bytes} (ha : a.length % 64 = 0) (hb : b.length < 64)
    (h1 : toWords c.state = Spec.hashBlocks Spec.H0 a) (h0 : c.count0 < 2 ^ 32)
    (h2 : c.count1 * 2 ^ 32 + c.count0 = 8 * (a ++ b).length % 2 ^ 64)
    (h3 : c.buffer.length = 64) (h4 : c.buffer.take b.length = b) : Holds c (a ++ b) := by
  obtain ⟨e1, e2⟩ := split_unique a b ha hb
  refine ⟨by rw [e1]; exact h1, h0, h2, h3, ?_⟩
  rw [e2, show (a ++ b).length % 64 = b.length by rw [List.length_append]; omega]
  exact h4

theorem addCount_low (c : Ctx) (k : Nat) : (addCount c k).count0 < 2 ^ 32 := Nat.mod_lt _ (by omega)

theorem addCount_bits (c : Ctx) (n k : Nat) (h0 : c.count0 < 2 ^ 32)
    (h : c.count1 * 2 ^ 32 + c.count0 = 8 * n % 2 ^ 64) :
    (addCount c k).count1 * 2 ^ 32 + (addCount c k).count0 = 8 * (n + k) % 2 ^ 64 := by
  have e : k * 8 = k / 2 ^ 29 * 2 ^ 32 + k * 8 % 2 ^ 32 := by omega
  have hl : k * 8 % 2 ^ 32 < 2 ^ 32 := Nat.mod_lt _ (by decide)
  simp only [addCount]
  generalize k * 8 % 2 ^ 32 = l at *
  generalize k / 2 ^ 29 = q at *
  have e2 : 8 * (n + k) % 2 ^ 64 = ((c.count1 + q) * 2 ^ 32 + (c.count0 + l)) % 2 ^ 64 := by omega
  rw [e2]
  generalize c.count0 = x at *
  generalize c.count1 = y at *
  clear e e2 h
  simp only [Nat.reducePow] at *
  by_cases hc : x + l < 4294967296
  · rw [Nat.mod_eq_of_lt hc, if_neg (by omega)]; omega
  · rw [show (x + l) % 4294967296 = x + l - 4294967296 by omega, if_pos (by omega)]; omega

/-- The loop over complete blocks and the rest. -/
theorem blocks_holds (data : Bytes) (j : Nat) (hd : j + data.length < 2 ^ 32) (fuel i : Nat) (c : Ctx) (a : Bytes)
    (hij : (i + j) % 64 = 0)
    (hf : data.length < fuel + i) (hi : i ≤ data.length) (ha : a.length % 64 = 0)
    (h1 : toWords c.state = Spec.hashBlocks Spec.H0 a) (h0 : c.count0 < 2 ^ 32)
    (h2 : c.count1 * 2 ^ 32 + c.count0 = 8 * (a ++ data.drop i).length % 2 ^ 64)
    (h3 : c.buffer.length = 64) : ∃ c', blocks data fuel i c = some c' ∧ Holds c' (a ++ data.drop i) := by
  induction fuel generalizing i c a with
  | zero => omega
  | succ fuel ih =>
    rw [blocks, if_neg (by omega)]
    by_cases hb : i + 63 < data.length
    · rw [if_pos hb]
      have hwl : (window data i 64).length = 64 := by simp [window]; omega
      have hbuf : writeAt c.buffer 0 (window data i 64) = window data i 64 := by
        have := take_writeAt c.buffer (window data i 64) 0 (by omega)
        rw [List.take_of_length_le (by rw [writeAt_length]; omega)] at this
        simpa using this
      rw [hbuf]
      have he : a ++ data.drop i = (a ++ window data i 64) ++ data.drop (i + 64) := by
        rw [List.append_assoc, window, ← List.drop_drop, List.take_append_drop]
      rw [he]
      rw [he] at h2
      apply ih
      · omega
      · omega
      · omega
      · rw [List.length_append]; omega
      · rw [transform_state _ hwl, hashBlocks_append _ _ _ ha, hashBlocks_one _ _ hwl, ← h1]
      · rw [transform_count0]; exact h0
      · rw [transform_count0, transform_count1]; exact h2
      · exact transform_length _ hwl
    · rw [if_neg hb]
      have hl : (data.drop i).length = data.length - i := List.length_drop
      refine ⟨_, rfl, Holds.build ha (by omega) h1 h0 h2 ?_ ?_⟩
      · show (writeAt c.buffer 0 (data.drop i)).length = 64
        rw [writeAt_length, h3]
      · show (writeAt c.buffer 0 (data.drop i)).take _ = _
        have := take_writeAt c.buffer (data.drop i) 0 (by omega)
        rw [Nat.zero_add] at this
        rw [this]; rfl

theorem update_holds (c : Ctx) (m data : Bytes) (h : Holds c m) (hd : m.length % 64 + data.length < 2 ^ 32) :
    ∃ c', update c data = some c' ∧ Holds c' (m ++ data) := by
  have hr := rest_length m
  have hwl := whole_length m
  have hbits := addCount_bits c m.length data.length h.low h.bits
  have hlow := addCount_low c data.length
  unfold update
  simp only [holds_used h]
  rw [if_neg (by omega)]
  by_cases hf : m.length % 64 + data.length > 63
  · rw [if_pos hf]
    generalize hfree : 64 - m.length % 64 = free
    have htl : (data.take free).length = free := by simp; omega
    have hm : m ++ data = (m ++ data.take free) ++ data.drop free := by
      rw [List.append_assoc, List.take_append_drop]
    have hbuf : writeAt (addCount c data.length).buffer (m.length % 64) (data.take free) = rest m ++ data.take free := by
      show writeAt c.buffer (m.length % 64) (data.take free) = _
      have := take_writeAt c.buffer (data.take free) (m.length % 64) (by rw [htl, h.size]; omega)
      rw [h.buffer, List.take_of_length_le (by rw [writeAt_length, htl, h.size]; omega)] at this
      exact this
    have hbl : (rest m ++ data.take free).length = 64 := by rw [List.length_append]; omega
    rw [hbuf, hm]
    apply blocks_holds data (m.length % 64) hd
    · omega
    · omega
    · omega
    · rw [List.length_append, htl]; omega
    · rw [transform_state _ hbl]
      show Spec.compress (toWords c.state) (rest m ++ data.take free) = _
      rw [h.state, ← hashBlocks_one _ _ hbl, ← hashBlocks_append _ _ _ (by rw [hwl]; omega), ← List.append_assoc,
        whole_rest]
    · rw [transform_count0]; exact hlow
    · rw [transform_count0, transform_count1, ← hm, List.length_append]; exact hbits
    · exact transform_length _ hbl
  · rw [if_neg hf]
    have hm : m ++ data = whole m ++ (rest m ++ data) := by rw [← List.append_assoc, whole_rest]
    have hlen : (rest m ++ data).length = m.length % 64 + data.length := by
      rw [List.length_append, hr]
    refine ⟨_, rfl, ?_⟩
    rw [hm]
    apply Holds.build (by rw [hwl]; omega) (by rw [hlen]; omega)
    · exact h.state
    · exact hlow
    · rw [← hm, List.length_append]; exact hbits
    · show (writeAt c.buffer (m.length % 64) data).length = 64
      rw [writeAt_length, h.size]
    · show (writeAt c.buffer (m.length % 64) data).take _ = _
      rw [hlen, take_writeAt _ _ _ (by rw [h.size]; omega), h.buffer]

theorem updates_holds (l : List Bytes) (c : Ctx) (m : Bytes) (h : Holds c m) (hl : ∀ d ∈ l, d.length ≤ 2 ^ 32 - 64) :
    ∃ c', updates c l = some c' ∧ Holds c' (m ++ l.flatten) := by
  induction l generalizing c m with
  | nil => exact ⟨c, rfl, by simpa using h⟩
  | cons d l ih =>
    obtain ⟨c1, e1, g1⟩ := update_holds c m d h (by have := hl d (by simp); omega)
    obtain ⟨c2, e2, g2⟩ := ih c1 (m ++ d) g1 (fun x hx => hl x (by simp [hx]))
    refine ⟨c2, ?_, ?_⟩
    · rw [updates, e1]; exact e2
    · rw [List.flatten_cons, ← List.append_assoc]; exact g2

theorem padLoop_holds (fuel k : Nat) (c : Ctx) (m : Bytes) (h : Holds c m) (hk : k ≤ fuel) (hk' : k < 64)
    (hm : (m.length + k) % 64 = 56) : ∃ c', padLoop fuel c = some c' ∧ Holds c' (m ++ List.replicate k 0) := by
  induction fuel generalizing k c m with
  | zero =>
    obtain rfl : k = 0 := by omega
    exact ⟨c, rfl, by simpa using h⟩
  | succ fuel ih =>
    rw [padLoop, holds_padded h]
    by_cases h56 : m.length % 64 = 56
    · obtain rfl : k = 0 := by omega
      rw [if_neg (by omega)]
      exact ⟨c, rfl, by simpa using h⟩
    · obtain ⟨k, rfl⟩ : ∃ k', k = k' + 1 := ⟨k - 1, by omega⟩
      rw [if_pos (by omega)]
      obtain ⟨c1, e1, g1⟩ := update_holds c m [0] h (by simp only [List.length_singleton]; omega)
      obtain ⟨c2, e2, g2⟩ := ih k c1 (m ++ [0]) g1 (by omega) (by omega) (by
        rw [List.length_append, List.length_singleton]; omega)
      refine ⟨c2, by rw [e1]; exact e2, ?_⟩
      rw [List.replicate_succ, List.append_cons]
      exact g2

end Verif.RiotSha1
