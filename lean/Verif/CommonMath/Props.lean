import Verif.CommonMath.Lemmas
import Verif.CommonMath.BitLemmas
/-! Properties C01-C04 of `common_math.c`. -/
namespace Verif.CommonMath

/-- C01: below the maximum, incrementing adds one to the big-endian number, in either mode. -/
theorem increment_adds_one (bytes : Bytes) (roll : Bool) (h : bytes ≠ [])
    (hmax : beNat bytes + 1 < 256 ^ bytes.length) :
    ∃ out, increment bytes roll = (.ok, out) ∧ out.length = bytes.length ∧ beNat out = beNat bytes + 1 := by
  obtain ⟨pre, x, rfl⟩ := exists_snoc bytes h
  obtain ⟨pre', x', k', e1, e2, e3⟩ := incLoop_spec pre.length pre x 0 rfl
  simp only [List.replicate_zero] at e1 e2
  unfold increment
  rw [if_neg (by simp)]
  simp only [List.length_append, List.length_singleton, Nat.add_sub_cancel, e1]
  rw [e2] at hmax ⊢
  have hff := beNat_replicate_ff k'
  by_cases hx : x' = 0xff
  · rcases e3 with e3 | e3
    · subst e3; subst hx
      have := beNat_replicate_ff (k' + 1)
      simp [List.replicate_succ] at this hmax
      omega
    · exact absurd hx e3
  · have hget := getD_mid pre' x' (List.replicate k' 0)
    rw [if_neg, hget, set_mid]
    · refine ⟨_, rfl, ?_, ?_⟩
      · have := congrArg List.length e2
        simp at this ⊢; omega
      · simp only [beNat_append, beNat_cons, List.length_cons, List.length_replicate, beNat_replicate_zero,
          toNat_succ hx, Nat.add_mul]
        omega
    · rintro ⟨h0, h1⟩
      rw [← h0, hget] at h1; exact hx h1

example : ([0x01, 0xff, 0xff] : Bytes) ≠ [] ∧ beNat [0x01, 0xff, 0xff] + 1 < 256 ^ 3 ∧
    increment [0x01, 0xff, 0xff] false = (.ok, [0x02, 0, 0]) := by decide

/-- C01: at the maximum, incrementing wraps to zero if allowed and otherwise reports the boundary and
leaves the counter unchanged. -/
theorem increment_at_max (bytes : Bytes) (h : bytes ≠ []) (hmax : beNat bytes + 1 = 256 ^ bytes.length) :
    increment bytes true = (.ok, List.replicate bytes.length 0) ∧
    increment bytes false = (.boundaryReached, bytes) := by
  have hall : bytes = List.replicate bytes.length 0xff :=
    beNat_inj (by simp) (by have := beNat_replicate_ff bytes.length; omega)
  obtain ⟨pre, x, rfl⟩ := exists_snoc bytes h
  obtain ⟨pre', x', k', e1, e2, e3⟩ := incLoop_spec pre.length pre x 0 rfl
  simp only [List.replicate_zero] at e1 e2
  have hx' : x' = 0xff := by
    have : x' ∈ List.replicate (pre ++ [x]).length (0xff : UInt8) := by
      rw [← hall, e2]; simp
    exact List.eq_of_mem_replicate this
  have hpre : pre' = [] := e3.resolve_right (fun h => h hx')
  subst hpre; subst hx'
  have hlen : k' = pre.length := by
    have := congrArg List.length e2
    simp at this; omega
  subst hlen
  unfold increment
  constructor
  · rw [if_neg (by simp)]
    simp only [List.length_append, List.length_singleton, Nat.add_sub_cancel, e1]
    simp [List.replicate_succ]
  · rw [if_neg (by simp)]
    simp only [List.length_append, List.length_singleton, Nat.add_sub_cancel, e1]
    simp only [List.length_append, List.length_singleton] at hall
    rw [hall]
    simp

example : ([0xff, 0xff] : Bytes) ≠ [] ∧ beNat [0xff, 0xff] + 1 = 256 ^ 2 := by decide

/-- C01: above zero, decrementing subtracts one. -/
theorem decrement_subtracts_one (bytes : Bytes) (roll : Bool) (hpos : 0 < beNat bytes) :
    ∃ out, decrement bytes roll = (.ok, out) ∧ out.length = bytes.length ∧ beNat out + 1 = beNat bytes := by
  have h : bytes ≠ [] := by rintro rfl; simp at hpos
  obtain ⟨pre, x, rfl⟩ := exists_snoc bytes h
  obtain ⟨pre', x', k', e1, e2, e3⟩ := decLoop_spec pre.length pre x 0 rfl
  simp only [List.replicate_zero] at e1 e2
  unfold decrement
  rw [if_neg (by simp)]
  simp only [List.length_append, List.length_singleton, Nat.add_sub_cancel, e1]
  rw [e2] at hpos ⊢
  by_cases hx : x' = 0
  · rcases e3 with e3 | e3
    · subst e3; subst hx
      simp [beNat_cons, beNat_replicate_zero] at hpos
    · exact absurd hx e3
  · have hget := getD_mid pre' x' (List.replicate k' 0xff)
    rw [if_neg, hget, set_mid]
    · refine ⟨_, rfl, ?_, ?_⟩
      · have := congrArg List.length e2
        simp at this ⊢; omega
      · have hp := toNat_pred hx
        have hff := beNat_replicate_ff k'
        simp only [beNat_append, beNat_cons, List.length_cons, List.length_replicate, beNat_replicate_zero]
        rw [← hp, Nat.add_mul]
        omega
    · rintro ⟨h0, h1⟩
      rw [← h0, hget] at h1; exact hx h1

example : 0 < beNat [0x02, 0x00, 0x00] ∧ decrement [0x02, 0, 0] true = (.ok, [0x01, 0xff, 0xff]) := by decide

/-- C01: at zero, decrementing wraps to the maximum if allowed and otherwise reports the boundary
and leaves the counter unchanged. -/
theorem decrement_at_zero (bytes : Bytes) (h : bytes ≠ []) (hz : beNat bytes = 0) :
    decrement bytes true = (.ok, List.replicate bytes.length 0xff) ∧
    decrement bytes false = (.boundaryReached, bytes) := by
  have hall : bytes = List.replicate bytes.length 0 :=
    beNat_inj (by simp) (by rw [hz, beNat_replicate_zero])
  obtain ⟨pre, x, rfl⟩ := exists_snoc bytes h
  obtain ⟨pre', x', k', e1, e2, e3⟩ := decLoop_spec pre.length pre x 0 rfl
  simp only [List.replicate_zero] at e1 e2
  have hx' : x' = 0 := by
    have : x' ∈ List.replicate (pre ++ [x]).length (0 : UInt8) := by
      rw [← hall, e2]; simp
    exact List.eq_of_mem_replicate this
  have hpre : pre' = [] := e3.resolve_right (fun h => h hx')
  subst hpre; subst hx'
  have hlen : k' = pre.length := by
    have := congrArg List.length e2
    simp at this; omega
  subst hlen
  unfold decrement
  constructor
  · rw [if_neg (by simp)]
    simp only [List.length_append, List.length_singleton, Nat.add_sub_cancel, e1]
    simp [List.replicate_succ]
  · rw [if_neg (by simp)]
    simp only [List.length_append, List.length_singleton, Nat.add_sub_cancel, e1]
    simp only [List.length_append, List.length_singleton] at hall
    rw [hall]
    simp

example : ([0, 0] : Bytes) ≠ [] ∧ beNat [0, 0] = 0 := by decide

/-- C01: an empty array is refused. -/
theorem increment_decrement_empty (roll : Bool) :
    increment [] roll = (.invalidArgument, []) ∧ decrement [] roll = (.invalidArgument, []) := by
  constructor <;> rfl

/-- C02: for two non-empty arrays the sign of the result is the numeric order. -/
theorem compareArray_numeric (a b : Bytes) (ha : a ≠ []) (hb : b ≠ []) :
    (compareArray a b = 0 ↔ beNat a = beNat b) ∧ (0 < compareArray a b ↔ beNat b < beNat a) ∧
    (compareArray a b < 0 ↔ beNat a < beNat b) := by
  suffices h : (compareArray a b = 0 ↔ beNat a = beNat b) ∧ (0 < compareArray a b ↔ beNat b < beNat a) by
    refine ⟨h.1, h.2, ?_⟩
    omega
  unfold compareArray
  rw [if_neg (by simp [ha]), if_neg ha, if_neg hb]
  split
  · rename_i hl
    have hne : a.take (a.length - b.length) ≠ [] := by
      intro h; have := congrArg List.length h; simp at this; omega
    have hz := isArrayZero_iff _ hne
    have hsplit : beNat a = beNat (a.take (a.length - b.length)) * 256 ^ b.length + beNat (a.drop (a.length - b.length)) := by
      have hlen : (a.drop (a.length - b.length)).length = b.length := by simp; omega
      conv => rhs; rw [show 256 ^ b.length = 256 ^ (a.drop (a.length - b.length)).length by rw [hlen]]
      rw [← beNat_append, List.take_append_drop]
    simp only
    split
    · rename_i h; rw [hz] at h
      rw [h, Nat.zero_mul, Nat.zero_add] at hsplit
      rw [hsplit]
      exact compareLoop_spec _ _ (by simp; omega)
    · rename_i h; rw [hz] at h
      have := beNat_lt b
      have : 1 * 256 ^ b.length ≤ beNat (a.take (a.length - b.length)) * 256 ^ b.length :=
        Nat.mul_le_mul_right _ (by omega)
      omega
  · split
    · rename_i hl
      have hne : b.take (b.length - a.length) ≠ [] := by
        intro h; have := congrArg List.length h; simp at this; omega
      have hz := isArrayZero_iff _ hne
      have hsplit : beNat b = beNat (b.take (b.length - a.length)) * 256 ^ a.length + beNat (b.drop (b.length - a.length)) := by
        have hlen : (b.drop (b.length - a.length)).length = a.length := by simp; omega
        conv => rhs; rw [show 256 ^ a.length = 256 ^ (b.drop (b.length - a.length)).length by rw [hlen]]
        rw [← beNat_append, List.take_append_drop]
      simp only
      split
      · rename_i h; rw [hz] at h
        rw [h, Nat.zero_mul, Nat.zero_add] at hsplit
        rw [hsplit]
        exact compareLoop_spec _ _ (by simp; omega)
      · rename_i h; rw [hz] at h
        have := beNat_lt a
        have : 1 * 256 ^ a.length ≤ beNat (b.take (b.length - a.length)) * 256 ^ a.length :=
          Nat.mul_le_mul_right _ (by omega)
        omega
    · exact compareLoop_spec _ _ (by omega)

example : compareArray [0, 0, 5, 1] [5, 0] = 1 ∧ compareArray [0, 5, 1] [5, 1] = 0 := by decide

/-- C02: an array without any bytes is smaller than every array with bytes, even one that is all zero. -/
theorem compareArray_empty (a : Bytes) (ha : a ≠ []) :
    compareArray [] a = -1 ∧ compareArray a [] = 1 ∧ compareArray [] [] = 0 := by
  simp [compareArray, ha]

example : ([0] : Bytes) ≠ [] := by decide

/-- C03: shifting right by `n` bits divides by `2^n`. -/
theorem rightShift_divides (bytes : Bytes) (n : Nat) :
    (rightShift bytes n).length = bytes.length ∧ beNat (rightShift bytes n) = beNat bytes / 2 ^ n := by
  unfold rightShift
  split
  · rename_i h
    refine ⟨rfl, ?_⟩
    rcases h with h | h
    · have : bytes = [] := List.length_eq_zero_iff.mp h
      simp [this]
    · simp [h]
  · rename_i h
    have e256 : ∀ k, 256 ^ k = 2 ^ (8 * k) := by intro k; rw [Nat.pow_mul]
    simp only
    split
    · rename_i hge
      refine ⟨by simp, ?_⟩
      rw [beNat_replicate_zero, Nat.div_eq_of_lt]
      refine Nat.lt_of_lt_of_le (beNat_lt bytes) ?_
      rw [e256]; exact Nat.pow_le_pow_right (by decide) (by omega)
    · rename_i hlt
      have hs : n % 8 < 8 := Nat.mod_lt _ (by decide)
      generalize hk : n / 8 = k at *
      generalize hsd : n % 8 = s at *
      have hmlen : (List.replicate k 0 ++ bytes.take (bytes.length - k)).length = bytes.length := by
        simp; omega
      have main : (shrLoop s k (bytes.length - 1) (List.replicate k 0 ++ bytes.take (bytes.length - k))).set k
          (UInt8.ofNat (((shrLoop s k (bytes.length - 1) (List.replicate k 0 ++ bytes.take (bytes.length - k))).getD k 0).toNat >>> s))
          = shr s 0 (List.replicate k 0 ++ bytes.take (bytes.length - k)) := by
        have hz : ∀ b : UInt8, UInt8.ofNat (b.toNat >>> s) = shrByte s 0 b := by
          intro b; simp [shrByte]
        have hzpos : ∀ j, j < k → (List.replicate k 0 ++ bytes.take (bytes.length - k)).getD j 0 = 0 := by
          intro j hj
          simp [List.getD, List.getElem?_append, hj]
        generalize hm : (List.replicate k (0 : UInt8) ++ bytes.take (bytes.length - k)) = m at *
        apply List.ext_getElem?
        intro j
        have hsl : (shrLoop s k (bytes.length - 1) m).length = m.length := by
          have aux : ∀ i (l : Bytes), (shrLoop s k i l).length = l.length := by
            intro i
            induction i with
            | zero => intro l; rfl
            | succ i ih => intro l; simp only [shrLoop]; split <;> simp [ih]
          exact aux _ _
        rw [List.getElem?_set, hsl, shr_getElem?]
        simp only [List.getD, shrLoop_getElem?]
        rw [hmlen]
        by_cases hjk : k = j
        · subst hjk
          rw [if_pos rfl, if_pos (by omega), if_neg (by omega)]
          obtain ⟨v, hv⟩ : ∃ v, m[k]? = some v := ⟨m[k]'(by omega), List.getElem?_eq_getElem (by omega)⟩
          rw [hv]
          simp only [Option.map_some, Option.getD_some, Option.some.injEq, hz]
          split
          · rfl
          · have := hzpos (k - 1) (by omega)
            simp only [List.getD] at this
            rw [this]
        · rw [if_neg hjk]
          by_cases hj : k < j ∧ j ≤ bytes.length - 1
          · rw [if_pos hj, if_neg (by omega : ¬ j = 0)]
          · rw [if_neg hj]
            by_cases hjl : j < m.length
            · have hjk' : j < k := by omega
              have e0 := hzpos j hjk'
              obtain ⟨v, hv⟩ : ∃ v, m[j]? = some v := ⟨m[j], List.getElem?_eq_getElem hjl⟩
              simp only [List.getD, hv, Option.getD_some] at e0
              rw [hv, e0]
              simp only [Option.map_some, Option.some.injEq]
              have hprev : (if j = 0 then (0 : UInt8) else m[j-1]?.getD 0) = 0 := by
                split
                · rfl
                · have := hzpos (j - 1) (by omega)
                  simpa only [List.getD] using this
              rw [hprev]; simp [shrByte]
            · rw [List.getElem?_eq_none (by omega)]; rfl
      rw [main]
      refine ⟨?_, ?_⟩
      · have : ∀ (c : UInt8) (l : Bytes), (shr s c l).length = l.length := by
          intro c l
          induction l generalizing c with
          | nil => rfl
          | cons b bs ih => simp [shr, ih]
        rw [this, hmlen]
      · rw [beNat_shr s hs]
        simp only [UInt8.toNat_zero, Nat.zero_mod, Nat.zero_mul, Nat.zero_add, beNat_append, beNat_replicate_zero]
        have hd : beNat bytes = beNat (bytes.take (bytes.length - k)) * 256 ^ k + beNat (bytes.drop (bytes.length - k)) := by
          have hlen : (bytes.drop (bytes.length - k)).length = k := by simp; omega
          conv => rhs; rw [show 256 ^ k = 256 ^ (bytes.drop (bytes.length - k)).length by rw [hlen]]
          rw [← beNat_append, List.take_append_drop]
        have hlt2 : beNat (bytes.drop (bytes.length - k)) < 256 ^ k := by
          have := beNat_lt (bytes.drop (bytes.length - k))
          have hlen : (bytes.drop (bytes.length - k)).length = k := by simp; omega
          rwa [hlen] at this
        have hq : beNat bytes / 256 ^ k = beNat (bytes.take (bytes.length - k)) := by
          rw [hd, Nat.mul_comm, Nat.mul_add_div (Nat.pow_pos (by decide)), Nat.div_eq_of_lt hlt2, Nat.add_zero]
        rw [← hq, e256, Nat.div_div_eq_div_mul, ← Nat.pow_add]
        congr 2; omega

example : rightShift [0x12, 0x34, 0x56] 12 = [0x00, 0x01, 0x23] := by decide

/-- C03: shifting left by `n` bits multiplies by `2^n`, modulo the width of the array. -/
theorem leftShift_multiplies (bytes : Bytes) (n : Nat) :
    (leftShift bytes n).length = bytes.length ∧
    beNat (leftShift bytes n) = beNat bytes * 2 ^ n % 256 ^ bytes.length := by
  unfold leftShift
  split
  · rename_i h
    refine ⟨rfl, ?_⟩
    rcases h with h | h
    · have : bytes = [] := List.length_eq_zero_iff.mp h
      subst this; simp
    · subst h; simp [Nat.mod_eq_of_lt (beNat_lt bytes)]
  · rename_i h
    have e256 : ∀ k, 256 ^ k = 2 ^ (8 * k) := by intro k; rw [Nat.pow_mul]
    simp only
    split
    · rename_i hge
      refine ⟨by simp, ?_⟩
      rw [beNat_replicate_zero, e256]
      symm
      apply Nat.mod_eq_zero_of_dvd
      exact Nat.dvd_trans (Nat.pow_dvd_pow 2 (by omega)) (Nat.dvd_mul_left _ _)
    · rename_i hlt
      have hs : n % 8 < 8 := Nat.mod_lt _ (by decide)
      generalize hk : n / 8 = k at *
      generalize hsd : n % 8 = s at *
      have hmlen : (bytes.drop k ++ List.replicate k 0).length = bytes.length := by simp; omega
      have main : (shlLoop s (bytes.length - k - 1) 0 (bytes.drop k ++ List.replicate k 0)).set (bytes.length - k - 1)
          (UInt8.ofNat (((shlLoop s (bytes.length - k - 1) 0 (bytes.drop k ++ List.replicate k 0)).getD (bytes.length - k - 1) 0).toNat <<< s))
          = shl s (bytes.drop k ++ List.replicate k 0) := by
        have hz : ∀ b : UInt8, UInt8.ofNat (b.toNat <<< s) = shlByte s b 0 := by
          intro b; simp [shlByte]
        have hzpos : ∀ j, bytes.length - k ≤ j → (bytes.drop k ++ List.replicate k 0).getD j 0 = 0 := by
          intro j hj
          simp only [List.getD]
          rw [List.getElem?_append_right (by simpa using hj), List.getElem?_replicate]
          split <;> rfl
        generalize hm : (bytes.drop k ++ List.replicate k (0 : UInt8)) = m at *
        apply List.ext_getElem?
        intro j
        have hsl : (shlLoop s (bytes.length - k - 1) 0 m).length = m.length := by
          have aux : ∀ n i (l : Bytes), (shlLoop s n i l).length = l.length := by
            intro n
            induction n with
            | zero => intro i l; rfl
            | succ i ih => intro i l; simp only [shlLoop]; simp [ih]
          exact aux _ _ _
        rw [List.getElem?_set, hsl, shl_getElem?]
        simp only [List.getD, shlLoop_getElem?]
        rw [hmlen]
        by_cases hjk : bytes.length - k - 1 = j
        · rw [if_pos hjk, if_pos (by omega), if_neg (by omega)]
          rw [hjk]
          obtain ⟨v, hv⟩ : ∃ v, m[j]? = some v := ⟨m[j]'(by omega), List.getElem?_eq_getElem (by omega)⟩
          rw [hv]
          have := hzpos (j + 1) (by omega)
          simp only [List.getD] at this
          rw [this]
          simp [hz]
        · rw [if_neg hjk]
          by_cases hj : 0 ≤ j ∧ j < 0 + (bytes.length - k - 1)
          · rw [if_pos hj]
          · rw [if_neg hj]
            by_cases hjl : j < m.length
            · have e0 := hzpos j (by omega)
              have e1 := hzpos (j+1) (by omega)
              obtain ⟨v, hv⟩ : ∃ v, m[j]? = some v := ⟨m[j], List.getElem?_eq_getElem hjl⟩
              simp only [List.getD, hv, Option.getD_some] at e0 e1
              rw [hv, e0, e1]
              simp [shlByte]
            · rw [List.getElem?_eq_none (by omega)]; rfl
      rw [main]
      refine ⟨by rw [shl_length, hmlen], ?_⟩
      rw [beNat_shl s hs, hmlen, beNat_append, beNat_replicate_zero, List.length_replicate, Nat.add_zero]
      have hd : beNat bytes = beNat (bytes.take k) * 256 ^ (bytes.length - k) + beNat (bytes.drop k) := by
        have hlen : (bytes.drop k).length = bytes.length - k := by simp
        rw [← hlen, ← beNat_append, List.take_append_drop]
      have hpow : 2 ^ n = 256 ^ k * 2 ^ s := by rw [e256, ← Nat.pow_add]; congr 1; omega
      have hW : 256 ^ bytes.length = 256 ^ (bytes.length - k) * 256 ^ k := by
        rw [← Nat.pow_add]; congr 1; omega
      rw [hd, hpow]
      have : (beNat (bytes.take k) * 256 ^ (bytes.length - k) + beNat (bytes.drop k)) * (256 ^ k * 2 ^ s)
          = beNat (bytes.drop k) * 256 ^ k * 2 ^ s + 256 ^ bytes.length * (beNat (bytes.take k) * 2 ^ s) := by
        rw [hW, Nat.add_mul]
        generalize 256 ^ (bytes.length - k) = u
        generalize 256 ^ k = v
        generalize beNat (bytes.take k) = p
        generalize beNat (bytes.drop k) = q
        generalize 2 ^ s = w
        have a1 : p * u * (v * w) = u * v * (p * w) := by ac_rfl
        have a2 : q * (v * w) = q * v * w := by ac_rfl
        omega
      rw [this, Nat.add_mul_mod_self_left]

example : leftShift [0x12, 0x34, 0x56] 12 = [0x45, 0x60, 0x00] := by decide

/-- C04: a bit inside the array is set, and nothing else changes; a bit outside is refused without
changing the array. -/
theorem setBit_exact (l : Bytes) (k : Nat) :
    (k < 8 * l.length → ∃ l', setBit l k = (.ok, l') ∧ l'.length = l.length ∧
      ∀ j, bitAt l' j = if j = k then true else bitAt l j) ∧
    (8 * l.length ≤ k → setBit l k = (.outOfRange, l)) := by
  refine ⟨fun h => ?_, setBit_oor l k⟩
  obtain ⟨l', e1, e2, e3⟩ := setBit_ok l k h
  refine ⟨l', e1, e2, fun j => ?_⟩
  rw [e3]; by_cases hj : j = k <;> simp [hj]

example : (13 : Nat) < 8 * ([0, 0x40] : Bytes).length ∧ setBit [0, 0x40] 13 = (.ok, [0, 0x60]) := by decide

/-- C04: a bit inside the array is cleared, and nothing else changes; a bit outside is refused. -/
theorem clearBit_exact (l : Bytes) (k : Nat) :
    (k < 8 * l.length → ∃ l', clearBit l k = (.ok, l') ∧ l'.length = l.length ∧
      ∀ j, bitAt l' j = if j = k then false else bitAt l j) ∧
    (8 * l.length ≤ k → clearBit l k = (.outOfRange, l)) := by
  refine ⟨fun h => ?_, clearBit_oor l k⟩
  obtain ⟨l', e1, e2, e3⟩ := clearBit_ok l k h
  refine ⟨l', e1, e2, fun j => ?_⟩
  rw [e3]; by_cases hj : j = k <;> simp [hj]

example : clearBit [0xff, 0x40] 14 = (.ok, [0xff, 0]) := by decide

/-- C04: reading a bit returns that bit, or refuses a position outside the array. -/
theorem isBitSet_exact (l : Bytes) (k : Nat) :
    isBitSet l k = if k < 8 * l.length then some (bitAt l k) else none := by
  unfold isBitSet
  split
  · rw [if_neg (by omega)]
  · rw [if_pos (by omega)]
    have := mask_ne_zero (l.getD (k / 8) 0) ⟨k % 8, by omega⟩
    simp only at this
    rw [this]; rfl

/-- C04: the number of contiguous bits is the position of the first clear bit. -/
theorem numContiguousInArray_exact (l : Bytes) (m : Nat) :
    numContiguousInArray l = m ↔ IsFirstClear l m :=
  ⟨fun h => h ▸ numContiguous_spec l, fun h => (numContiguous_spec l).unique h⟩

/-- C04: "set next bit" sets precisely the lowest clear bit, or reports that there is none and changes nothing. -/
theorem setNextBit_exact (l : Bytes) :
    (∀ m, m < 8 * l.length → IsFirstClear l m → ∃ l', setNextBit l = (.ok, l') ∧ l'.length = l.length ∧
      ∀ j, bitAt l' j = if j = m then true else bitAt l j) ∧
    ((∀ j, j < 8 * l.length → bitAt l j = true) → setNextBit l = (.outOfRange, l)) := by
  constructor
  · intro m hm h
    have := (numContiguousInArray_exact l m).mpr h
    unfold setNextBit
    rw [this]
    exact (setBit_exact l m).1 hm
  · intro h
    have hf : IsFirstClear l (8 * l.length) := ⟨Nat.le_refl _, h, fun h => absurd h (Nat.lt_irrefl _)⟩
    unfold setNextBit
    rw [(numContiguousInArray_exact l _).mpr hf]
    exact setBit_oor l _ (Nat.le_refl _)

example : IsFirstClear [0xff, 0x03] 10 ∧ setNextBit [0xff, 0x03] = (.ok, [0xff, 0x07]) := by
  refine ⟨(numContiguousInArray_exact _ _).mp ?_, ?_⟩ <;> decide

/-- C04: growing to an even count always succeeds, only sets bits, sets no bit beyond the resulting run
of leading set bits, and leaves an even run. -/
theorem setNextBitEvenCount_exact (l : Bytes) :
    ∃ l' m, setNextBitEvenCount l = (.ok, l') ∧ l'.length = l.length ∧ IsFirstClear l' m ∧ m % 2 = 0 ∧
      (∀ j, bitAt l j = true → bitAt l' j = true) ∧ (∀ j, m ≤ j → bitAt l' j = bitAt l j) := by
  obtain ⟨st, l', e1, e2, e3, e4, e5⟩ := toCountLoop_spec (8 * l.length + 1) l 1 (by decide) (by omega)
  rcases e5 with ⟨rfl, h⟩ | ⟨_, h, _⟩
  · refine ⟨l', _, e1, e2, numContiguous_spec l', by omega, e3, ?_⟩
    intro j hj
    cases hb : bitAt l j with
    | true => exact e3 j hb
    | false =>
      cases hb' : bitAt l' j with
      | false => rfl
      | true =>
        rcases e4 j hb' with h1 | h1
        · rw [hb] at h1; cases h1
        · omega
  · cases h

/-- C04: growing to an odd count only sets bits within the resulting run; it either leaves an odd run or
reports that the array is full. -/
theorem setNextBitOddCount_exact (l : Bytes) :
    ∃ st l' m, setNextBitOddCount l = (st, l') ∧ l'.length = l.length ∧ IsFirstClear l' m ∧
      (∀ j, bitAt l j = true → bitAt l' j = true) ∧ (∀ j, m ≤ j → bitAt l' j = bitAt l j) ∧
      ((st = .ok ∧ m % 2 = 1) ∨ (st = .outOfRange ∧ m = 8 * l.length)) := by
  obtain ⟨st, l', e1, e2, e3, e4, e5⟩ := toCountLoop_spec (8 * l.length + 1) l 0 (by decide) (by omega)
  refine ⟨st, l', _, e1, e2, numContiguous_spec l', e3, ?_, ?_⟩
  · intro j hj
    cases hb : bitAt l j with
    | true => exact e3 j hb
    | false =>
      cases hb' : bitAt l' j with
      | false => rfl
      | true =>
        rcases e4 j hb' with h1 | h1
        · rw [hb] at h1; cases h1
        · omega
  · rcases e5 with ⟨h1, h2⟩ | ⟨h1, _, h2⟩
    · exact .inl ⟨h1, by omega⟩
    · exact .inr ⟨h1, by omega⟩

example : setNextBitEvenCount [0x01, 0] = (.ok, [0x03, 0]) := by decide
example : setNextBitOddCount [0xff] = (.outOfRange, [0xff]) := by decide

/-- C04: the population count of an array is its number of set bits. -/
theorem numBitsSetInArray_exact (l : Bytes) :
    numBitsSetInArray l = ((List.range (8 * l.length)).filter (bitAt l)).length := by
  have key : ∀ (l : Bytes) n, l.foldl (fun bits b => bits + countSetBits b 8) n =
      n + ((List.range (8 * l.length)).filter (bitAt l)).length := by
    intro l
    induction l with
    | nil => simp
    | cons b bs ih =>
      intro n
      have hr : 8 * (b :: bs).length = 8 + 8 * bs.length := by simp; omega
      rw [List.foldl_cons, ih, hr, List.range_add, List.filter_append, List.length_append, List.filter_map,
        List.length_map]
      have h1 : (List.range 8).filter (bitAt (b :: bs)) = (List.range 8).filter (fun i => b.toNat.testBit i) := by
        apply List.filter_congr
        intro i hi
        rw [bitAt_cons, if_pos (List.mem_range.mp hi)]
      have h2 : (List.range (8 * bs.length)).filter (bitAt (b :: bs) ∘ fun x => 8 + x) = (List.range (8 * bs.length)).filter (bitAt bs) := by
        apply List.filter_congr
        intro i _
        simp only [Function.comp, bitAt_cons]
        rw [if_neg (by omega), Nat.add_sub_cancel_left]
      rw [h1, h2]
      have := count_byte b 8
      simp only [show ((8 : Fin 9).val) = 8 from rfl] at this
      have h3 : countSetBits b 8 = countSetBits b ((8:Nat) : Int) := rfl
      rw [h3, this]; omega
  simpa [numBitsSetInArray] using key l 0

/-- C04: counting below an index counts the set bits of the byte at lower positions. -/
theorem numBitsSetBeforeIndex_exact (b index : UInt8) :
    numBitsSetBeforeIndex b index = ((List.range (min index.toNat 8)).filter (fun i => b.toNat.testBit i)).length := by
  unfold numBitsSetBeforeIndex
  by_cases h : index.toNat ≤ 8
  · have := count_byte b ⟨index.toNat, by omega⟩
    simp only at this
    rw [this, Nat.min_eq_left h]
  · rw [count_byte_large b index (by omega), Nat.min_eq_right (by omega)]
    exact count_byte b 8

/-- Byte swaps reverse the byte order: the result is the little-endian reading of the big-endian
representation of the argument. -/
theorem swap_reverses (a : UInt16) (b : UInt32) (c : UInt64) :
    (swap16 a).toNat = leNat (toBE 2 a.toNat) ∧ (swap32 b).toNat = leNat (toBE 4 b.toNat) ∧
    (swap64 c).toNat = leNat (toBE 8 c.toNat) :=
  ⟨swap16_spec a, swap32_spec b, swap64_spec c⟩

example : swap32 0x12345678 = 0x78563412 := by decide

/-- Saturating increments add one unless the value is already the maximum. -/
theorem satInc_exact (a : UInt8) (b : UInt16) (c : UInt32) :
    (satInc8 a).toNat = min (a.toNat + 1) 255 ∧ (satInc16 b).toNat = min (b.toNat + 1) 65535 ∧
    (satInc32 c).toNat = min (c.toNat + 1) 4294967295 := by
  have ha := a.toNat_lt
  have hb := b.toNat_lt
  have hc := c.toNat_lt
  refine ⟨?_, ?_, ?_⟩
  · unfold satInc8; split
    · rename_i h; subst h; rfl
    · rename_i h
      have : a.toNat ≠ 255 := fun e => h (UInt8.toNat_inj.mp e)
      rw [UInt8.toNat_add, UInt8.toNat_one]; omega
  · unfold satInc16; split
    · rename_i h; subst h; rfl
    · rename_i h
      have : b.toNat ≠ 65535 := fun e => h (UInt16.toNat_inj.mp e)
      rw [UInt16.toNat_add, UInt16.toNat_one]; omega
  · unfold satInc32; split
    · rename_i h; subst h; rfl
    · rename_i h
      have : c.toNat ≠ 4294967295 := fun e => h (UInt32.toNat_inj.mp e)
      rw [UInt32.toNat_add, UInt32.toNat_one]; omega

end Verif.CommonMath
