import Verif.CommonMath.Model
import Verif.CommonMath.Spec
/-! Helper lemmas about bits for `common_math.c`. -/
namespace Verif.CommonMath

theorem or_mask_testBit : ∀ x : UInt8, ∀ m i : Fin 8,
    (x ||| UInt8.ofNat (1 <<< m.val)).toNat.testBit i.val = (x.toNat.testBit i.val || decide (i = m)) := by
  decide +kernel

theorem and_mask_testBit : ∀ x : UInt8, ∀ m i : Fin 8,
    (x &&& ~~~ (UInt8.ofNat (1 <<< m.val))).toNat.testBit i.val = (x.toNat.testBit i.val && !decide (i = m)) := by
  decide +kernel

theorem mask_ne_zero : ∀ x : UInt8, ∀ m : Fin 8,
    (x &&& UInt8.ofNat (1 <<< m.val) != 0) = x.toNat.testBit m.val := by
  decide +kernel

theorem contiguous_byte : ∀ x : UInt8, countSetBits x (-1) ≤ 8 ∧
    (∀ i : Fin 8, i.val < countSetBits x (-1) → x.toNat.testBit i.val = true) ∧
    (countSetBits x (-1) < 8 → x.toNat.testBit (countSetBits x (-1)) = false) := by
  decide +kernel

theorem count_byte : ∀ x : UInt8, ∀ s : Fin 9,
    countSetBits x (s.val : Int) = ((List.range s.val).filter (fun i => x.toNat.testBit i)).length := by
  decide +kernel

theorem count_byte_large : ∀ x : UInt8, ∀ s : UInt8, 8 ≤ s.toNat → countSetBits x (s.toNat : Int) = countSetBits x 8 := by
  have key : ∀ (fuel : Nat) (x : UInt8) (s t : Int) (n : Nat), (fuel : Int) ≤ s → (fuel : Int) ≤ t →
      countLoop fuel x s n = countLoop fuel x t n := by
    intro fuel
    induction fuel with
    | zero => intros; rfl
    | succ f ih =>
      intro x s t n hs ht
      simp only [countLoop]
      have h1 : s ≠ 0 := by omega
      have h2 : t ≠ 0 := by omega
      have h3 : ¬ s < 0 := by omega
      have h4 : ¬ t < 0 := by omega
      simp only [h1, h2, h3, h4, if_false, ite_self, ne_eq, not_false_eq_true, and_true]
      split
      · exact ih _ _ _ _ (by omega) (by omega)
      · rfl
  have h98 : ∀ x : UInt8, ∀ s : Fin 2, countSetBits x ((s.val : Int) + 8) = countSetBits x 8 := by decide +kernel
  intro x s h
  by_cases e : s.toNat = 8
  · rw [e]; rfl
  · have := key 9 x s.toNat 9 0 (by omega) (by omega)
    have h9 := h98 x 1
    unfold countSetBits at *
    rw [this]; exact h9

theorem bitAt_cons (b : UInt8) (bs : Bytes) (k : Nat) :
    bitAt (b :: bs) k = if k < 8 then b.toNat.testBit k else bitAt bs (k - 8) := by
  unfold bitAt
  split
  · rename_i h
    rw [Nat.div_eq_of_lt h, Nat.mod_eq_of_lt h]; rfl
  · rename_i h
    have h1 : k / 8 = (k - 8) / 8 + 1 := by omega
    have h2 : k % 8 = (k - 8) % 8 := by omega
    rw [h1, h2]; rfl

theorem bitAt_outside (l : Bytes) (k : Nat) (h : 8 * l.length ≤ k) : bitAt l k = false := by
  unfold bitAt
  have : l.getD (k / 8) 0 = 0 := by
    simp only [List.getD]
    rw [List.getElem?_eq_none (by omega)]; rfl
  rw [this]; simp

theorem bitAt_set (l : Bytes) (i : Nat) (x : UInt8) (j : Nat) (h : i < l.length) :
    bitAt (l.set i x) j = if j / 8 = i then x.toNat.testBit (j % 8) else bitAt l j := by
  unfold bitAt
  simp only [List.getD]
  rw [List.getElem?_set]
  split
  · rename_i e; subst e; simp
  · rename_i e; rw [if_neg (fun h => e h.symm)]

theorem contiguousLoop_spec (l : Bytes) : ∀ total, ∃ m, contiguousLoop l 8 total = total + m ∧ IsFirstClear l m := by
  induction l with
  | nil => intro total; exact ⟨0, rfl, by simp [IsFirstClear]⟩
  | cons b bs ih =>
    intro total
    simp only [contiguousLoop, if_true]
    obtain ⟨h1, h2, h3⟩ := contiguous_byte b
    generalize countSetBits b (-1) = c at *
    by_cases hc : c = 8
    · subst hc
      obtain ⟨m, e, f1, f2, f3⟩ := ih (total + 8)
      refine ⟨m + 8, by omega, by simp; omega, ?_, ?_⟩
      · intro j hj
        rw [bitAt_cons]
        split
        · rename_i h; exact h2 ⟨j, h⟩ (by simpa using h)
        · exact f2 _ (by omega)
      · intro hm
        rw [bitAt_cons, if_neg (by omega), Nat.add_sub_cancel]
        exact f3 (by simp at hm; omega)
    · refine ⟨c, ?_, by simp; omega, ?_, ?_⟩
      · cases bs <;> simp [contiguousLoop, hc]
      · intro j hj
        rw [bitAt_cons, if_pos (by omega)]
        exact h2 ⟨j, by omega⟩ hj
      · intro _
        rw [bitAt_cons, if_pos (by omega)]
        exact h3 (by omega)

theorem numContiguous_spec (l : Bytes) : IsFirstClear l (numContiguousInArray l) := by
  obtain ⟨m, e, h⟩ := contiguousLoop_spec l 0
  unfold numContiguousInArray
  rw [e, Nat.zero_add]; exact h

theorem IsFirstClear.unique {l : Bytes} {m n : Nat} (hm : IsFirstClear l m) (hn : IsFirstClear l n) : m = n := by
  obtain ⟨a1, a2, a3⟩ := hm
  obtain ⟨b1, b2, b3⟩ := hn
  rcases Nat.lt_trichotomy m n with h | h | h
  · have := b2 m h; rw [a3 (by omega)] at this; cases this
  · exact h
  · have := a2 n h; rw [b3 (by omega)] at this; cases this

theorem setBit_ok (l : Bytes) (k : Nat) (h : k < 8 * l.length) :
    ∃ l', setBit l k = (.ok, l') ∧ l'.length = l.length ∧ ∀ j, bitAt l' j = (bitAt l j || decide (j = k)) := by
  unfold setBit
  rw [if_neg (by omega)]
  refine ⟨_, rfl, by simp, ?_⟩
  intro j
  rw [bitAt_set _ _ _ _ (by omega)]
  have := or_mask_testBit (l.getD (k / 8) 0) ⟨k % 8, by omega⟩ ⟨j % 8, by omega⟩
  split
  · rename_i e
    rw [this]
    have : bitAt l j = (l.getD (k / 8) 0).toNat.testBit (j % 8) := by rw [← e]; rfl
    rw [this]
    congr 1
    simp only [Fin.mk.injEq]
    have : j % 8 = k % 8 ↔ j = k := by omega
    simp [this]
  · rename_i e
    have : j ≠ k := by intro h; subst h; exact e rfl
    simp [this]

theorem clearBit_ok (l : Bytes) (k : Nat) (h : k < 8 * l.length) :
    ∃ l', clearBit l k = (.ok, l') ∧ l'.length = l.length ∧ ∀ j, bitAt l' j = (bitAt l j && !decide (j = k)) := by
  unfold clearBit
  rw [if_neg (by omega)]
  refine ⟨_, rfl, by simp, ?_⟩
  intro j
  rw [bitAt_set _ _ _ _ (by omega)]
  have := and_mask_testBit (l.getD (k / 8) 0) ⟨k % 8, by omega⟩ ⟨j % 8, by omega⟩
  split
  · rename_i e
    rw [this]
    have : bitAt l j = (l.getD (k / 8) 0).toNat.testBit (j % 8) := by rw [← e]; rfl
    rw [this]
    congr 2
    simp only [Fin.mk.injEq]
    have : j % 8 = k % 8 ↔ j = k := by omega
    simp [this]
  · rename_i e
    have : j ≠ k := by intro h; subst h; exact e rfl
    simp [this]

theorem setBit_oor (l : Bytes) (k : Nat) (h : 8 * l.length ≤ k) : setBit l k = (.outOfRange, l) := by
  unfold setBit; rw [if_pos (by omega)]

theorem clearBit_oor (l : Bytes) (k : Nat) (h : 8 * l.length ≤ k) : clearBit l k = (.outOfRange, l) := by
  unfold clearBit; rw [if_pos (by omega)]

/-- Setting the first clear bit makes the run of leading set bits longer. -/
theorem firstClear_grows {l l' : Bytes} {m m' : Nat} (hm : IsFirstClear l m) (hlt : m < 8 * l.length)
    (hl : l'.length = l.length) (hb : ∀ j, bitAt l' j = (bitAt l j || decide (j = m)))
    (hm' : IsFirstClear l' m') : m < m' := by
  obtain ⟨_, b2, _⟩ := hm
  obtain ⟨_, c2, c3⟩ := hm'
  rcases Nat.lt_or_ge m m' with h | h
  · exact h
  · have := c3 (by omega)
    rw [hb] at this
    rcases Nat.lt_or_eq_of_le h with h | h
    · rw [b2 m' h] at this; simp at this
    · simp [h] at this

theorem toCountLoop_spec (fuel : Nat) : ∀ (l : Bytes) (even : Nat), even < 2 →
    8 * l.length + 1 ≤ fuel + numContiguousInArray l →
    ∃ st l', toCountLoop fuel l even = (st, l') ∧ l'.length = l.length ∧
      (∀ j, bitAt l j = true → bitAt l' j = true) ∧
      (∀ j, bitAt l' j = true → bitAt l j = true ∨ j < numContiguousInArray l') ∧
      ((st = .ok ∧ numContiguousInArray l' % 2 ≠ even) ∨
       (st = .outOfRange ∧ even = 0 ∧ numContiguousInArray l' = 8 * l'.length)) := by
  induction fuel with
  | zero =>
    intro l even _ h
    have := (numContiguous_spec l).1
    omega
  | succ f ih =>
    intro l even he h
    have hm := numContiguous_spec l
    simp only [toCountLoop]
    by_cases hp : numContiguousInArray l % 2 = even
    · rw [if_pos hp]
      by_cases hlt : numContiguousInArray l < 8 * l.length
      · obtain ⟨l1, e1, e2, e3⟩ := setBit_ok l _ hlt
        rw [e1]
        have hg := firstClear_grows hm hlt e2 e3 (numContiguous_spec l1)
        obtain ⟨st, l', g1, g2, g3, g4, g5⟩ := ih l1 even he (by omega)
        refine ⟨st, l', g1, by omega, ?_, ?_, g5⟩
        · intro j hj; exact g3 j (by rw [e3, hj]; rfl)
        · intro j hj
          rcases g4 j hj with h1 | h1
          · rw [e3] at h1
            simp only [Bool.or_eq_true, decide_eq_true_eq] at h1
            rcases h1 with h1 | h1
            · exact .inl h1
            · right
              subst h1
              rcases Nat.lt_or_ge (numContiguousInArray l) (numContiguousInArray l') with hh | hh
              · exact hh
              · have ha := numContiguous_spec l'
                exfalso
                rcases Nat.lt_or_eq_of_le hh with hh | hh
                · have := ha.2.2 (by omega)
                  have h2 := g3 _ ((numContiguous_spec l1).2.1 (numContiguousInArray l') (by omega))
                  rw [this] at h2; cases h2
                · have := ha.2.2 (by omega)
                  rw [hh, hj] at this; cases this
          · exact .inr h1
      · rw [setBit_oor _ _ (by omega)]
        refine ⟨_, _, rfl, rfl, fun _ h => h, fun _ h => .inl h, .inr ⟨rfl, ?_, ?_⟩⟩
        · have := hm.1; omega
        · have := hm.1; omega
    · rw [if_neg hp]
      exact ⟨_, _, rfl, rfl, fun _ h => h, fun _ h => .inl h, .inl ⟨rfl, hp⟩⟩

theorem swap16_toNat (d : UInt16) : (swap16 d).toNat = d.toNat % 256 * 256 + d.toNat / 256 := by
  have hd := d.toNat_lt
  unfold swap16
  simp only [UInt16.toNat_or, UInt16.toNat_and, UInt16.toNat_shiftRight, UInt16.toNat_shiftLeft]
  have h1 : (255 : UInt16).toNat = 2 ^ 8 - 1 := rfl
  have h2 : (8 : UInt16).toNat % 16 = 8 := rfl
  rw [h1, h2, Nat.and_two_pow_sub_one_eq_mod, Nat.and_two_pow_sub_one_eq_mod, Nat.shiftRight_eq_div_pow,
    Nat.shiftLeft_eq, Nat.or_comm]
  have h3 : d.toNat / 2 ^ 8 % 2 ^ 8 < 2 ^ 8 := Nat.mod_lt _ (by decide)
  have h4 : d.toNat % 2 ^ 8 * 2 ^ 8 % 2 ^ 16 = (d.toNat % 2 ^ 8) <<< 8 := by
    rw [Nat.shiftLeft_eq]; omega
  rw [h4, ← Nat.shiftLeft_add_eq_or_of_lt h3, Nat.shiftLeft_eq]
  omega

theorem leNat_toBE_double (k n : Nat) :
    leNat (toBE (k + k) n) = leNat (toBE k (n / 256 ^ k)) + 256 ^ k * leNat (toBE k (n % 256 ^ k)) := by
  rw [toBE_add, leNat_append, toBE_length, toBE_mod]

theorem swap16_spec (d : UInt16) : (swap16 d).toNat = leNat (toBE 2 d.toNat) := by
  have hd := d.toNat_lt
  rw [swap16_toNat, leNat_toBE_double 1]
  simp [toBE, leNat]
  omega

theorem swap32_toNat (d : UInt32) : (swap32 d).toNat =
    (swap16 (d.toNat % 2 ^ 16).toUInt16).toNat * 2 ^ 16 + (swap16 (d.toNat / 2 ^ 16).toUInt16).toNat := by
  have hd := d.toNat_lt
  unfold swap32
  simp only [UInt32.toNat_or, UInt32.toNat_shiftLeft, UInt16.toNat_toUInt32]
  have h1 : (65535 : UInt32).toNat = 2 ^ 16 - 1 := rfl
  have h2 : (16 : UInt32).toNat % 32 = 16 := rfl
  have h5 : ((d >>> 16) &&& (0xffff : UInt32)).toUInt16 = (d.toNat / 2 ^ 16).toUInt16 := by
    apply UInt16.toNat_inj.mp
    rw [UInt32.toNat_toUInt16, UInt32.toNat_and, UInt32.toNat_shiftRight, h1, h2, Nat.and_two_pow_sub_one_eq_mod,
      Nat.shiftRight_eq_div_pow]
    simp only [Nat.toUInt16_eq, UInt16.toNat_ofNat']
    omega
  have h6 : (d &&& (0xffff : UInt32)).toUInt16 = (d.toNat % 2 ^ 16).toUInt16 := by
    apply UInt16.toNat_inj.mp
    rw [UInt32.toNat_toUInt16, UInt32.toNat_and, h1, Nat.and_two_pow_sub_one_eq_mod]
    simp only [Nat.toUInt16_eq, UInt16.toNat_ofNat']
  rw [h5, h6, h2, Nat.or_comm]
  have h3 := (swap16 (d.toNat / 2 ^ 16).toUInt16).toNat_lt
  have h7 := (swap16 (d.toNat % 2 ^ 16).toUInt16).toNat_lt
  have h4 : (swap16 (d.toNat % 2 ^ 16).toUInt16).toNat <<< 16 % 2 ^ 32 = (swap16 (d.toNat % 2 ^ 16).toUInt16).toNat <<< 16 := by
    rw [Nat.shiftLeft_eq]; omega
  rw [h4, ← Nat.shiftLeft_add_eq_or_of_lt h3, Nat.shiftLeft_eq]

theorem swap32_spec (d : UInt32) : (swap32 d).toNat = leNat (toBE 4 d.toNat) := by
  have hd := d.toNat_lt
  have e1 : ((d.toNat % 2 ^ 16).toUInt16).toNat = d.toNat % 2 ^ 16 := by
    simp only [Nat.toUInt16_eq, UInt16.toNat_ofNat']; omega
  have e2 : ((d.toNat / 2 ^ 16).toUInt16).toNat = d.toNat / 2 ^ 16 := by
    simp only [Nat.toUInt16_eq, UInt16.toNat_ofNat']; omega
  rw [swap32_toNat, swap16_spec, swap16_spec, e1, e2, show 4 = 2 + 2 from rfl, leNat_toBE_double 2,
    show 256 ^ 2 = 2 ^ 16 from rfl]
  omega

theorem swap64_toNat (d : UInt64) : (swap64 d).toNat =
    (swap32 (d.toNat % 2 ^ 32).toUInt32).toNat * 2 ^ 32 + (swap32 (d.toNat / 2 ^ 32).toUInt32).toNat := by
  have hd := d.toNat_lt
  unfold swap64
  simp only [UInt64.toNat_or, UInt64.toNat_shiftLeft, UInt32.toNat_toUInt64]
  have h1 : (4294967295 : UInt64).toNat = 2 ^ 32 - 1 := rfl
  have h2 : (32 : UInt64).toNat % 64 = 32 := rfl
  have h5 : ((d >>> 32) &&& (0xffffffff : UInt64)).toUInt32 = (d.toNat / 2 ^ 32).toUInt32 := by
    apply UInt32.toNat_inj.mp
    rw [UInt64.toNat_toUInt32, UInt64.toNat_and, UInt64.toNat_shiftRight, h1, h2, Nat.and_two_pow_sub_one_eq_mod,
      Nat.shiftRight_eq_div_pow]
    simp only [Nat.toUInt32_eq, UInt32.toNat_ofNat']
    omega
  have h6 : (d &&& (0xffffffff : UInt64)).toUInt32 = (d.toNat % 2 ^ 32).toUInt32 := by
    apply UInt32.toNat_inj.mp
    rw [UInt64.toNat_toUInt32, UInt64.toNat_and, h1, Nat.and_two_pow_sub_one_eq_mod]
    simp only [Nat.toUInt32_eq, UInt32.toNat_ofNat']
  rw [h5, h6, h2, Nat.or_comm]
  have h3 := (swap32 (d.toNat / 2 ^ 32).toUInt32).toNat_lt
  have h7 := (swap32 (d.toNat % 2 ^ 32).toUInt32).toNat_lt
  have h4 : (swap32 (d.toNat % 2 ^ 32).toUInt32).toNat <<< 32 % 2 ^ 64 = (swap32 (d.toNat % 2 ^ 32).toUInt32).toNat <<< 32 := by
    rw [Nat.shiftLeft_eq]; omega
  rw [h4, ← Nat.shiftLeft_add_eq_or_of_lt h3, Nat.shiftLeft_eq]

theorem swap64_spec (d : UInt64) : (swap64 d).toNat = leNat (toBE 8 d.toNat) := by
  have hd := d.toNat_lt
  have e1 : ((d.toNat % 2 ^ 32).toUInt32).toNat = d.toNat % 2 ^ 32 := by
    simp only [Nat.toUInt32_eq, UInt32.toNat_ofNat']; omega
  have e2 : ((d.toNat / 2 ^ 32).toUInt32).toNat = d.toNat / 2 ^ 32 := by
    simp only [Nat.toUInt32_eq, UInt32.toNat_ofNat']; omega
  rw [swap64_toNat, swap32_spec, swap32_spec, e1, e2, show 8 = 4 + 4 from rfl, leNat_toBE_double 4,
    show 256 ^ 4 = 2 ^ 32 from rfl]
  omega

end Verif.CommonMath
