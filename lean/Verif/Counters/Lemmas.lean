import Verif.Counters.Spec
namespace Verif.Counters

theorem hiMask (n : Nat) (h : n < 2^32) : n &&& 0xffff0000 = n / 65536 * 65536 := by
  have e : (0xffff0000 : Nat) = (2^16-1) <<< 16 := by decide
  rw [e]
  have e2 : n / 65536 * 65536 = (n / 2^16) <<< 16 := by rw [Nat.shiftLeft_eq]
  rw [e2]
  apply Nat.eq_of_testBit_eq
  intro i
  rw [Nat.testBit_and, Nat.testBit_shiftLeft, Nat.testBit_shiftLeft, Nat.testBit_div_two_pow, Nat.testBit_two_pow_sub_one]
  by_cases hi : 16 ≤ i
  · simp only [hi, decide_true, Bool.true_and]
    rw [show i - 16 + 16 = i from by omega]
    by_cases hj : i - 16 < 16
    · simp [hj]
    · have : n.testBit i = false := Nat.testBit_lt_two_pow (Nat.lt_of_lt_of_le h (Nat.pow_le_pow_right (by decide) (by omega)))
      simp [this]
  · simp [hi]
theorem loMask (n : Nat) : n &&& 0xffff = n % 65536 := by
  exact Nat.and_two_pow_sub_one_eq_mod n 16
theorem hiSet (a : Nat) (c : Nat) (h : c < 65536) : (a * 65536) ||| c = a * 65536 + c := by
  have := Nat.two_pow_add_eq_or_of_lt (i := 16) h a
  rw [Nat.mul_comm a]; exact this.symm

theorem lowSet (a : BitVec 32) (c : BitVec 16) : ((a &&& 0xffff0000#32) ||| c.setWidth 32).toNat = a.toNat / 65536 * 65536 + c.toNat := by
  have hc : c.toNat < 65536 := c.isLt
  simp only [BitVec.toNat_or, BitVec.toNat_and, BitVec.toNat_ofNat, BitVec.toNat_setWidth]
  rw [show (4294901760 % 2^32) = 0xffff0000 from by decide, hiMask _ a.isLt, Nat.mod_eq_of_lt (by omega), hiSet _ _ hc]
theorem highSet (a : BitVec 32) (c : BitVec 16) : ((a &&& 0x0000ffff#32) ||| (c.setWidth 32 <<< 16)).toNat = c.toNat * 65536 + a.toNat % 65536 := by
  have hc : c.toNat < 65536 := c.isLt
  simp only [BitVec.toNat_or, BitVec.toNat_and, BitVec.toNat_ofNat, BitVec.toNat_setWidth, BitVec.toNat_shiftLeft]
  rw [show (65535 % 2^32) = 0xffff from by decide, loMask, Nat.mod_eq_of_lt (a := c.toNat) (by omega), Nat.shiftLeft_eq, Nat.mod_eq_of_lt (a := c.toNat * 2^16) (by omega), Nat.or_comm]
  exact hiSet _ _ (Nat.mod_lt _ (by decide))
theorem lowGet (a : BitVec 32) : (a &&& 0x0000ffff#32).toNat = a.toNat % 65536 := by
  simp only [BitVec.toNat_and, BitVec.toNat_ofNat]
  exact loMask _
theorem highGet (a : BitVec 32) : ((a >>> 16) &&& 0x0000ffff#32).toNat = a.toNat / 65536 := by
  have := a.isLt
  rw [lowGet]
  simp only [BitVec.toNat_ushiftRight, Nat.shiftRight_eq_div_pow]
  omega

theorem get_known {r : Regs} {t p : UInt8} {k : Ctr} {n : Nat} (h : named t p = some k) (hv : value r k = some n) :
    ∃ v, getCounter r t p = some v ∧ v.toNat = n := by
  unfold named at h
  unfold getCounter
  by_cases h0 : t = 0
  · rw [if_pos h0] at h ⊢
    cases h
    simp only [value, Option.some.injEq] at hv
    exact ⟨_, rfl, by rw [lowGet, hv]⟩
  · rw [if_neg h0] at h ⊢
    by_cases h1 : t = 1
    · rw [if_pos h1]
      by_cases h2 : p = 0
      · rw [if_pos ⟨h1, h2⟩] at h
        rw [if_pos h2]
        cases h
        simp only [value, Option.some.injEq] at hv
        exact ⟨_, rfl, by rw [highGet, hv]⟩
      · rw [if_neg (by simp [h2])] at h
        rw [if_neg h2]
        by_cases h3 : p = 1
        · rw [if_pos ⟨h1, h3⟩] at h
          cases h
          simp only [value] at hv
          cases hr : r.reg2 with
          | none => rw [hr] at hv; cases hv
          | some v =>
            rw [hr] at hv
            simp only [Option.map_some, Option.some.injEq] at hv
            exact ⟨v &&& 0x0000ffff#32, by simp [h3], by rw [lowGet, hv]⟩
        · rw [if_neg (by simp [h3])] at h
          cases h
    · rw [if_neg (by simp [h1]), if_neg (by simp [h1])] at h
      cases h

theorem get_some {r : Regs} {t p : UInt8} {v : BitVec 32} (h : getCounter r t p = some v) : ∃ k, named t p = some k ∧ value r k = some v.toNat := by
  unfold getCounter at h
  unfold named
  split at h
  · rename_i h0
    cases h
    exact ⟨.own, by rw [if_pos h0], by simp only [value]; rw [lowGet]⟩
  · rename_i h0
    rw [if_neg h0]
    split at h
    · rename_i h1
      split at h
      · rename_i h2
        cases h
        exact ⟨.comp0, by rw [if_pos ⟨h1, h2⟩], by simp only [value]; rw [highGet]⟩
      · rename_i h2
        split at h
        · rename_i w hr
          split at h
          · rename_i h3
            cases h
            exact ⟨.comp1, by rw [if_neg (by simp [h2]), if_pos ⟨h1, h3⟩], by simp only [value, hr, Option.map_some]; rw [lowGet]⟩
          · cases h
        · cases h
    · cases h

theorem set_some {r r' : Regs} {t p : UInt8} {c : BitVec 16} (h : setCounter r t p c = some r') :
    ∃ k, named t p = some k ∧ (∀ k', value r' k' = if k' = k then some c.toNat else value r k') ∧
      r'.reg2.map (fun v => v.toNat / 65536) = r.reg2.map (fun v => v.toNat / 65536) := by
  have hc : c.toNat < 65536 := c.isLt
  unfold setCounter at h
  unfold named
  split at h
  · rename_i h0
    cases h
    refine ⟨.own, by rw [if_pos h0], ?_, rfl⟩
    intro k'
    cases k' <;> simp only [value, reduceCtorEq, if_true, if_false, lowSet, Option.some.injEq] <;> omega
  · rename_i h0
    rw [if_neg h0]
    split at h
    · rename_i h1
      split at h
      · rename_i h2
        cases h
        refine ⟨.comp0, by rw [if_pos ⟨h1, h2⟩], ?_, rfl⟩
        intro k'
        cases k' <;> simp only [value, reduceCtorEq, if_true, if_false, highSet, Option.some.injEq] <;> omega
      · rename_i h2
        split at h
        · rename_i w hr
          split at h
          · rename_i h3
            cases h
            refine ⟨.comp1, by rw [if_neg (by simp [h2]), if_pos ⟨h1, h3⟩], ?_, ?_⟩
            · intro k'
              cases k' <;> simp only [value, reduceCtorEq, if_true, if_false, lowSet, Option.map_some, Option.some.injEq]
              omega
            · simp only [hr, Option.map_some, lowSet, Option.some.injEq]
              omega
          · cases h
        · cases h
    · cases h

/-- Setting works exactly where reading does. -/
theorem set_defined {r : Regs} {t p : UInt8} (c : BitVec 16) : (setCounter r t p c).isSome = (getCounter r t p).isSome := by
  unfold setCounter getCounter
  split
  · rfl
  · split
    · split
      · rfl
      · split
        · split <;> rfl
        · rfl
    · rfl

theorem get_defined {r : Regs} {t p : UInt8} {k : Ctr} (h : named t p = some k) : (getCounter r t p).isSome = (value r k).isSome := by
  cases hv : value r k with
  | none =>
    cases hg : getCounter r t p with
    | none => rfl
    | some v =>
      obtain ⟨k', h1, h2⟩ := get_some hg
      rw [h] at h1
      cases h1
      rw [hv] at h2
      cases h2
  | some n =>
    obtain ⟨v, h1, _⟩ := get_known h hv
    rw [h1]; rfl

theorem value_lt {r : Regs} {k : Ctr} {n : Nat} (h : value r k = some n) : n < 65536 := by
  have := r.reg1.isLt
  cases k with
  | own => simp only [value, Option.some.injEq] at h; omega
  | comp0 => simp only [value, Option.some.injEq] at h; omega
  | comp1 =>
    simp only [value] at h
    cases hr : r.reg2 with
    | none => rw [hr] at h; cases h
    | some v => rw [hr] at h; simp only [Option.map_some, Option.some.injEq] at h; omega

theorem writeBack_some {r r' : Regs} {t p : UInt8} {v : BitVec 32} (h : writeBack r t p v = some r') :
    ∃ k, named t p = some k ∧ (∀ k', value r' k' = if k' = k then some ((v.toNat + 1) % 65536) else value r k') ∧
      r'.reg2.map (fun v => v.toNat / 65536) = r.reg2.map (fun v => v.toNat / 65536) := by
  obtain ⟨k, h1, h2, h3⟩ := set_some h
  refine ⟨k, h1, ?_, h3⟩
  intro k'
  rw [h2 k']
  split
  · congr 1
    rw [BitVec.toNat_setWidth, BitVec.toNat_add]
    have : (1 : BitVec 32).toNat = 1 := by decide
    rw [this]
    omega
  · rfl

end Verif.Counters
