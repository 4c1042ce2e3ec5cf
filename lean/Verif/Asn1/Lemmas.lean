import Verif.Asn1.Model
/-! Helper lemmas for `asn1_util.c`. -/
namespace Verif.Asn1

theorem parseHeader_ne_oob (w : Nat) (der : Bytes) : parseHeader w der ≠ .oob := by
  unfold parseHeader
  split
  · simp
  · rename_i h
    rw [rd_ok (by omega)]
    simp only [Res.ok_bind]
    repeat' split
    all_goals first
      | (simp; done)
      | (rw [rd_ok (by omega)]; simp; done)
      | (rw [rd_ok (by omega), rd_ok (by omega)]; simp; done)
      | (rw [rd_ok (by omega), rd_ok (by omega), rd_ok (by omega)]; simp; done)
      | (rw [rd_ok (by omega), rd_ok (by omega), rd_ok (by omega), rd_ok (by omega)]; simp; done)

/-- What a successful header parse says. -/
theorem parseHeader_ok {w : Nat} {der : Bytes} {len hdr : Nat} (h : parseHeader w der = .ok (len, hdr)) :
    2 ≤ hdr ∧ hdr ≤ 6 ∧ hdr ≤ der.length ∧ (hdr < 6 → len < 2 ^ 24) := by
  unfold parseHeader at h
  split at h
  · simp at h
  · rename_i hl
    rw [rd_ok (by omega)] at h
    simp only [Res.ok_bind] at h
    split at h
    · split at h
      · simp at h
      · rw [rd_ok (by omega)] at h
        simp only [Res.ok_bind, Res.pure_eq, Res.ok.injEq, Prod.mk.injEq] at h
        have := (der[2]'(by omega)).toNat_lt
        omega
    · split at h
      · split at h
        · simp at h
        · rw [rd_ok (by omega), rd_ok (by omega)] at h
          simp only [Res.ok_bind, Res.pure_eq, Res.ok.injEq, Prod.mk.injEq] at h
          have := (der[2]'(by omega)).toNat_lt
          have := (der[3]'(by omega)).toNat_lt
          omega
      · split at h
        · split at h
          · simp at h
          · rw [rd_ok (by omega), rd_ok (by omega), rd_ok (by omega)] at h
            simp only [Res.ok_bind, Res.pure_eq, Res.ok.injEq, Prod.mk.injEq] at h
            have := (der[2]'(by omega)).toNat_lt
            have := (der[3]'(by omega)).toNat_lt
            have := (der[4]'(by omega)).toNat_lt
            omega
        · split at h
          · split at h
            · simp at h
            · rw [rd_ok (by omega), rd_ok (by omega), rd_ok (by omega), rd_ok (by omega)] at h
              simp only [Res.ok_bind, Res.pure_eq, Res.ok.injEq, Prod.mk.injEq] at h
              omega
          · split at h
            · simp only [Res.pure_eq, Res.ok.injEq, Prod.mk.injEq] at h
              have := (der[1]'(by omega)).toNat_lt
              omega
            · simp at h

theorem getItem_ne_oob (w : Nat) (tag : UInt8) (der : Bytes) : getItem w tag der ≠ .oob := by
  unfold getItem
  apply Res.bind_ne_oob (parseHeader_ne_oob w der)
  rintro ⟨len, hdr⟩ h
  have := parseHeader_ok h
  simp only
  rw [rd_ok (by omega)]
  simp only [Res.ok_bind]
  repeat' split
  all_goals simp

theorem getItem_ok {w : Nat} {tag : UInt8} {der : Bytes} {off len : Nat} (h : getItem w tag der = .ok (off, len)) :
    parseHeader w der = .ok (len, off) ∧ der[0]? = some tag ∧ (off + len) % 2 ^ w ≤ der.length := by
  unfold getItem at h
  rw [Res.bind_eq_ok] at h
  obtain ⟨⟨l, hd⟩, h1, h2⟩ := h
  have := parseHeader_ok h1
  simp only at h2
  rw [rd_ok (by omega)] at h2
  simp only [Res.ok_bind] at h2
  split at h2
  · simp at h2
  · split at h2
    · simp at h2
    · rename_i ht hb
      simp only [Res.pure_eq, Res.ok.injEq, Prod.mk.injEq] at h2
      obtain ⟨rfl, rfl⟩ := h2
      refine ⟨h1, ?_, by omega⟩
      rw [List.getElem?_eq_getElem (by omega)]
      simp only [ne_eq, Decidable.not_not] at ht
      rw [ht]

theorem sumLoop_eq (der : Bytes) (base : Nat) : ∀ (n i tmp : Nat), base + i + n ≤ der.length →
    sumLoop der base n i tmp = .ok (((tmp * 256 ^ n) + beNat ((der.drop (base + i)).take n)) % 2 ^ 64) ∨ 2 ^ 64 ≤ tmp := by
  intro n
  induction n with
  | zero =>
    intro i tmp _
    by_cases h : 2 ^ 64 ≤ tmp
    · exact .inr h
    · left
      simp only [sumLoop, Nat.pow_zero, Nat.mul_one, List.take_zero, beNat_nil, Nat.add_zero, Res.ok.injEq]
      rw [Nat.mod_eq_of_lt (by omega)]
  | succ n ih =>
    intro i tmp h
    left
    simp only [sumLoop]
    rw [rd_ok (by omega)]
    simp only [Res.ok_bind]
    rcases ih (i + 1) ((tmp * 256 + (der[base + i]'(by omega)).toNat) % 2 ^ 64) (by omega) with e | e
    · rw [e]
      congr 1
      have hd : der.drop (base + i) = der[base + i]'(by omega) :: der.drop (base + (i + 1)) := by
        rw [List.drop_eq_getElem_cons (by omega)]; rfl
      rw [hd, List.take_succ_cons, beNat_cons]
      have hlen : ((der.drop (base + (i + 1))).take n).length = n := by simp; omega
      rw [hlen]
      rw [Nat.add_mod, Nat.mod_mul_mod, ← Nat.add_mod]
      congr 1
      rw [Nat.pow_succ, Nat.add_mul]
      have : tmp * 256 * 256 ^ n = tmp * (256 ^ n * 256) := by rw [Nat.mul_assoc, Nat.mul_comm 256]
      omega
    · exact absurd (Nat.mod_lt (tmp * 256 + (der[base + i]'(by omega)).toNat) (by decide : 0 < 2 ^ 64)) (by omega)

theorem sumLoop_ok (der : Bytes) (base n : Nat) (h : base + n ≤ der.length) :
    sumLoop der base n 0 0 = .ok (beNat ((der.drop base).take n) % 2 ^ 64) := by
  rcases sumLoop_eq der base n 0 0 (by omega) with e | e
  · simpa using e
  · simp at e

theorem emit_ok (v : Nat) : ∀ (k dl : Nat) (der : Bytes), 2 + dl + (k + 1) ≤ der.length →
    emit v k dl der = .ok (dl + k + 1, der.take (2 + dl) ++ toBE (k + 1) v ++ der.drop (2 + dl + (k + 1))) := by
  intro k
  induction k with
  | zero =>
    intro dl der h
    unfold emit
    rw [if_pos (by omega)]
    simp only [wr]
    rw [if_pos (by omega)]
    simp only [Res.ok_bind, Res.pure_eq, Res.ok.injEq, Prod.mk.injEq, toBE, Nat.pow_zero, Nat.div_one, true_and, List.nil_append,
      Nat.add_zero, Nat.zero_add]
    rw [List.set_eq_take_append_cons_drop, if_pos (by omega)]; simp
  | succ k ih =>
    intro dl der h
    unfold emit
    rw [if_pos (by omega)]
    simp only [wr]
    rw [if_pos (by omega)]
    simp only [Res.ok_bind]
    rw [ih _ _ (by simp; omega)]
    simp only [Res.ok.injEq, Prod.mk.injEq]
    refine ⟨by omega, ?_⟩
    have h1 : toBE (k + 1 + 1) v = UInt8.ofNat (v / 256 ^ (k + 1)) :: toBE (k + 1) v := by
      rw [show k + 1 + 1 = 1 + (k + 1) by omega, toBE_add]; simp [toBE]
    rw [h1, show 2 + (dl + 1) = 2 + dl + 1 by omega, take_succ_set _ _ _ (by omega), drop_set_lt _ _ _ _ (by omega),
      show 2 + dl + 1 + (k + 1) = 2 + dl + (k + 1 + 1) by omega]
    simp

theorem emit_small (v : Nat) : ∀ (k dl : Nat) (der : Bytes), der.length < 2 + dl + (k + 1) →
    emit v k dl der = .err .smallDerBuffer := by
  intro k
  induction k with
  | zero => intro dl der h; unfold emit; rw [if_neg (by omega)]
  | succ k ih =>
    intro dl der h
    unfold emit
    split
    · simp only [wr]
      rw [if_pos (by omega)]
      simp only [Res.ok_bind]
      exact ih _ _ (by simp; omega)
    · rfl

/-- `findTop` finds the index of the most significant non-zero byte (0 for zero). -/
theorem findTop_spec (v : Nat) : ∀ k, v < 256 ^ (k + 1) →
    findTop v k ≤ k ∧ v < 256 ^ (findTop v k + 1) ∧ (findTop v k = 0 ∨ 256 ^ (findTop v k) ≤ v) := by
  intro k
  induction k with
  | zero => intro h; simp only [findTop]; exact ⟨Nat.le_refl _, h, .inl trivial⟩
  | succ k ih =>
    intro h
    simp only [findTop]
    have hq : v / 256 ^ (k + 1) < 256 := by
      rw [Nat.div_lt_iff_lt_mul (Nat.pow_pos (by decide)), Nat.mul_comm, ← Nat.pow_succ]; exact h
    split
    · rename_i hz
      rw [Nat.mod_eq_of_lt hq] at hz
      have hv : v < 256 ^ (k + 1) := by
        rcases Nat.div_eq_zero_iff.mp hz with h0 | h0
        · exact absurd h0 (Nat.pos_iff_ne_zero.mp (Nat.pow_pos (by decide)))
        · exact h0
      obtain ⟨a, b, c⟩ := ih hv
      exact ⟨by omega, b, c⟩
    · rename_i hz
      rw [Nat.mod_eq_of_lt hq] at hz
      refine ⟨Nat.le_refl _, h, .inr ?_⟩
      rcases Nat.lt_or_ge v (256 ^ (k + 1)) with h0 | h0
      · exact absurd (Nat.div_eq_of_lt h0) hz
      · exact h0

end Verif.Asn1
