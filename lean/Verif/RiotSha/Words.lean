import Verif.RiotSha.Model
import Mathlib.Tactic.IntervalCases
/-! Byte order: the reversed words of a little-endian host are the big-endian words of FIPS 180-4. -/
namespace Verif.RiotSha

theorem be4 (b0 b1 b2 b3 : UInt8) :
    UInt32.ofNat (beNat [b0, b1, b2, b3]) = ⟨b0.toBitVec ++ b1.toBitVec ++ b2.toBitVec ++ b3.toBitVec⟩ := by
  apply UInt32.toNat_inj.mp
  have h0 := b0.toNat_lt; have h1 := b1.toNat_lt; have h2 := b2.toNat_lt; have h3 := b3.toNat_lt
  simp only [UInt32.toNat, BitVec.toNat_append, UInt8.toNat_toBitVec, UInt32.ofNat, BitVec.toNat_ofNat]
  rw [← Nat.shiftLeft_add_eq_or_of_lt (by omega), ← Nat.shiftLeft_add_eq_or_of_lt (by omega),
    ← Nat.shiftLeft_add_eq_or_of_lt (by omega)]
  simp only [beNat, List.length_cons, List.length_nil, Nat.shiftLeft_eq]
  omega

theorem beNat_reverse (l : Bytes) : beNat l.reverse = leNat l := by
  induction l with
  | nil => rfl
  | cons b bs ih => rw [List.reverse_cons, beNat_append_singleton, ih, leNat]; omega

theorem reverse32_bits (x : UInt32) (i : Nat) (h : i < 32) :
    (reverse32 x).toBitVec.getLsbD i = x.toBitVec.getLsbD (24 - 8 * (i / 8) + i % 8) := by
  simp only [reverse32]
  interval_cases i <;> simp

theorem reverse32_be (b0 b1 b2 b3 : UInt8) :
    reverse32 (UInt32.ofNat (beNat [b0, b1, b2, b3])) = UInt32.ofNat (beNat [b3, b2, b1, b0]) := by
  apply UInt32.toBitVec_inj.mp
  apply BitVec.eq_of_getLsbD_eq
  intro i hi
  rw [reverse32_bits _ _ hi, be4, be4]
  interval_cases i <;> (simp only [BitVec.getLsbD_append]; simp)

theorem list4 {l : Bytes} (h : l.length = 4) : ∃ a b c d, l = [a, b, c, d] := by
  match l, h with
  | [a, b, c, d], _ => exact ⟨a, b, c, d, rfl⟩

theorem reverse32_load (l : Bytes) (h : l.length = 4) :
    reverse32 (UInt32.ofNat (leNat l)) = UInt32.ofNat (beNat l) := by
  obtain ⟨a, b, c, d, rfl⟩ := list4 h
  rw [← beNat_reverse]
  exact reverse32_be d c b a

/-- Storing a reversed word gives its bytes with the most significant one first. -/
theorem store_reverse32 (w : UInt32) : store32 (reverse32 w) = toBE 4 w.toNat := by
  have h := list4 (toBE_length 4 w.toNat)
  obtain ⟨a, b, c, d, h⟩ := h
  have hw : UInt32.ofNat (beNat [a, b, c, d]) = w := by
    rw [← h, beNat_toBE, Nat.mod_eq_of_lt w.toNat_lt]; simp
  rw [← hw, reverse32_be]
  have e1 : [d, c, b, a] = [a, b, c, d].reverse := rfl
  rw [e1, beNat_reverse, store32]
  have h1 : leNat [a, b, c, d] < 2 ^ 32 := by
    have := leNat_lt [a, b, c, d]
    simp only [List.length_cons, List.length_nil] at this; omega
  have h2 : beNat [a, b, c, d] < 2 ^ 32 := by
    have := beNat_lt [a, b, c, d]
    simp only [List.length_cons, List.length_nil] at this; omega
  rw [UInt32.toNat_ofNat_of_lt' h1, UInt32.toNat_ofNat_of_lt' h2]
  rw [show 4 = [a, b, c, d].length from rfl, toLE_leNat, toBE_beNat]

theorem reverse64_bits (x : UInt64) (i : Nat) (h : i < 64) :
    (reverse64 x).toBitVec.getLsbD i = x.toBitVec.getLsbD (56 - 8 * (i / 8) + i % 8) := by
  simp only [reverse64]
  interval_cases i <;> simp

theorem be8 (b0 b1 b2 b3 b4 b5 b6 b7 : UInt8) :
    UInt64.ofNat (beNat [b0, b1, b2, b3, b4, b5, b6, b7]) =
      ⟨b0.toBitVec ++ b1.toBitVec ++ b2.toBitVec ++ b3.toBitVec ++ b4.toBitVec ++ b5.toBitVec
        ++ b6.toBitVec ++ b7.toBitVec⟩ := by
  apply UInt64.toNat_inj.mp
  have h0 := b0.toNat_lt; have h1 := b1.toNat_lt; have h2 := b2.toNat_lt; have h3 := b3.toNat_lt
  have h4 := b4.toNat_lt; have h5 := b5.toNat_lt; have h6 := b6.toNat_lt; have h7 := b7.toNat_lt
  simp only [UInt64.toNat, BitVec.toNat_append, UInt8.toNat_toBitVec, UInt64.ofNat, BitVec.toNat_ofNat]
  rw [← Nat.shiftLeft_add_eq_or_of_lt (by omega), ← Nat.shiftLeft_add_eq_or_of_lt (by omega),
    ← Nat.shiftLeft_add_eq_or_of_lt (by omega), ← Nat.shiftLeft_add_eq_or_of_lt (by omega),
    ← Nat.shiftLeft_add_eq_or_of_lt (by omega), ← Nat.shiftLeft_add_eq_or_of_lt (by omega),
    ← Nat.shiftLeft_add_eq_or_of_lt (by omega)]
  simp only [beNat, List.length_cons, List.length_nil, Nat.shiftLeft_eq]
  omega

theorem reverse64_be (b0 b1 b2 b3 b4 b5 b6 b7 : UInt8) :
    reverse64 (UInt64.ofNat (beNat [b0, b1, b2, b3, b4, b5, b6, b7])) =
      UInt64.ofNat (beNat [b7, b6, b5, b4, b3, b2, b1, b0]) := by
  apply UInt64.toBitVec_inj.mp
  apply BitVec.eq_of_getLsbD_eq
  intro i hi
  rw [reverse64_bits _ _ hi, be8, be8]
  interval_cases i <;> (simp only [BitVec.getLsbD_append]; simp)

theorem list8 {l : Bytes} (h : l.length = 8) : ∃ a b c d e f g i, l = [a, b, c, d, e, f, g, i] := by
  match l, h with
  | [a, b, c, d, e, f, g, i], _ => exact ⟨a, b, c, d, e, f, g, i, rfl⟩

/-- Storing the reversed bit count gives its bytes with the most significant one first. -/
theorem store_reverse64 (n : Nat) :
    toLE 8 (reverse64 (UInt64.ofNat n)).toNat = toBE 8 n := by
  obtain ⟨a, b, c, d, e, f, g, i, h⟩ := list8 (toBE_length 8 n)
  have hw : UInt64.ofNat (beNat [a, b, c, d, e, f, g, i]) = UInt64.ofNat n := by
    rw [← h, beNat_toBE]
    apply UInt64.toNat_inj.mp
    simp
  rw [h, ← hw, reverse64_be]
  have e1 : [i, g, f, e, d, c, b, a] = [a, b, c, d, e, f, g, i].reverse := rfl
  rw [e1, beNat_reverse]
  have h1 : leNat [a, b, c, d, e, f, g, i] < 2 ^ 64 := by
    have := leNat_lt [a, b, c, d, e, f, g, i]
    simp only [List.length_cons, List.length_nil] at this; omega
  rw [UInt64.toNat_ofNat_of_lt' h1]
  rw [show 8 = [a, b, c, d, e, f, g, i].length from rfl, toLE_leNat]

end Verif.RiotSha
