import Verif.Checksum.Model
import Verif.Checksum.Spec
import Mathlib.Algebra.CharP.Two
import Mathlib.Tactic.Ring
import Mathlib.RingTheory.Coprime.Lemmas
import Mathlib.Tactic.LinearCombination
import Mathlib.Tactic.ComputeDegree
/-! Property C17: the packet error code. -/
namespace Verif.Checksum
open Polynomial

/-- The coefficient of a bit. -/
noncomputable def cb (b : Bool) : (ZMod 2)[X] := if b then 1 else 0

theorem cb_xor (a b : Bool) : cb (a ^^ b) = cb a + cb b := by
  cases a <;> cases b <;> simp [cb, CharTwo.add_self_eq_zero]

theorem poly_append (a b : List Bool) : poly (a ++ b) = poly a * X ^ b.length + poly b := by
  have h : ∀ (b : List Bool) (p : (ZMod 2)[X]),
      b.foldl (fun p b => p * X + if b then 1 else 0) p = p * X ^ b.length + poly b := by
    intro b
    induction b with
    | nil => intro p; simp [poly]
    | cons x xs ih =>
      intro p
      simp only [List.foldl_cons, List.length_cons, poly]
      rw [ih, ih (0 * X + _)]
      ring
  unfold poly
  rw [List.foldl_append, h, poly]

theorem byteBits_length (b : UInt8) : (byteBits b).length = 8 := rfl

theorem poly_byte (b : UInt8) : poly (byteBits b) =
    cb (b.toNat.testBit 7) * X ^ 7 + cb (b.toNat.testBit 6) * X ^ 6 + cb (b.toNat.testBit 5) * X ^ 5 + cb (b.toNat.testBit 4) * X ^ 4 +
    cb (b.toNat.testBit 3) * X ^ 3 + cb (b.toNat.testBit 2) * X ^ 2 + cb (b.toNat.testBit 1) * X + cb (b.toNat.testBit 0) := by
  simp only [poly, byteBits, List.map_cons, List.map_nil, List.foldl_cons, List.foldl_nil, cb]
  ring

theorem poly_xor (a b : UInt8) : poly (byteBits (a ^^^ b)) = poly (byteBits a) + poly (byteBits b) := by
  simp only [poly_byte, UInt8.toNat_xor, Nat.testBit_xor, cb_xor]
  ring

theorem shift_bits (c : UInt8) : byteBits (shift c) =
    [c.toNat.testBit 6, c.toNat.testBit 5, c.toNat.testBit 4, c.toNat.testBit 3, c.toNat.testBit 2,
      c.toNat.testBit 1 ^^ c.toNat.testBit 7, c.toNat.testBit 0 ^^ c.toNat.testBit 7, c.toNat.testBit 7] := by
  revert c; decide +kernel

theorem poly_shift (c : UInt8) : poly (byteBits (shift c)) = poly (byteBits c) * X + cb (c.toNat.testBit 7) * generator := by
  rw [shift_bits, poly_byte]
  simp only [poly, List.foldl_cons, List.foldl_nil]
  have e : ∀ a : Bool, (if a = true then 1 else 0 : (ZMod 2)[X]) = cb a := fun _ => rfl
  simp only [e, cb_xor, generator]
  have h2 : ∀ p : (ZMod 2)[X], 2 * p = 0 := fun p => by rw [two_mul, CharTwo.add_self_eq_zero]
  linear_combination - h2 (cb (c.toNat.testBit 7) * X ^ 8)

/-- Equality up to a multiple of the generator. -/
def Eqv (p r : (ZMod 2)[X]) : Prop := ∃ q, p = r + q * generator

theorem Eqv.mul {p r : (ZMod 2)[X]} (h : Eqv p r) (m : (ZMod 2)[X]) : Eqv (p * m) (r * m) := by
  obtain ⟨q, rfl⟩ := h; exact ⟨q * m, by ring⟩

theorem Eqv.add {p r : (ZMod 2)[X]} (h : Eqv p r) (m : (ZMod 2)[X]) : Eqv (p + m) (r + m) := by
  obtain ⟨q, rfl⟩ := h; exact ⟨q, by ring⟩

theorem Eqv.trans {p r s : (ZMod 2)[X]} (h : Eqv p r) (h' : Eqv r s) : Eqv p s := by
  obtain ⟨q, rfl⟩ := h; obtain ⟨q', rfl⟩ := h'; exact ⟨q + q', by ring⟩

theorem eqv_shift (c : UInt8) (n : Nat) {p : (ZMod 2)[X]} (h : Eqv (poly (byteBits c)) (p * X ^ n)) :
    Eqv (poly (byteBits (shift c))) (p * X ^ (n + 1)) := by
  rw [pow_succ, ← mul_assoc]
  refine Eqv.trans ⟨_, poly_shift c⟩ (h.mul X)

theorem eqv_shift8 (c : UInt8) : Eqv (poly (byteBits (shift8 c))) (poly (byteBits c) * X ^ 8) := by
  have h0 : Eqv (poly (byteBits c)) (poly (byteBits c) * X ^ 0) := ⟨0, by ring⟩
  exact eqv_shift _ _ (eqv_shift _ _ (eqv_shift _ _ (eqv_shift _ _ (eqv_shift _ _ (eqv_shift _ _ (eqv_shift _ _
    (eqv_shift _ _ h0)))))))

theorem bits_cons (b : UInt8) (m : Bytes) : bits (b :: m) = byteBits b ++ bits m := by simp [bits]

theorem bits_append (a b : Bytes) : bits (a ++ b) = bits a ++ bits b := by simp [bits]

theorem bits_length (m : Bytes) : (bits m).length = 8 * m.length := by
  induction m with
  | nil => rfl
  | cons b m ih => rw [bits_cons, List.length_append, ih, byteBits_length, List.length_cons]; omega

theorem eqv_update (m : Bytes) : ∀ (c : UInt8) (p : (ZMod 2)[X]), Eqv (poly (byteBits c)) (p * X ^ 8) →
    Eqv (poly (byteBits (update c m))) ((p * X ^ (8 * m.length) + poly (bits m)) * X ^ 8) := by
  induction m with
  | nil => intro c p h; simpa [update, bits, poly] using h
  | cons d m ih =>
    intro c p h
    show Eqv (poly (byteBits (update (shift8 (c ^^^ d)) m))) _
    have h1 : Eqv (poly (byteBits (shift8 (c ^^^ d)))) ((p * X ^ 8 + poly (byteBits d)) * X ^ 8) := by
      refine Eqv.trans (eqv_shift8 _) ?_
      rw [poly_xor]
      exact (h.add _).mul _
    have := ih _ _ h1
    rw [bits_cons, poly_append, bits_length, List.length_cons]
    convert this using 1
    ring

theorem generator_monic : generator.Monic := by
  unfold generator; monicity!

theorem generator_degree : generator.degree = 8 := by
  unfold generator; compute_degree!

theorem cb_degree (b : Bool) : (cb b).degree ≤ 0 := by
  cases b <;> simp [cb]

theorem poly_degree (l : List Bool) : (poly l).degree < l.length := by
  induction l using List.reverseRecOn with
  | nil => simp [poly]
  | append_singleton l b ih =>
    rw [poly_append, List.length_append]
    have hb : (poly [b]).degree ≤ 0 := by
      have : poly [b] = cb b := by simp [poly, cb]
      rw [this]; exact cb_degree b
    refine lt_of_le_of_lt (degree_add_le _ _) (max_lt ?_ ?_)
    · simp only [List.length_cons, List.length_nil, zero_add, pow_one]
      by_cases h0 : poly l = 0
      · rw [h0]; simp
      · rw [degree_mul_X]
        rw [degree_eq_natDegree h0] at ih ⊢
        push_cast
        norm_cast at ih ⊢
        omega
    · refine lt_of_le_of_lt hb ?_
      norm_cast; simp

/-- The checksum of a packet, as polynomials: C17. The value computed over address and data is the remainder of the
message polynomial times x^8 divided by the generator. -/
theorem crc_remainder (addr : UInt8) (data : Bytes) :
    poly (byteBits (update (init addr) data)) = (poly (bits (addr :: data)) * X ^ 8) %ₘ generator := by
  have h0 : Eqv (poly (byteBits 0)) (0 * X ^ 8) := ⟨0, by simp [poly_byte, cb]⟩
  have h : Eqv (poly (byteBits (update 0 (addr :: data)))) ((0 * X ^ (8 * (addr :: data).length) + poly (bits (addr :: data))) * X ^ 8) :=
    eqv_update (addr :: data) 0 0 h0
  obtain ⟨q, hq⟩ := h
  have : update (init addr) data = update 0 (addr :: data) := rfl
  rw [this]
  refine (div_modByMonic_unique (f := poly (bits (addr :: data)) * X ^ 8) (-q) _ generator_monic ⟨?_, ?_⟩).2.symm
  · rw [hq]; ring
  · rw [generator_degree]; exact poly_degree _

theorem poly_snoc (l : List Bool) (b : Bool) : poly (l ++ [b]) = poly l * X + C (if b then 1 else 0) := by
  rw [poly_append]
  cases b <;> simp [poly]

theorem poly_inj : ∀ (l l' : List Bool), l.length = l'.length → poly l = poly l' → l = l' := by
  intro l
  induction l using List.reverseRecOn with
  | nil => intro l' h _; exact (List.eq_nil_of_length_eq_zero h.symm).symm
  | append_singleton l b ih =>
    intro l' hl h
    rcases List.eq_nil_or_concat l' with rfl | ⟨l', b', rfl⟩
    · simp at hl
    · rw [List.concat_eq_append] at *
      rw [poly_snoc, poly_snoc] at h
      have h0 := congrArg (fun p => coeff p 0) h
      simp only [coeff_add, coeff_mul_X_zero, coeff_C_zero, zero_add] at h0
      have hb : b = b' := by
        cases b <;> cases b' <;> simp_all
      subst hb
      have hp : poly l = poly l' := by
        ext n
        have := congrArg (fun p => coeff p (n + 1)) h
        simpa only [coeff_add, coeff_mul_X, coeff_C_succ, add_zero] using this
      rw [ih l' (by simpa using hl) hp]

theorem generator_coprime (n : Nat) : IsCoprime generator (X ^ n : (ZMod 2)[X]) := by
  apply IsCoprime.pow_right
  exact ⟨1, -(X ^ 7 + X + 1), by unfold generator; ring⟩

/-- C17: if two messages to any address differ only in a burst of at most eight consecutive bits, their checksums differ. -/
theorem crc_detects_burst (addr addr' : UInt8) (data data' : Bytes) (pre b b' post : List Bool)
    (h : bits (addr :: data) = pre ++ b ++ post) (h' : bits (addr' :: data') = pre ++ b' ++ post)
    (hl : b.length = b'.length) (h8 : b.length ≤ 8) (hne : b ≠ b') :
    update (init addr) data ≠ update (init addr') data' := by
  intro heq
  have e := crc_remainder addr data
  rw [heq, crc_remainder addr' data', h, h'] at e
  have hd : generator ∣ (poly b' - poly b) * X ^ (post.length + 8) := by
    have h1 := modByMonic_add_div (poly (pre ++ b' ++ post) * X ^ 8) generator
    have h2 := modByMonic_add_div (poly (pre ++ b ++ post) * X ^ 8) generator
    rw [← e] at h2
    refine ⟨(poly (pre ++ b' ++ post) * X ^ 8) /ₘ generator - (poly (pre ++ b ++ post) * X ^ 8) /ₘ generator, ?_⟩
    simp only [poly_append, ← hl] at h1 h2 ⊢
    linear_combination h2 - h1
  have hd2 := (generator_coprime _).dvd_of_dvd_mul_right hd
  have hz : poly b' - poly b = 0 := by
    by_contra hnz
    refine generator_monic.not_dvd_of_degree_lt hnz ?_ hd2
    rw [generator_degree]
    refine lt_of_le_of_lt (degree_sub_le _ _) (max_lt ?_ ?_)
    · refine lt_of_lt_of_le (poly_degree _) ?_
      rw [← hl]; exact_mod_cast h8
    · refine lt_of_lt_of_le (poly_degree _) ?_
      exact_mod_cast h8
  exact hne (poly_inj b b' hl (sub_eq_zero.mp hz).symm)

/-- C17: the checksum function in the code is this value for every non-empty buffer of at most 255 bytes. -/
theorem crc8_value (addr : UInt8) (data : Bytes) (h0 : data ≠ []) (h : data.length < 256) :
    crc8 addr data data.length = update (init addr) data := by
  have : 0 < data.length := List.length_pos_iff.mpr h0
  unfold crc8
  rw [Nat.mod_eq_of_lt h, if_neg (by omega), List.take_length]

/-- Extending a checksum piecewise gives the checksum of the whole. -/
theorem update_append (c : UInt8) (a b : Bytes) : update (update c a) b = update c (a ++ b) := by
  simp [update, List.foldl_append]

/-- The check value of CRC-8 (poly 0x07, init 0): "123456789" gives 0xF4. -/
example : update (init 0x31) [0x32, 0x33, 0x34, 0x35, 0x36, 0x37, 0x38, 0x39] = 0xF4 := by decide +kernel

/-- The hypotheses of `crc_detects_burst` are met by two messages that differ in the bits 6 and 7 of the first data byte. -/
example : bits [0x20, 0x01] = bits [0x20] ++ [false, false] ++ List.replicate 5 false ++ [true] ∧
    bits [0x20, 0xc1] = bits [0x20] ++ [true, true] ++ List.replicate 5 false ++ [true] := by
  constructor <;> (simp only [bits, byteBits, List.flatMap_cons, List.flatMap_nil, List.map_cons, List.map_nil]; decide)

end Verif.Checksum
