import Verif.Asn1.Lemmas
/-! Properties C08 and C09 of `asn1_util.c`. -/
namespace Verif.Asn1

/-- X.690 8.3 / 10: the content octets of a non-negative INTEGER `v`: at least one octet, value `v`, sign bit
clear, and no redundant leading zero octet. -/
def IsMinimalContent (v : Nat) (c : Bytes) : Prop :=
  beNat c = v ∧ ∃ b bs, c = b :: bs ∧ b < 0x80 ∧ (b = 0 → ∀ d ds, bs = d :: ds → 0x80 ≤ d)

theorem testBit7 : ∀ n : Fin 256, (n.val &&& 0x80 ≠ 0 ↔ 128 ≤ n.val) := by decide +kernel

/-- C08: the encoder emits exactly tag, length and minimal content, leaves the bytes behind the encoding alone, and
refuses exactly the buffers that cannot hold it. It never writes outside the buffer. -/
theorem encodeInteger_exact (v : Nat) (hv : v < 2 ^ 64) (buf : Bytes) :
    ∃ content, IsMinimalContent v content ∧ content.length ≤ 9 ∧
      (2 + content.length ≤ buf.length →
        encodeInteger v buf = .ok (2 + content.length,
          0x02 :: UInt8.ofNat content.length :: (content ++ buf.drop (2 + content.length)))) ∧
      (buf.length < 2 + content.length → encodeInteger v buf = .err .smallDerBuffer) := by
  obtain ⟨h1, h2, h3⟩ := findTop_spec v 7 (by simpa using hv)
  generalize hk : findTop v 7 = k at *
  have hq : v / 256 ^ k < 256 := by
    rw [Nat.div_lt_iff_lt_mul (Nat.pow_pos (by decide)), Nat.mul_comm, ← Nat.pow_succ]; exact h2
  have hbit := testBit7 ⟨v / 256 ^ k, hq⟩
  simp only at hbit
  have htop : toBE (k + 1) v = UInt8.ofNat (v / 256 ^ k) :: toBE k v := by
    rw [show k + 1 = 1 + k by omega, toBE_add]; simp [toBE]
  have htn : (UInt8.ofNat (v / 256 ^ k)).toNat = v / 256 ^ k := by
    rw [UInt8.toNat_ofNat']; exact Nat.mod_eq_of_lt hq
  have hval : beNat (toBE (k + 1) v) = v := by rw [beNat_toBE, Nat.mod_eq_of_lt h2]
  have hne0 : k ≠ 0 → UInt8.ofNat (v / 256 ^ k) ≠ 0 := by
    intro hk0 e
    have := congrArg UInt8.toNat e
    rw [htn] at this
    have : 1 ≤ v / 256 ^ k := by
      rw [Nat.le_div_iff_mul_le (Nat.pow_pos (by decide))]; omega
    simp at *; omega
  by_cases hs : v / 256 ^ k &&& 0x80 ≠ 0
  · -- sign byte needed
    refine ⟨0 :: toBE (k + 1) v, ⟨?_, 0, _, rfl, by decide, ?_⟩, by simp; omega, ?_, ?_⟩
    · rw [beNat_cons, hval]; simp
    · intro _ d ds e
      rw [htop] at e
      obtain ⟨rfl, _⟩ := List.cons.inj e
      rw [UInt8.le_iff_toNat_le, htn]; exact hbit.mp hs
    · intro hl
      simp only [List.length_cons, toBE_length] at hl
      unfold encodeInteger
      rw [if_neg (by omega)]
      simp only [hk]
      rw [if_pos hs]
      have hw2 : (wr buf 2 0 : R Bytes) = .ok (buf.set 2 0) := by simp only [wr]; rw [if_pos (by omega)]
      rw [hw2]
      simp only [Res.ok_bind, Res.pure_eq]
      rw [emit_ok _ _ _ _ (by simp; omega)]
      simp only [Res.ok_bind]
      rw [show 2 + 1 = 2 + 1 from rfl, take_succ_set _ _ _ (by omega), drop_set_lt _ _ _ _ (by omega)]
      obtain ⟨a, b, t, rfl⟩ : ∃ a b t, buf = a :: b :: t := by
        match buf, hl with
        | a :: b :: t, _ => exact ⟨a, b, t, rfl⟩
        | [_], hl => simp at hl; omega
        | [], hl => simp at hl
      simp [Nat.add_comm, Nat.add_left_comm]
    · intro hl
      simp only [List.length_cons, toBE_length] at hl
      unfold encodeInteger
      split
      · rfl
      · simp only [hk]
        rw [if_pos hs]
        simp only [wr]
        rw [if_pos (by omega)]
        simp only [Res.ok_bind, Res.pure_eq]
        rw [emit_small _ _ _ _ (by simp; omega)]; rfl
  · refine ⟨toBE (k + 1) v, ⟨hval, _, _, htop, ?_, ?_⟩, by simp; omega, ?_, ?_⟩
    · rw [UInt8.lt_iff_toNat_lt, htn]
      have : ¬ 128 ≤ v / 256 ^ k := fun h => hs (hbit.mpr h)
      show v / 256 ^ k < 128
      omega
    · intro e d ds e2
      by_cases hk0 : k = 0
      · subst hk0; simp [toBE] at e2
      · exact absurd e (hne0 hk0)
    · intro hl
      simp only [toBE_length] at hl
      unfold encodeInteger
      rw [if_neg (by omega)]
      simp only [hk]
      rw [if_neg hs]
      simp only [Res.ok_bind, Res.pure_eq]
      rw [emit_ok _ _ _ _ (by omega)]
      simp only [Res.ok_bind]
      obtain ⟨a, b, t, rfl⟩ : ∃ a b t, buf = a :: b :: t := by
        match buf, hl with
        | a :: b :: t, _ => exact ⟨a, b, t, rfl⟩
        | [_], hl => simp at hl; omega
        | [], hl => simp at hl
      simp [Nat.add_comm, Nat.add_left_comm]
    · intro hl
      simp only [toBE_length] at hl
      unfold encodeInteger
      split
      · rfl
      · simp only [hk]
        rw [if_neg hs]
        simp only [Res.ok_bind, Res.pure_eq]
        rw [emit_small _ _ _ _ (by omega)]; rfl

example : encodeInteger 0x80 [9, 9, 9, 9, 9] = .ok (4, [0x02, 2, 0, 0x80, 9]) := by decide
example : encodeInteger 0x1234 [9, 9, 9] = .err .smallDerBuffer := by decide

/-- Decoding any buffer that starts with a short-form INTEGER. -/
theorem decode_short (w : Nat) (hw : 32 ≤ w) (b : UInt8) (bs rest : Bytes) (hl : (b :: bs).length ≤ 9) (hb : b < 0x80)
    (h9 : (b :: bs).length = 9 → b = 0) :
    decodeInteger w (0x02 :: UInt8.ofNat (b :: bs).length :: (b :: bs ++ rest)) = .ok (beNat (b :: bs) % 2 ^ 64) := by
  have hn : (UInt8.ofNat (b :: bs).length).toNat = (b :: bs).length := by rw [UInt8.toNat_ofNat']; omega
  have hlt : UInt8.ofNat (b :: bs).length < 0x80 := by
    rw [UInt8.lt_iff_toNat_lt, hn]; show (b :: bs).length < 128; omega
  have hne : ∀ x : UInt8, x < 0x80 → x ≠ 0x81 ∧ x ≠ 0x82 ∧ x ≠ 0x83 ∧ x ≠ 0x84 := by decide +kernel
  obtain ⟨n1, n2, n3, n4⟩ := hne _ hlt
  have hp : 2 ^ 32 ≤ 2 ^ w := Nat.pow_le_pow_right (by decide) hw
  have hg : getItem w 0x02 (0x02 :: UInt8.ofNat (b :: bs).length :: (b :: bs ++ rest)) = .ok (2, (b :: bs).length) := by
    unfold getItem parseHeader
    rw [if_neg (by simp)]
    simp only [rd_cons_succ, rd_cons_zero, Res.ok_bind, n1, n2, n3, n4, if_false, hlt, if_true, Res.pure_eq, hn]
    rw [if_neg (by simp), if_neg]
    rw [Nat.mod_eq_of_lt (by omega)]
    simp; omega
  unfold decodeInteger
  rw [hg]
  simp only [Res.ok_bind]
  have hr : (rd (0x02 :: UInt8.ofNat (b :: bs).length :: (b :: bs ++ rest)) 2 : R UInt8) = .ok b := rfl
  rw [hr]
  have h80 : ∀ x : UInt8, x < 0x80 → x &&& 0x80 = 0 := by decide +kernel
  simp only [Res.ok_bind]
  rw [if_neg (by simp [h80 b hb]), if_neg]
  · rw [sumLoop_ok _ _ _ (by simp; omega)]
    congr 2
    have : List.drop 2 (0x02 :: UInt8.ofNat (b :: bs).length :: (b :: bs ++ rest)) = (b :: bs) ++ rest := rfl
    rw [this, List.take_left]
  · rintro (h | ⟨h, h'⟩)
    · omega
    · exact h' (h9 h)

/-- C08: whatever is encoded decodes to the same value, whatever follows it in the buffer. -/
theorem integer_roundtrip (w : Nat) (hw : w = 32 ∨ w = 64) (v : Nat) (hv : v < 2 ^ 64) (buf : Bytes) (n : Nat) (out : Bytes)
    (h : encodeInteger v buf = .ok (n, out)) :
    decodeInteger w out = .ok v ∧ decodeInteger w (out.take n) = .ok v ∧ out.length = buf.length := by
  have hw' : 32 ≤ w := by omega
  obtain ⟨c, ⟨hval, b, bs, hc, hb, hmin⟩, hlen, h1, h2⟩ := encodeInteger_exact v hv buf
  rcases Nat.lt_or_ge buf.length (2 + c.length) with hs | hs
  · rw [h2 hs] at h; cases h
  · rw [h1 hs] at h
    obtain ⟨rfl, rfl⟩ := Prod.mk.inj (Res.ok.inj h)
    subst hc
    have hmod : beNat (b :: bs) % 2 ^ 64 = v := by rw [hval, Nat.mod_eq_of_lt hv]
    have h9 : (b :: bs).length = 9 → b = 0 := by
      intro hl
      apply UInt8.toNat_inj.mp
      rw [beNat_cons] at hval
      have hbl : bs.length = 8 := by simpa using hl
      rw [hbl] at hval
      show b.toNat = 0
      omega
    refine ⟨?_, ?_, ?_⟩
    · rw [decode_short w hw' b bs _ hlen hb h9, hmod]
    · have : (0x02 :: UInt8.ofNat (b :: bs).length :: (b :: bs ++ buf.drop (2 + (b :: bs).length))).take (2 + (b :: bs).length)
          = 0x02 :: UInt8.ofNat (b :: bs).length :: (b :: bs ++ []) := by
        rw [Nat.add_comm]
        simp only [List.take_succ_cons, List.append_nil]
        rw [List.take_left]
      rw [this, decode_short w hw' b bs _ hlen hb h9, hmod]
    · simp only [List.length_cons, List.length_append, List.length_drop] at hs ⊢; omega

example : encodeInteger (2 ^ 64 - 1) (List.replicate 12 0) = .ok (11, [2, 9, 0, 255, 255, 255, 255, 255, 255, 255, 255, 0]) := by decide

/-- C09 (holds): parsing an item header or OID never reads outside the buffer, for every input. -/
theorem getItem_reads_in_bounds (w : Nat) (tag : UInt8) (der : Bytes) : getItem w tag der ≠ .oob :=
  getItem_ne_oob w tag der

/-- C09, false of the code: an accepted item can lie outside the buffer, for 32-bit and for 64-bit `size_t`. -/
theorem getItem_outside_buffer :
    (∃ der tag off len, getItem 32 tag der = .ok (off, len) ∧ der.length < off + len) ∧
    (∃ der tag off len, getItem 64 tag der = .ok (off, len) ∧ der.length < off + len) :=
  ⟨⟨[0x06, 0x84, 0xff, 0xff, 0xff, 0xff], 0x06, 6, 2 ^ 32 - 1, by decide +kernel, by decide +kernel⟩,
   ⟨[0x06, 0x84, 0xff, 0xff, 0xff, 0xff], 0x06, 6, 2 ^ 64 - 1, by decide +kernel, by decide +kernel⟩⟩

/-- C09, the part that holds: an accepted item lies inside the buffer unless its length was given in the
four-byte form with a value of at least `2^31`. Missing: those lengths, where the bound check wraps. -/
theorem getItem_in_bounds_partial (w : Nat) (hw : w = 32 ∨ w = 64) (tag : UInt8) (der : Bytes) (off len : Nat)
    (h : getItem w tag der = .ok (off, len)) (hshort : der[1]? ≠ some 0x84 ∨ len < 2 ^ 31) :
    off + len ≤ der.length ∧ der[0]? = some tag := by
  obtain ⟨hp, ht, hb⟩ := getItem_ok h
  obtain ⟨a1, a2, a3, a4⟩ := parseHeader_ok hp
  have hlen : len < 2 ^ 31 := by
    rcases hshort with hs | hs
    · have : off < 6 := by
        rcases Nat.lt_or_ge off 6 with h6 | h6
        · exact h6
        · exfalso
          apply hs
          unfold parseHeader at hp
          rw [if_neg (by omega), rd_ok (by omega)] at hp
          simp only [Res.ok_bind] at hp
          rw [List.getElem?_eq_getElem (by omega)]
          congr 1
          false_or_by_contra
          rename_i hne
          have o6 : off = 6 := by omega
          subst o6
          repeat' split at hp
          all_goals first
            | (simp at hp; done)
            | (exact hne (by assumption))
            | (rw [rd_ok (by omega)] at hp; simp at hp; done)
            | (rw [rd_ok (by omega), rd_ok (by omega)] at hp; simp at hp; done)
            | (rw [rd_ok (by omega), rd_ok (by omega), rd_ok (by omega)] at hp; simp at hp; done)
      have := a4 this
      omega
    · exact hs
  have hp2 : 2 ^ 32 ≤ 2 ^ w := Nat.pow_le_pow_right (by decide) (by omega)
  rw [Nat.mod_eq_of_lt (by omega)] at hb
  exact ⟨hb, ht⟩

example : getItem 32 0x06 [0x06, 0x81, 0x02, 0x55, 0x66, 0x77] = .ok (3, 2) := by decide

/-- C09, false of the code: decoding `02 00` (an INTEGER without content) reads beyond the buffer. -/
theorem decodeInteger_out_of_bounds : decodeInteger 32 [0x02, 0x00] = .oob ∧ decodeInteger 64 [0x02, 0x00] = .oob := by
  decide

/-- C09: the only inputs for which integer decoding leaves the buffer are those whose header fills the whole
buffer (nothing follows the header) and passed the item check. -/
theorem decodeInteger_oob_iff (w : Nat) (hw : w = 32 ∨ w = 64) (der : Bytes) :
    decodeInteger w der = .oob ↔ ∃ len, getItem w 0x02 der = .ok (der.length, len) := by
  have hp2 : 2 ^ 32 ≤ 2 ^ w := Nat.pow_le_pow_right (by decide) (by omega)
  unfold decodeInteger
  cases hg : getItem w 0x02 der with
  | err e => simp
  | oob => exact absurd hg (getItem_ne_oob _ _ _)
  | ok p =>
    obtain ⟨off, len⟩ := p
    obtain ⟨hp, ht, hb⟩ := getItem_ok hg
    obtain ⟨a1, a2, a3, a4⟩ := parseHeader_ok hp
    simp only [Res.ok_bind, Res.ok.injEq, Prod.mk.injEq]
    by_cases ho : off = der.length
    · subst ho
      simp [rd]
    · rw [rd_ok (by omega)]
      simp only [Res.ok_bind]
      have : ¬ ∃ l, off = der.length ∧ len = l := by rintro ⟨_, h, _⟩; exact ho h
      simp only [this, iff_false]
      split
      · simp
      · split
        · simp
        · rename_i hh
          have : len ≤ 9 := by omega
          rw [Nat.mod_eq_of_lt (by omega)] at hb
          rw [sumLoop_ok _ _ _ hb]; simp

example : ∃ len, getItem 32 0x02 [0x02, 0x84, 0xff, 0xff, 0xff, 0xff] = .ok (6, len) := ⟨2 ^ 32 - 1, by decide +kernel⟩

/-- C08/C09: a decoded value is the big-endian value of the item's content, which lies inside the buffer. -/
theorem decodeInteger_sound (w : Nat) (hw : w = 32 ∨ w = 64) (der : Bytes) (v : Nat) (h : decodeInteger w der = .ok v) :
    ∃ off len, getItem w 0x02 der = .ok (off, len) ∧ off + len ≤ der.length ∧ v = beNat (window der off len) ∧ v < 2 ^ 64 := by
  have hp2 : 2 ^ 32 ≤ 2 ^ w := Nat.pow_le_pow_right (by decide) (by omega)
  unfold decodeInteger at h
  cases hg : getItem w 0x02 der with
  | err e => rw [hg] at h; simp at h
  | oob => exact absurd hg (getItem_ne_oob _ _ _)
  | ok p =>
    obtain ⟨off, len⟩ := p
    obtain ⟨hp, ht, hb⟩ := getItem_ok hg
    obtain ⟨a1, a2, a3, a4⟩ := parseHeader_ok hp
    rw [hg] at h
    simp only [Res.ok_bind] at h
    rw [Res.bind_eq_ok] at h
    obtain ⟨b0, hr, h⟩ := h
    split at h
    · simp at h
    · split at h
      · simp at h
      · rename_i h80 hh
        have hl9 : len ≤ 9 := by omega
        rw [Nat.mod_eq_of_lt (by omega)] at hb
        rw [sumLoop_ok _ _ _ hb] at h
        have hv := Res.ok.inj h
        refine ⟨off, len, rfl, hb, ?_, by omega⟩
        have hwl : (window der off len).length = len := by simp; omega
        have hlt := beNat_lt (window der off len)
        rw [hwl] at hlt
        have hlt64 : beNat (window der off len) < 2 ^ 64 := by
          rcases Nat.lt_or_ge len 9 with h9 | h9
          · have : 256 ^ len ≤ 256 ^ 8 := Nat.pow_le_pow_right (by decide) (by omega)
            have e8 : 256 ^ 8 = 2 ^ 64 := by decide
            omega
          · have e9 : len = 9 := by omega
            subst e9
            have hb0 : b0 = 0 := by
              false_or_by_contra; rename_i hne; exact hh (.inr ⟨rfl, hne⟩)
            have hoff : off < der.length := by omega
            have : window der off 9 = b0 :: window der (off + 1) 8 := by
              simp only [window]
              rw [List.drop_eq_getElem_cons hoff, List.take_succ_cons]
              rw [rd_ok hoff] at hr
              rw [Res.ok.inj hr]
            rw [this, beNat_cons, hb0]
            have h8 := beNat_lt (window der (off + 1) 8)
            have hl8 : (window der (off + 1) 8).length = 8 := by simp; omega
            rw [hl8] at h8
            have e8 : 256 ^ 8 = 2 ^ 64 := by decide
            simp; omega
        rw [← hv]
        show beNat (window der off len) % 2 ^ 64 = _
        exact Nat.mod_eq_of_lt hlt64

/-- C08: object identifiers round-trip: the content found is the one encoded. -/
theorem oid_roundtrip (w : Nat) (hw : w = 32 ∨ w = 64) (oid buf : Bytes) (n : Nat) (out : Bytes)
    (h : encodeOid oid buf = .ok (n, out)) :
    n = 2 + oid.length ∧ ∃ off, decodeOid w out = .ok (off, oid.length) ∧ window out off oid.length = oid := by
  have hp : 2 ^ 32 ≤ 2 ^ w := Nat.pow_le_pow_right (by decide) (by omega)
  unfold encodeOid at h
  split at h
  · cases h
  · split at h
    · cases h
    · split at h
      · cases h
      · rename_i h1 h2 h3
        obtain ⟨a, b, t, rfl⟩ : ∃ a b t, buf = a :: b :: t := by
          match buf, h3 with
          | a :: b :: t, _ => exact ⟨a, b, t, rfl⟩
          | [_], hl => simp at hl; omega
          | [], hl => simp at hl
        simp only [List.length_cons] at h3
        rw [show (wr (a :: b :: t) 0 0x06 : R Bytes) = .ok (0x06 :: b :: t) from rfl] at h
        simp only [Res.ok_bind] at h
        rw [show (wr (0x06 :: b :: t) 1 (UInt8.ofNat oid.length) : R Bytes) = .ok (0x06 :: UInt8.ofNat oid.length :: t) by
          simp [wr]] at h
        simp only [Res.ok_bind] at h
        rw [wrN_ok (by simp; omega)] at h
        simp only [Res.ok_bind, Res.pure_eq, Res.ok.injEq, Prod.mk.injEq] at h
        obtain ⟨rfl, rfl⟩ := h
        refine ⟨rfl, 2, ?_, ?_⟩
        · have hn : (UInt8.ofNat oid.length).toNat = oid.length := by rw [UInt8.toNat_ofNat']; omega
          have hlt : UInt8.ofNat oid.length < 0x80 := by
            rw [UInt8.lt_iff_toNat_lt, hn]; show oid.length < 128; omega
          have hne : ∀ x : UInt8, x < 0x80 → x ≠ 0x81 ∧ x ≠ 0x82 ∧ x ≠ 0x83 ∧ x ≠ 0x84 := by decide +kernel
          obtain ⟨n1, n2, n3, n4⟩ := hne _ hlt
          simp only [List.take_succ_cons, List.take_zero, List.cons_append, List.nil_append]
          unfold decodeOid getItem parseHeader
          rw [if_neg (by simp)]
          simp only [rd_cons_succ, rd_cons_zero, Res.ok_bind, n1, n2, n3, n4, if_false, hlt, if_true, Res.pure_eq, hn]
          rw [if_neg (by simp), if_neg]
          rw [Nat.mod_eq_of_lt (by omega)]
          simp
          omega
        · simp [window]

example : encodeOid [0x2a, 0x86, 0x48] [0, 0, 0, 0, 0, 0] = .ok (5, [0x06, 3, 0x2a, 0x86, 0x48, 0]) := by decide

/-- C09: the length of the encoded data never exceeds the buffer, and for an item (other than one with a length of
`2^31 - 6` or more) it is the whole item clipped to the buffer. -/
theorem encodedLength_bounded (w : Nat) (der : Bytes) :
    (∃ n, encodedLength w der = .ok n ∧ n ≤ der.length) ∧
    (∀ len hdr, parseHeader w der = .ok (len, hdr) → len + hdr < 2 ^ 31 →
      encodedLength w der = .ok (min der.length (hdr + len))) := by
  constructor
  · unfold encodedLength itemLen
    cases h : parseHeader w der with
    | oob => exact absurd h (parseHeader_ne_oob _ _)
    | err e => exact ⟨_, rfl, Nat.le_refl _⟩
    | ok p =>
      refine ⟨_, rfl, ?_⟩
      split <;> omega
  · intro len hdr h hlt
    unfold encodedLength itemLen
    rw [h]
    simp only [Res.ok_bind, Res.pure_eq, Res.ok.injEq]
    have hm : (len + hdr) % 2 ^ 32 = len + hdr := Nat.mod_eq_of_lt (by omega)
    rw [hm]
    simp only [signExtend, hlt, if_true]
    split <;> omega

example : parseHeader 32 [0x30, 0x82, 0x01, 0x00, 0xaa] = .ok (256, 4) ∧
    encodedLength 32 [0x30, 0x82, 0x01, 0x00, 0xaa] = .ok 5 := by decide +kernel

/-- C09, false of the code: an item much longer than the buffer can be reported as shorter than the buffer. -/
theorem encodedLength_wraps :
    encodedLength 32 [0x30, 0x84, 0xff, 0xff, 0xff, 0xff, 0, 0] = .ok 5 ∧
    encodedLength 64 [0x30, 0x84, 0xff, 0xff, 0xff, 0xff, 0, 0] = .ok 5 := by decide +kernel

end Verif.Asn1
