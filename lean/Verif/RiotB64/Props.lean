import Verif.RiotB64.Spec
import Verif.RiotB64.Model
import Verif.Base64.Props
/-!
C146: the Base64 of the RIoT library.
-/
namespace Verif.RiotB64
open Verif

/-! ### Encoding -/

theorem char_spec : ∀ v, v < 64 → base64char v = Spec.char v := by decide +kernel
theorem b16_spec : ∀ v, v < 16 → base64b16 v = Spec.char (4 * v) := by decide +kernel
theorem b8_spec : ∀ v, v < 4 → base64b8 v = Spec.char (16 * v) := by decide +kernel

theorem g1 (x y z : Nat) (hy : y < 256) (hz : z < 256) : (x * 65536 + y * 256 + z) / 262144 = x / 4 := by omega
theorem g2 (x y z : Nat) (hx : x < 256) (hy : y < 256) (hz : z < 256) : (x * 65536 + y * 256 + z) / 4096 % 64 = x % 4 * 16 + y / 16 := by omega
theorem g3 (x y z : Nat) (hx : x < 256) (hy : y < 256) (hz : z < 256) : (x * 65536 + y * 256 + z) / 64 % 64 = y % 16 * 4 + z / 64 := by omega
theorem g4 (x y z : Nat) : (x * 65536 + y * 256 + z) % 64 = z % 64 := by omega

theorem encodeBody_spec : ∀ data : Bytes, encodeBody data = Spec.enc data ++ [0]
  | [] => rfl
  | [a] => by
    have ha := a.toNat_lt
    simp only [encodeBody, Spec.enc, Spec.group, List.take_succ_cons, List.take_zero, List.cons_append, List.nil_append]
    rw [g1 _ _ _ (by decide) (by decide), g2 _ _ _ ha (by decide) (by decide), Base64.idx1, Base64.and3, char_spec _ (by omega), b8_spec _ (by omega),
      show a.toNat % 4 * 16 + (0 : UInt8).toNat / 16 = 16 * (a.toNat % 4) from Nat.mul_comm _ _]
  | [a, b] => by
    have ha := a.toNat_lt
    have hb := b.toNat_lt
    simp only [encodeBody, Spec.enc, Spec.group, List.take_succ_cons, List.take_zero, List.cons_append, List.nil_append]
    rw [g1 _ _ _ hb (by decide), g2 _ _ _ ha hb (by decide), g3 _ _ _ ha hb (by decide), Base64.idx1, Base64.idx2, Base64.and15, char_spec _ (by omega), char_spec _ (by omega), b16_spec _ (by omega),
      show b.toNat % 16 * 4 + (0 : UInt8).toNat / 64 = 4 * (b.toNat % 16) from Nat.mul_comm _ _]
  | a :: b :: c :: r => by
    have ha := a.toNat_lt
    have hb := b.toNat_lt
    have hc := c.toNat_lt
    simp only [encodeBody, Spec.enc, Spec.group, List.cons_append, List.nil_append]
    rw [g1 _ _ _ hb hc, g2 _ _ _ ha hb hc, g3 _ _ _ ha hb hc, g4, Base64.idx1, Base64.idx2, Base64.idx3, Base64.and63, char_spec _ (by omega), char_spec _ (by omega), char_spec _ (by omega),
      char_spec _ (by omega), encodeBody_spec r]

theorem enc_length : ∀ data : Bytes, (Spec.enc data).length = (data.length + 2) / 3 * 4
  | [] => rfl
  | [a] => by simp [Spec.enc, Spec.group]
  | [a, b] => by simp [Spec.enc, Spec.group]
  | a :: b :: c :: r => by
    simp only [Spec.enc, Spec.group, List.length_append, List.length_cons, List.length_nil, enc_length r]
    omega

theorem reqSize_spec (data : Bytes) (h : data.length < 3 * 2 ^ 30 - 3) : reqSize data.length = (Spec.enc data).length + 1 := by
  rw [enc_length]
  unfold reqSize
  by_cases h0 : data.length = 0
  · rw [if_pos h0, h0]
  · rw [if_neg h0]; omega

/-- **C146** Encoding gives the Base64 of the data as a string, and its size with the NUL, if the buffer is large enough; otherwise only the size is given. -/
theorem encode_exact_partial (data : Bytes) (outLen : Nat) (h : data.length < 3 * 2 ^ 30 - 3) :
    encode data outLen = (if (Spec.enc data).length < outLen then .ok (Spec.enc data ++ [0]) else .error (), (Spec.enc data).length + 1) := by
  unfold encode
  rw [reqSize_spec data h, encodeBody_spec]
  by_cases hs : (Spec.enc data).length < outLen
  · rw [if_neg (by omega), if_pos hs]
  · rw [if_pos (by omega), if_neg hs]

/-- RFC 4648, section 10. -/
example : encode [0x66, 0x6f, 0x6f, 0x62, 0x61] 9 = (.ok [0x5a, 0x6d, 0x39, 0x76, 0x59, 0x6d, 0x45, 0x3d, 0], 9) := rfl
example : encode [0x66, 0x6f, 0x6f, 0x62] 8 = (.error (), 9) := rfl

/-- **C146, negation** The needed size overflows: a buffer of one byte is accepted for 3 GB of data. -/
theorem counterexample_encode_size : ∃ data : Bytes, data.length = 3 * 2 ^ 30 ∧ encode data 1 = (.ok (Spec.enc data ++ [0]), 1) ∧ (Spec.enc data).length = 2 ^ 32 := by
  refine ⟨List.replicate (3 * 2 ^ 30) 0, List.length_replicate, ?_, ?_⟩
  · unfold encode
    rw [List.length_replicate, show reqSize (3 * 2 ^ 30) = 1 by decide, if_neg (by decide), encodeBody_spec]
  · rw [enc_length, List.length_replicate]

/-! ### Decoding -/

theorem toValue_char : ∀ v, v < 64 → toValue (Spec.char v) = some (UInt8.ofNat v) := by decide +kernel
theorem toValue_pad : toValue 0x3d = none := by decide

theorem out1 : ∀ x y : Fin 64, ((UInt8.ofNat x.val <<< 2) ||| (UInt8.ofNat y.val >>> 4)).toNat = x.val * 4 + y.val / 16 := by decide +kernel
theorem out2 : ∀ x y : Fin 64, (((UInt8.ofNat x.val &&& 0x0f) <<< 4) ||| (UInt8.ofNat y.val >>> 2)).toNat = x.val % 16 * 16 + y.val / 4 := by decide +kernel
theorem out3 : ∀ x y : Fin 64, (((UInt8.ofNat x.val &&& 0x03) <<< 6) ||| UInt8.ofNat y.val).toNat = x.val % 4 * 64 + y.val := by decide +kernel

theorem o1 (x y : Nat) (hx : x < 64) (hy : y < 64) (a : UInt8) (h : x * 4 + y / 16 = a.toNat) : (UInt8.ofNat x <<< 2) ||| (UInt8.ofNat y >>> 4) = a :=
  UInt8.toNat_inj.mp ((out1 ⟨x, hx⟩ ⟨y, hy⟩).trans h)
theorem o2 (x y : Nat) (hx : x < 64) (hy : y < 64) (a : UInt8) (h : x % 16 * 16 + y / 4 = a.toNat) : ((UInt8.ofNat x &&& 0x0f) <<< 4) ||| (UInt8.ofNat y >>> 2) = a :=
  UInt8.toNat_inj.mp ((out2 ⟨x, hx⟩ ⟨y, hy⟩).trans h)
theorem o3 (x y : Nat) (hx : x < 64) (hy : y < 64) (a : UInt8) (h : x % 4 * 64 + y = a.toNat) : ((UInt8.ofNat x &&& 0x03) <<< 6) ||| UInt8.ofNat y = a :=
  UInt8.toNat_inj.mp ((out3 ⟨x, hx⟩ ⟨y, hy⟩).trans h)

theorem values_char (v : Nat) (hv : v < 64) (r : Bytes) : values (Spec.char v :: r) = UInt8.ofNat v :: values r := by
  conv => lhs; unfold values
  rw [toValue_char v hv]

theorem values_pad (r : Bytes) : values (0x3d :: r) = [] := by
  unfold values
  rw [toValue_pad]

theorem body_enc : ∀ data : Bytes, decodeBody (values (Spec.enc data)) = data
  | [] => rfl
  | [a] => by
    have ha := a.toNat_lt
    simp only [Spec.enc, Spec.group, List.take_succ_cons, List.take_zero, List.cons_append, List.nil_append, UInt8.toNat_zero]
    rw [values_char _ (by omega), values_char _ (by omega), values_pad, decodeBody, o1 _ _ (by omega) (by omega) a (by omega)]
  | [a, b] => by
    have ha := a.toNat_lt
    have hb := b.toNat_lt
    simp only [Spec.enc, Spec.group, List.take_succ_cons, List.take_zero, List.cons_append, List.nil_append, UInt8.toNat_zero]
    rw [values_char _ (by omega), values_char _ (by omega), values_char _ (by omega), values_pad, decodeBody, o1 _ _ (by omega) (by omega) a (by omega), o2 _ _ (by omega) (by omega) b (by omega)]
  | a :: b :: c :: r => by
    have ha := a.toNat_lt
    have hb := b.toNat_lt
    have hc := c.toNat_lt
    simp only [Spec.enc, Spec.group, List.cons_append, List.nil_append]
    rw [values_char _ (by omega), values_char _ (by omega), values_char _ (by omega), values_char _ (by omega), decodeBody, o1 _ _ (by omega) (by omega) a (by omega),
      o2 _ _ (by omega) (by omega) b (by omega), o3 _ _ (by omega) (by omega) c (by omega), body_enc r]

theorem values_length : ∀ s : Bytes, (values s).length ≤ s.length
  | [] => Nat.le_refl _
  | c :: r => by
    unfold values
    cases toValue c with
    | none => exact Nat.zero_le _
    | some v => exact Nat.succ_le_succ (values_length r)

/-- A character that is none ends the values. -/
theorem values_stop : ∀ (s : Bytes) (i : Nat), i < s.length → toValue (s.getD i 0) = none → (values s).length ≤ i
  | [], i, h, _ => absurd h (by simp)
  | c :: r, i, h, hv => by
    unfold values
    cases i with
    | zero =>
      have : toValue c = none := hv
      rw [this]; exact Nat.le_refl _
    | succ i =>
      cases toValue c with
      | none => exact Nat.zero_le _
      | some v => exact Nat.succ_le_succ (values_stop r i (by simpa using h) (by simpa using hv))

theorem body_length : ∀ v : List UInt8, (decodeBody v).length = v.length / 4 * 3 + (v.length % 4 - 1)
  | [] => rfl
  | [a] => by simp [decodeBody]
  | [a, b] => by simp [decodeBody]
  | [a, b, c] => by simp [decodeBody]
  | a :: b :: c :: d :: r => by
    simp only [decodeBody, List.length_cons, body_length r]
    omega

/-- **C146** Whatever the string is, decoding writes no more than the size of the buffer. -/
theorem decode_safe (s : Bytes) (outLen : Nat) (out : Bytes) (h : (decode s outLen).1 = .ok out) : out.length ≤ outLen := by
  unfold decode at h
  by_cases h4 : s.length % 4 ≠ 0
  · rw [if_pos h4] at h; cases h
  · rw [if_neg h4] at h
    by_cases hl : outLen < decodedLength s
    · rw [if_pos hl] at h; cases h
    · rw [if_neg hl] at h
      injection h with h
      subst h
      rw [body_length]
      have hv := values_length s
      unfold decodedLength at hl
      by_cases h0 : s.length = 0
      · omega
      · rw [if_neg h0] at hl
        dsimp only at hl
        by_cases h1 : s.getD (s.length - 1) 0 = 0x3d
        · rw [if_pos h1] at hl
          have k1 := values_stop s (s.length - 1) (by omega) (by rw [h1]; exact toValue_pad)
          by_cases h2 : s.getD (s.length - 2) 0 = 0x3d
          · rw [if_pos h2] at hl
            have k2 := values_stop s (s.length - 2) (by omega) (by rw [h2]; exact toValue_pad)
            omega
          · rw [if_neg h2] at hl
            omega
        · rw [if_neg h1] at hl
          omega

theorem char_pad : ∀ v, v < 64 → Spec.char v ≠ 0x3d := by decide +kernel

theorem decodedLength_cons (c1 c2 c3 c4 : UInt8) (s : Bytes) (h0 : s.length ≠ 0) (h4 : s.length % 4 = 0) :
    decodedLength (c1 :: c2 :: c3 :: c4 :: s) = 3 + decodedLength s := by
  have e1 : (c1 :: c2 :: c3 :: c4 :: s).getD ((c1 :: c2 :: c3 :: c4 :: s).length - 1) 0 = s.getD (s.length - 1) 0 := by
    rw [show (c1 :: c2 :: c3 :: c4 :: s).length - 1 = s.length - 1 + 4 by simp only [List.length_cons]; omega]; rfl
  have e2 : (c1 :: c2 :: c3 :: c4 :: s).getD ((c1 :: c2 :: c3 :: c4 :: s).length - 2) 0 = s.getD (s.length - 2) 0 := by
    rw [show (c1 :: c2 :: c3 :: c4 :: s).length - 2 = s.length - 2 + 4 by simp only [List.length_cons]; omega]; rfl
  unfold decodedLength
  rw [e1, e2, if_neg (by simp), if_neg h0]
  simp only [List.length_cons]
  split
  · split <;> omega
  · omega

theorem decodedLength_four (c1 c2 c3 c4 : UInt8) : decodedLength [c1, c2, c3, c4] = if c4 = 0x3d then (if c3 = 0x3d then 1 else 2) else 3 := by
  simp only [decodedLength, List.length_cons, List.length_nil, List.getD_cons_succ, List.getD_cons_zero]
  by_cases h4 : c4 = 0x3d
  · by_cases h3 : c3 = 0x3d
    · simp [h3, h4]
    · simp [h3, h4]
  · simp [h4]

theorem decodedLength_enc : ∀ data : Bytes, decodedLength (Spec.enc data) = data.length
  | [] => rfl
  | [a] => by simp [Spec.enc, Spec.group, decodedLength]
  | [a, b] => by
    have hb := b.toNat_lt
    have := char_pad ((a.toNat * 65536 + b.toNat * 256 + (0 : UInt8).toNat) / 64 % 64) (Nat.mod_lt _ (by decide))
    simp only [Spec.enc, Spec.group, List.take_succ_cons, List.take_zero, List.cons_append, List.nil_append]
    rw [decodedLength_four, if_pos rfl, if_neg this]
    rfl
  | a :: b :: c :: r => by
    have ih := decodedLength_enc r
    have hl := enc_length r
    simp only [Spec.enc, Spec.group, List.cons_append, List.nil_append]
    by_cases h0 : r.length = 0
    · have : r = [] := List.length_eq_zero_iff.mp h0
      subst this
      have := char_pad ((a.toNat * 65536 + b.toNat * 256 + c.toNat) % 64) (Nat.mod_lt _ (by decide))
      rw [show Spec.enc [] = [] from rfl, decodedLength_four, if_neg this]
      rfl
    · rw [decodedLength_cons _ _ _ _ _ (by omega) (by omega), ih]
      simp only [List.length_cons]; omega

/-- **C146** The Base64 of any data is decoded to the data, if the buffer has the size of the data. -/
theorem decode_enc (data : Bytes) (outLen : Nat) : decode (Spec.enc data) outLen = if data.length ≤ outLen then (.ok data, outLen) else (.error (), data.length) := by
  unfold decode
  rw [enc_length, if_neg (by omega), decodedLength_enc, body_enc]
  by_cases hs : data.length ≤ outLen
  · rw [if_neg (by omega), if_pos hs]
  · rw [if_pos (by omega), if_neg hs]

/-- **C146, negation** What is not Base64 is accepted; here nothing is written. -/
theorem counterexample_decode_invalid : ∃ s : Bytes, (∀ data, Spec.enc data ≠ s) ∧ decode s 3 = (.ok [], 3) := by
  refine ⟨[0x41, 0x21, 0x41, 0x41], ?_, rfl⟩
  intro data h
  have := body_enc data
  rw [h] at this
  have : data = [] := this.symm
  rw [this] at h
  cases h

/-- **C146, negation** A success does not tell the size of the data. -/
theorem counterexample_decode_size : ∃ (data : Bytes) (outLen : Nat), (decode (Spec.enc data) outLen).1 = .ok data ∧ (decode (Spec.enc data) outLen).2 ≠ data.length :=
  ⟨[1], 3, rfl, by decide⟩

end Verif.RiotB64
