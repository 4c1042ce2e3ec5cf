import Verif.AesKeyWrap.Lemmas
/-! Properties C14 and C15 of the AES key wrap implementations. `E` is an arbitrary block cipher. -/
namespace Verif.AesKeyWrap
open Spec

/-- A toy cipher for the non-vacuity examples: XOR with a fixed key. -/
def toy (b : Bytes) : Bytes := xorBytes b (List.replicate 16 0x5a)

theorem toy_isPermutation : IsPermutation toy toy := by
  have hl : ∀ b : Bytes, b.length = 16 → (toy b).length = 16 := by intro b h; simp [toy, h]
  have hi : ∀ b : Bytes, b.length = 16 → toy (toy b) = b := by
    intro b h; exact xorBytes_cancel _ _ (by simp [h])
  exact { len := hl, inv := hi, dlen := hl, dinv := hi }

/-- C14: the output of key wrapping is the RFC 3394 wrapping of the data (shift-register form), followed by the untouched rest of
the buffer. -/
theorem wrap_rfc3394 (E : Bytes → Bytes) (data wrapped : Bytes) (h8 : data.length % 8 = 0) (h16 : 16 ≤ data.length)
    (hlen : data.length < 2 ^ 61) (hout : data.length + 8 ≤ wrapped.length) :
    wrap (fun _ b => some (E b)) data wrapped =
      (.ok, Spec.wrap E (List.replicate 8 0xa6) (blocks data) ++ wrapped.drop (data.length + 8)) := by
  have hbl := blocks_length data h8
  obtain ⟨a', rs', h1, h2, h3⟩ := wrapLoop_steps E 6 (blocks data) iv 0 (by omega)
  rw [toBE_zero8] at h1
  rw [wrap, if_neg (by omega), if_neg (by omega), if_neg (by omega)]
  simp only [dataWrap, h1, Option.bind_eq_bind, Option.bind_some, pure, Spec.wrap]
  rw [show List.replicate 8 0xa6 = iv from rfl, h3]

/-- C14: unwrapping what was wrapped gives back the data and its length. -/
theorem unwrap_wrap {E D : Bytes → Bytes} (hc : IsCipher E D) (data wbuf dbuf : Bytes) (h8 : data.length % 8 = 0)
    (h16 : 16 ≤ data.length) (hlen : data.length < 2 ^ 61) (hw : data.length + 8 ≤ wbuf.length)
    (hd : data.length ≤ dbuf.length) :
    ∃ out, wrap (fun _ b => some (E b)) data wbuf = (.ok, out) ∧ out.length = wbuf.length ∧
      unwrap (fun _ b => some (D b)) (out.take (data.length + 8)) dbuf =
        (.ok, data ++ dbuf.drop data.length, data.length) := by
  obtain ⟨w, h1, h2, h3⟩ := dataUnwrap_dataWrap hc iv data rfl h8 hlen
  refine ⟨w ++ wbuf.drop (data.length + 8), ?_, ?_, ?_⟩
  · rw [wrap, if_neg (by omega), if_neg (by omega), if_neg (by omega), h1]
  · simp only [List.length_append, List.length_drop, h2]; omega
  · rw [← h2, List.take_left, unwrap, if_neg (by omega), if_neg (by omega), if_neg (by omega), h3]
    simp [h2]

example : (wrap (fun _ b => some (toy b)) (List.replicate 16 7) (List.replicate 24 0)).1 = .ok ∧
    unwrap (fun _ b => some (toy b)) (wrap (fun _ b => some (toy b)) (List.replicate 16 7) (List.replicate 24 0)).2
      (List.replicate 20 1) = (.ok, List.replicate 16 7 ++ [1, 1, 1, 1], 16) := by decide +kernel

/-- C14: unwrapping with padding gives back the data and its exact length, for every data length from one byte up. -/
theorem unwrapPadded_wrapPadded {E D : Bytes → Bytes} (hc : IsCipher E D) (data wbuf dbuf : Bytes)
    (h0 : 0 < data.length) (hmax : data.length ≤ 0xfffffff8) (hw : alignedLength data.length + 8 ≤ wbuf.length)
    (hd : alignedLength data.length ≤ dbuf.length) :
    ∃ out, wrapPadded (fun _ b => some (E b)) data wbuf = (.ok, out) ∧ out.length = wbuf.length ∧
      ∃ plain, unwrapPadded (fun _ b => some (D b)) (out.take (alignedLength data.length + 8)) dbuf =
        (.ok, plain, data.length) ∧ plain.length = dbuf.length ∧ plain.take data.length = data ∧
        plain.drop (alignedLength data.length) = dbuf.drop (alignedLength data.length) := by
  have hal : data.length ≤ alignedLength data.length ∧ alignedLength data.length % 8 = 0 ∧
      alignedLength data.length < data.length + 8 ∧ 8 ≤ alignedLength data.length := by
    simp only [alignedLength]; omega
  generalize hA : alignedLength data.length = A at *
  let padded := data ++ List.replicate (A - data.length) (0 : UInt8)
  have hpl : padded.length = A := by simp only [padded, List.length_append, List.length_replicate]; omega
  let initial := ivPadding ++ toBE 4 data.length
  have hil : initial.length = 8 := by simp [initial, ivPadding]
  have h4 : initial.take 4 = ivPadding := by simp [initial, ivPadding]
  have h5 : beNat (initial.drop 4) = data.length := by
    have : initial.drop 4 = toBE 4 data.length := by simp [initial, ivPadding]
    rw [this, beNat_toBE, Nat.mod_eq_of_lt]
    have : (256 : Nat) ^ 4 = 0x100000000 := by decide
    omega
  have key : ∃ w, (if A > 8 then dataWrap (fun _ b => some (E b)) initial padded
      else some (E (initial ++ padded))) = some w ∧ w.length = A + 8 ∧
      (if w.length > 16 then dataUnwrap (fun _ b => some (D b)) w
        else (some (D w)).map (fun b => (b.take 8, b.drop 8))) = some (initial, padded) := by
    by_cases hA8 : A > 8
    · obtain ⟨w, h1, h2, h3⟩ := dataUnwrap_dataWrap hc initial padded hil (by omega) (by omega)
      exact ⟨w, by rw [if_pos hA8, h1], by omega, by rw [if_pos (by omega), h3]⟩
    · have hb : (initial ++ padded).length = 16 := by simp only [List.length_append, hil, hpl]; omega
      refine ⟨E (initial ++ padded), by rw [if_neg hA8], by rw [hc.len _ hb]; omega, ?_⟩
      rw [if_neg (by rw [hc.len _ hb]; omega), hc.inv _ hb]
      simp only [Option.map_some, List.take_left' hil, List.drop_left' hil]
  obtain ⟨w, k1, k2, k3⟩ := key
  refine ⟨w ++ wbuf.drop (A + 8), ?_, ?_, padded ++ dbuf.drop A, ?_, ?_, ?_, ?_⟩
  · rw [wrapPadded]
    simp only [hA]
    rw [if_neg (by omega), if_neg (by omega), if_neg (by omega)]
    simp only [padded, initial] at k1
    simp only [k1]
  · simp only [List.length_append, List.length_drop, k2]; omega
  · rw [List.take_left' k2, unwrapPadded, if_neg (by simp only [alignedLength, k2]; omega), if_neg (by omega),
      if_neg (by omega)]
    simp only [k3, h4, h5, if_true]
    rw [if_neg (by omega), if_neg (by omega), if_neg]
    · rw [k2, Nat.add_sub_cancel]
    · simp [padded, List.drop_left]
  · simp only [List.length_append, hpl, List.length_drop]; omega
  · simp [padded]
  · rw [← hpl, List.drop_left]

example : unwrapPadded (fun _ b => some (toy b)) (wrapPadded (fun _ b => some (toy b)) (List.replicate 11 7)
      (List.replicate 24 0)).2 (List.replicate 16 1) = (.ok, List.replicate 11 7 ++ List.replicate 5 0, 11) ∧
    unwrapPadded (fun _ b => some (toy b)) (wrapPadded (fun _ b => some (toy b)) [1, 2, 3]
      (List.replicate 16 0)).2 (List.replicate 8 1) = (.ok, [1, 2, 3, 0, 0, 0, 0, 0], 3) := by decide +kernel

/-- C15: if unwrapping fails after the argument checks, the whole output buffer is zero; if an argument check fails, the output is
untouched. This holds for every cipher behaviour, including failures at any call. -/
theorem unwrap_failure_zeroes (dec : Cipher) (wrapped data : Bytes) :
    let r := unwrap dec wrapped data
    r.1 ≠ .ok → r.2.1 = List.replicate data.length 0 ∧ (r.1 = .engine ∨ r.1 = .integrityCheckFail) ∨
      r.2.1 = data ∧ (r.1 = .notBlockAligned ∨ r.1 = .notEnoughData ∨ r.1 = .smallOutputBuffer) := by
  simp only [unwrap]
  (repeat' split) <;> simp_all

/-- C15: the same with padding. -/
theorem unwrapPadded_failure_zeroes (dec : Cipher) (wrapped data : Bytes) :
    let r := unwrapPadded dec wrapped data
    r.1 ≠ .ok → r.2.1 = List.replicate data.length 0 ∧
        (r.1 = .engine ∨ r.1 = .integrityCheckFail ∨ r.1 = .lengthCheckFail ∨ r.1 = .paddingCheckFail) ∨
      r.2.1 = data ∧ (r.1 = .notBlockAligned ∨ r.1 = .notEnoughData ∨ r.1 = .smallOutputBuffer) := by
  simp only [unwrapPadded]
  generalize (if wrapped.length > 16 then dataUnwrap dec wrapped else
    (dec (List.replicate 8 0) wrapped).map (fun b => (b.take 8, b.drop 8))) = r
  (repeat' split) <;> simp_all

/-- A failed wrap leaves no plaintext or partly wrapped data in the output buffer either. -/
theorem wrap_failure_zeroes (enc : Cipher) (data wrapped : Bytes) :
    ((wrap enc data wrapped).1 = .engine → (wrap enc data wrapped).2 = List.replicate wrapped.length 0) ∧
    ((wrapPadded enc data wrapped).1 = .engine → (wrapPadded enc data wrapped).2 = List.replicate wrapped.length 0) := by
  constructor
  · simp only [wrap]; (repeat' split) <;> simp
  · simp only [wrapPadded]
    generalize (if alignedLength data.length > 8 then dataWrap enc (ivPadding ++ toBE 4 data.length)
      (data ++ List.replicate (alignedLength data.length - data.length) 0) else enc (List.replicate 8 0)
      (ivPadding ++ toBE 4 data.length ++ (data ++ List.replicate (alignedLength data.length - data.length) 0))) = r
    (repeat' split) <;> simp

/-- C15: unwrapping succeeds only for genuine wrappings: if it succeeds, wrapping the returned data gives exactly the input. -/
theorem unwrap_success_genuine {E D : Bytes → Bytes} (hc : IsPermutation E D) (wrapped data out : Bytes) (n : Nat)
    (hlen : wrapped.length < 2 ^ 61) (h : unwrap (fun _ b => some (D b)) wrapped data = (.ok, out, n)) :
    n ≤ out.length ∧ out.length = data.length ∧ wrapped.length = n + 8 ∧
      ∀ buf : Bytes, wrapped.length ≤ buf.length →
        wrap (fun _ b => some (E b)) (out.take n) buf = (.ok, wrapped ++ buf.drop wrapped.length) := by
  simp only [unwrap] at h
  split at h; · simp at h
  split at h; · simp at h
  split at h; · simp at h
  obtain ⟨check, plain, h1, h2, h3, h4⟩ := dataWrap_dataUnwrap hc wrapped (by omega) (by omega) hlen
  rw [h1] at h
  simp only at h
  split at h
  case isFalse => simp at h
  case isTrue hiv =>
    simp only [Prod.mk.injEq, true_and] at h
    obtain ⟨rfl, rfl⟩ := h
    refine ⟨by simp only [List.length_append, List.length_drop]; omega,
      by simp only [List.length_append, List.length_drop]; omega, by omega, ?_⟩
    intro buf hb
    rw [List.take_left' (by omega), wrap, if_neg (by omega), if_neg (by omega), if_neg (by omega), ← hiv, h4]
    simp [← h3]

/-- C15: the same with padding: integrity value, length and padding of what is returned are all correct. -/
theorem unwrapPadded_success_genuine {E D : Bytes → Bytes} (hc : IsPermutation E D) (wrapped data out : Bytes) (n : Nat)
    (hlen : wrapped.length ≤ 0xfffffff8) (h : unwrapPadded (fun _ b => some (D b)) wrapped data = (.ok, out, n)) :
    0 < n ∧ n ≤ out.length ∧ out.length = data.length ∧ wrapped.length = alignedLength n + 8 ∧
      ∀ buf : Bytes, wrapped.length ≤ buf.length →
        wrapPadded (fun _ b => some (E b)) (out.take n) buf = (.ok, wrapped ++ buf.drop wrapped.length) := by
  simp only [unwrapPadded] at h
  split at h; · simp at h
  rename_i hal
  have h8 : wrapped.length % 8 = 0 := by simp only [alignedLength] at hal; omega
  split at h; · simp at h
  split at h; · simp at h
  have key : ∃ check plain, (if wrapped.length > 16 then dataUnwrap (fun _ b => some (D b)) wrapped
        else (some (D wrapped)).map (fun b => (b.take 8, b.drop 8))) = some (check, plain) ∧ check.length = 8 ∧
        plain.length + 8 = wrapped.length ∧
        (if plain.length > 8 then dataWrap (fun _ b => some (E b)) check plain else some (E (check ++ plain))) =
          some wrapped := by
    by_cases h16 : wrapped.length > 16
    · obtain ⟨check, plain, h1, h2, h3, h4⟩ := dataWrap_dataUnwrap hc wrapped (by omega) (by omega) (by omega)
      exact ⟨check, plain, by rw [if_pos h16, h1], h2, h3, by rw [if_pos (by omega), h4]⟩
    · have hw : wrapped.length = 16 := by omega
      have hD := hc.dlen _ hw
      refine ⟨(D wrapped).take 8, (D wrapped).drop 8, by rw [if_neg h16]; rfl, by simp [hD], by simp [hD, hw], ?_⟩
      rw [if_neg (by simp [hD]), List.take_append_drop, hc.dinv _ hw]
  obtain ⟨check, plain, k1, k2, k3, k4⟩ := key
  rw [k1] at h
  simp only at h
  split at h
  case isFalse => simp at h
  rename_i hiv
  split at h; · simp at h
  split at h; · simp at h
  split at h; · simp at h
  rename_i hpad
  simp only [Prod.mk.injEq, true_and] at h
  obtain ⟨rfl, hn⟩ := h
  have hcheck : check = ivPadding ++ toBE 4 n := by
    have := toBE_beNat (check.drop 4)
    simp only [List.length_drop, k2] at this
    rw [← hiv, ← hn, this, List.take_append_drop]
  subst hn
  generalize beNat (check.drop 4) = n at *
  have hA : alignedLength n = plain.length := by simp only [alignedLength] at hal ⊢; omega
  have hplain : plain = plain.take n ++ List.replicate (plain.length - n) 0 := by
    conv => lhs; rw [← List.take_append_drop n plain]
    congr 1
    apply List.ext_getElem (by simp)
    intro i h1 h2
    simp only [List.any_eq_true, not_exists, not_and, bne_iff_ne, ne_eq, Decidable.not_not] at hpad
    rw [List.getElem_replicate]
    exact hpad _ (List.getElem_mem h1)
  refine ⟨by omega, by simp only [List.length_append, List.length_drop]; omega,
      by simp only [List.length_append, List.length_drop]; omega, by omega, ?_⟩
  intro buf hb
  rw [List.take_append_of_le_length (by omega), wrapPadded]
  have hl : (plain.take n).length = n := by simp; omega
  simp only [hl, hA, ← hcheck, ← hplain]
  rw [if_neg (by omega), if_neg (by omega), if_neg (by omega)]
  simp only [k4, k3]

example : unwrap (fun _ b => some (toy b)) (wrap (fun _ b => some (toy b)) (List.replicate 16 7) (List.replicate 24 0)).2
      (List.replicate 16 1) = (.ok, List.replicate 16 7, 16) ∧
    unwrap (fun _ b => some (toy b)) (List.replicate 24 9) (List.replicate 20 1) =
      (.integrityCheckFail, List.replicate 20 0, 20) ∧
    unwrapPadded (fun _ _ => none) (List.replicate 24 9) (List.replicate 20 1) = (.engine, List.replicate 20 0, 20) := by
  decide +kernel

/-- C14, C15: wrapping succeeds exactly for whole blocks, at least two of them, and a large enough buffer; a refused call leaves
the output buffer as it was. -/
theorem wrap_accepts (enc : Cipher) (data wrapped : Bytes) :
    (data.length % 8 = 0 ∧ 16 ≤ data.length ∧ data.length + 8 ≤ wrapped.length →
      (wrap enc data wrapped).1 = .ok ∨ (wrap enc data wrapped).1 = .engine) ∧
    (¬ (data.length % 8 = 0 ∧ 16 ≤ data.length ∧ data.length + 8 ≤ wrapped.length) →
      (wrap enc data wrapped).1 ≠ .ok ∧ (wrap enc data wrapped).2 = wrapped) := by
  unfold wrap
  constructor
  · intro h
    rw [if_neg (by omega), if_neg (by omega), if_neg (by omega)]
    split <;> simp
  · intro h
    split; · simp
    split; · simp
    split; · simp
    omega

/-- C14, C15: unwrapping is refused exactly for data that is not made of whole blocks, is shorter than the shortest wrapped key or does
not fit into the buffer; then the buffer is left as it was. -/
theorem unwrap_accepts (dec : Cipher) (wrapped data : Bytes) :
    (wrapped.length % 8 = 0 ∧ 24 ≤ wrapped.length ∧ wrapped.length ≤ data.length + 8 →
      (unwrap dec wrapped data).1 = .ok ∨ (unwrap dec wrapped data).1 = .engine ∨
        (unwrap dec wrapped data).1 = .integrityCheckFail) ∧
    (¬ (wrapped.length % 8 = 0 ∧ 24 ≤ wrapped.length ∧ wrapped.length ≤ data.length + 8) →
      (unwrap dec wrapped data).1 ≠ .ok ∧ (unwrap dec wrapped data).2.1 = data) := by
  unfold unwrap
  constructor
  · intro h
    rw [if_neg (by omega), if_neg (by omega), if_neg (by omega)]
    split
    · simp
    · split <;> simp
  · intro h
    split; · simp
    split; · simp
    split; · simp
    omega

example : (wrap (fun _ b => some (toy b)) (List.replicate 8 7) (List.replicate 24 0)).1 = .notEnoughData ∧
    (wrap (fun _ b => some (toy b)) (List.replicate 16 7) (List.replicate 24 0)).1 = .ok := by decide +kernel

end Verif.AesKeyWrap
