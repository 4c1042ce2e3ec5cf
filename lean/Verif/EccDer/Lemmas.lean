import Verif.EccDer.Model
namespace Verif.EccDer
open Res

/-! ### Bounds of the decoders -/

theorem rdN_ne_oob {p : Bytes} {i n : Nat} (h : i + n ≤ p.length) : (rdN p i n : R Bytes) ≠ .oob := by
  simp [rdN, h]

theorem rdN_eq_ok {p : Bytes} {i n : Nat} {b : Bytes} (h : (rdN p i n : R Bytes) = .ok b) :
    i + n ≤ p.length ∧ b.length = n := by
  simp only [rdN] at h
  split at h
  · simp at h; subst h; simp; omega
  · simp at h

theorem getNextTag_ok {type : UInt8} {p : Bytes} {length : Nat} {q l tl} (h : getNextTag type p length = .ok (q, l, tl)) :
    ∃ k, (k = 2 ∨ k = 3) ∧ q = p.drop k ∧ l = length - k ∧ k + tl ≤ length := by
  unfold getNextTag at h
  split at h
  · simp at h
  · rw [bind_eq_ok] at h
    obtain ⟨t, _, h⟩ := h
    split at h
    · simp at h
    · rw [bind_eq_ok] at h
      obtain ⟨b, _, h⟩ := h
      split at h
      · split at h
        · simp at h
        · simp at h
          obtain ⟨rfl, rfl, rfl⟩ := h
          exact ⟨2, .inl rfl, rfl, rfl, by omega⟩
      · split at h
        · rw [bind_eq_ok] at h
          obtain ⟨b2, _, h⟩ := h
          split at h
          · simp at h
          · simp at h
            obtain ⟨rfl, rfl, rfl⟩ := h
            exact ⟨3, .inr rfl, rfl, rfl, by omega⟩
        · simp at h

/-- With an accurate (or pessimistic) remaining length, no read is out of bounds, and on success the item is inside the
remaining length, which is still accurate. `slack` is how far beyond the buffer the remaining length reaches. -/
theorem getNextTag_safe (type : UInt8) (p : Bytes) (length : Nat) (h : length ≤ p.length) :
    Safe (getNextTag type p length) (fun r => r.2.2 ≤ r.2.1 ∧ r.2.1 ≤ r.1.length) := by
  unfold getNextTag
  refine Safe.ite (fun _ => trivial) fun h3 => ?_
  refine Safe.bind (rd_safe (by omega)) fun t _ => ?_
  refine Safe.ite (fun _ => trivial) fun _ => ?_
  refine Safe.bind (rd_safe (by omega)) fun l _ => ?_
  refine Safe.ite (fun _ => Safe.ite (fun _ => trivial) fun _ => ?_) fun _ => ?_
  · simp; omega
  · refine Safe.ite (fun _ => ?_) (fun _ => trivial)
    refine Safe.bind (rd_safe (by omega)) fun l2 _ => ?_
    refine Safe.ite (fun _ => trivial) fun _ => ?_
    simp; omega

theorem decodePubNoCopy_safe (mx : Nat) (der : Bytes) (length : Nat) (hl : length ≤ der.length) :
    Safe (decodePubNoCopy mx der length) (fun r => r.1 ≤ r.2.length ∧ 1 ≤ r.1) := by
  unfold decodePubNoCopy
  refine Safe.bind (getNextTag_safe _ _ _ hl) fun ⟨p1, l1, t1⟩ ⟨_, a1⟩ => ?_
  refine Safe.bind (getNextTag_safe _ _ _ a1) fun ⟨p2, l2, t2⟩ ⟨_, a2⟩ => ?_
  refine Safe.bind (getNextTag_safe _ _ _ a2) fun ⟨p3, l3, t3⟩ ⟨b3, a3⟩ => ?_
  simp only at a3 b3 ⊢
  refine Safe.ite (fun _ => trivial) fun _ => ?_
  refine Safe.bind (rdN_safe (by omega)) fun b _ => ?_
  refine Safe.ite (fun _ => trivial) fun _ => ?_
  refine Safe.bind (getNextTag_safe _ _ _ (by simp; omega)) fun ⟨p4, l4, t4⟩ ⟨b4, a4⟩ => ?_
  simp only at a4 b4 ⊢
  refine Safe.bind (getNextTag_safe _ _ _ (by simp; omega)) fun ⟨p5, l5, t5⟩ ⟨b5, a5⟩ => ?_
  simp only at a5 b5 ⊢
  refine Safe.ite (fun _ => trivial) fun _ => ?_
  refine Safe.bind (rd_safe (by simp; omega)) fun f _ => ?_
  refine Safe.ite (fun _ => trivial) fun _ => ?_
  refine Safe.ite (fun _ => trivial) fun _ => ?_
  split
  · trivial
  · refine Safe.ite (fun _ => trivial) fun _ => ?_
    refine Safe.bind (rdN_safe (by omega)) fun o _ => ?_
    refine Safe.ite (fun _ => trivial) fun _ => ?_
    simp; omega

theorem decodeEcdsaInteger_safe (p : Bytes) (length keyLength : Nat) (hl : length ≤ p.length) :
    Safe (decodeEcdsaInteger p length keyLength) (fun r => r.2.1 ≤ r.1.length ∧ r.2.2.length = keyLength) := by
  unfold decodeEcdsaInteger
  refine Safe.bind (getNextTag_safe _ _ _ hl) fun ⟨p1, l1, t1⟩ ⟨b1, a1⟩ => ?_
  simp only at a1 b1 ⊢
  refine Safe.ite (fun _ => trivial) fun ht => ?_
  refine Safe.bind (P := fun r => r.2.2 ≤ r.2.1 ∧ r.2.1 ≤ r.1.length ∧ r.2.2 ≤ keyLength)
    ?_ fun ⟨p2, l2, t2⟩ ⟨b2, a2, c2⟩ => ?_
  · unfold skipPadding
    refine Safe.ite (fun _ => ?_) (fun _ => by simp; omega)
    refine Safe.bind (rd_safe (by omega)) fun b _ => ?_
    refine Safe.ite (fun _ => trivial) fun _ => ?_
    simp; omega
  · simp only at a2 b2 c2 ⊢
    refine Safe.bind (rdN_safe (by omega)) fun v ⟨_, hv⟩ => ?_
    refine Safe.bind (wrN_safe (by simp; omega)) fun s ⟨_, hs⟩ => ?_
    simp at hs ⊢; omega

theorem decodePrivNoCopy_safe_aux (mx : Nat) (der : Bytes) (length : Nat) (hl : length + 1 ≤ der.length) :
    Safe (decodePrivNoCopy mx der length) (fun r => r.1 ≤ r.2.length) := by
  unfold decodePrivNoCopy
  -- the remaining length is pessimistic by one byte until the key, exact after it
  have tag : ∀ (t : UInt8) (p : Bytes) (l : Nat), l + 1 ≤ p.length →
      Safe (getNextTag t p l) (fun r => r.2.2 ≤ r.2.1 ∧ r.2.1 + 1 ≤ r.1.length) := by
    intro type p length h
    unfold getNextTag
    refine Safe.ite (fun _ => trivial) fun h3 => ?_
    refine Safe.bind (rd_safe (by omega)) fun t _ => ?_
    refine Safe.ite (fun _ => trivial) fun _ => ?_
    refine Safe.bind (rd_safe (by omega)) fun l _ => ?_
    refine Safe.ite (fun _ => Safe.ite (fun _ => trivial) fun _ => ?_) fun _ => ?_
    · simp; omega
    · refine Safe.ite (fun _ => ?_) (fun _ => trivial)
      refine Safe.bind (rd_safe (by omega)) fun l2 _ => ?_
      refine Safe.ite (fun _ => trivial) fun _ => ?_
      simp; omega
  refine Safe.bind (tag _ _ _ hl) fun ⟨p1, l1, t1⟩ ⟨_, a1⟩ => ?_
  refine Safe.bind (tag _ _ _ a1) fun ⟨p2, l2, t2⟩ ⟨b2, a2⟩ => ?_
  simp only at a2 b2 ⊢
  refine Safe.bind (P := fun _ => True) ?_ fun v _ => ?_
  · unfold checkVersion
    refine Safe.ite (fun _ => ?_) (fun _ => trivial)
    refine Safe.bind (rd_safe (by omega)) fun _ _ => ?_
    exact Safe.ite (fun _ => trivial) fun _ => trivial
  refine Safe.bind (tag _ _ _ (by simp; omega)) fun ⟨p3, l3, t3⟩ ⟨b3, a3⟩ => ?_
  simp only at a3 b3 ⊢
  refine Safe.bind (P := fun r => l3 - r.2.1 ≤ (r.1.drop r.2.1).length ∧ r.2.1 ≤ r.1.length) ?_
    fun ⟨key, keyLen, oid⟩ ⟨c1, c2⟩ => ?_
  · unfold privKeyCase
    refine Safe.ite (fun _ => ?_) fun _ => ?_
    · refine Safe.bind (rd_safe (by omega)) fun b _ => ?_
      refine Safe.ite (fun _ => trivial) fun _ => ?_
      simp; omega
    refine Safe.ite (fun _ => by simp; omega) fun _ => ?_
    refine Safe.ite (fun _ => ?_) fun _ => ?_
    · refine Safe.bind (rd_safe (by omega)) fun b _ => ?_
      refine Safe.ite (fun _ => trivial) fun _ => ?_
      simp; omega
    refine Safe.ite (fun _ => by simp; omega) fun _ => ?_
    refine Safe.ite (fun _ => by simp; omega) fun _ => trivial
  · simp only at c1 c2 ⊢
    refine Safe.bind (getNextTag_safe _ _ _ c1) fun ⟨p4, l4, t4⟩ ⟨_, a4⟩ => ?_
    refine Safe.bind (getNextTag_safe _ _ _ a4) fun ⟨p5, l5, t5⟩ ⟨b5, a5⟩ => ?_
    simp only at a5 b5 ⊢
    refine Safe.ite (fun _ => trivial) fun _ => ?_
    refine Safe.bind (rdN_safe (by omega)) fun b _ => ?_
    exact Safe.ite (fun _ => trivial) fun _ => c2

/-! ### Encoding -/

/-- A DER header with a one- or two-byte length. -/
def hdr (type : UInt8) (n : Nat) : Bytes := if n ≥ 0x80 then [type, 0x81, UInt8.ofNat n] else [type, UInt8.ofNat n]

theorem hdr_length_le (t n) : (hdr t n).length ≤ 3 ∧ 2 ≤ (hdr t n).length := by unfold hdr; split <;> simp

theorem hdr_short {t n} (h : n < 0x80) : (hdr t n).length = 2 := by
  unfold hdr; rw [if_neg (by omega)]; rfl

theorem put_ok {cap : Nat} {out data : Bytes} (h : out.length + data.length ≤ cap) : put cap out data = .ok (out ++ data) := by
  simp [put, h]

theorem addNextTag_none {cap : Nat} (t : UInt8) (n : Nat) {out : Bytes} {length : Nat} (h : out.length + length = cap) :
    addNextTag cap t n none out length =
      if length < 3 then .err .smallDerBuffer else .ok (out ++ hdr t n, length - (hdr t n).length) := by
  unfold addNextTag
  split
  · rfl
  · rw [put_ok (by simp; omega)]
    simp only [ok_bind]
    by_cases hn : n ≥ 0x80
    · rw [if_pos hn, put_ok (by simp; omega)]
      simp only [ok_bind, pure_eq]
      rw [put_ok (by simp; omega)]
      simp only [ok_bind, pure_eq, hdr, hn, if_true]
      simp
      omega
    · rw [if_neg hn]
      simp only [ok_bind, pure_eq]
      rw [put_ok (by simp; omega)]
      simp only [ok_bind, pure_eq, hdr, hn, if_false]
      simp

theorem addNextTag_some {cap : Nat} (t : UInt8) (n : Nat) (d : Bytes) {out : Bytes} {length : Nat} (h : out.length + length = cap)
    (hd : d.length = n) :
    addNextTag cap t n (some d) out length =
      if length < 3 then .err .smallDerBuffer
      else if length - (hdr t n).length < n then .err .smallDerBuffer
      else .ok (out ++ hdr t n ++ d, length - (hdr t n).length - n) := by
  unfold addNextTag
  split
  · rfl
  · rw [put_ok (by simp; omega)]
    simp only [ok_bind]
    by_cases hn : n ≥ 0x80
    · rw [if_pos hn, put_ok (by simp; omega)]
      simp only [ok_bind, pure_eq]
      rw [put_ok (by simp; omega)]
      simp only [ok_bind, pure_eq, hdr, hn, if_true]
      simp only [List.length_cons, List.length_nil, Nat.sub_sub, Nat.reduceAdd]
      split
      · rfl
      · rw [put_ok (by simp; omega)]
        simp
    · rw [if_neg hn]
      simp only [ok_bind, pure_eq]
      rw [put_ok (by simp; omega)]
      simp only [ok_bind, pure_eq, hdr, hn, if_false]
      simp only [List.length_cons, List.length_nil, Nat.reduceAdd]
      split
      · rfl
      · rw [put_ok (by simp; omega)]
        simp

theorem encodePubBitString_eq {cap : Nat} (x y : Bytes) (k : Nat) {out : Bytes} {length : Nat} (h : out.length + length = cap)
    (hx : x.length = k) (hy : y.length = k) :
    encodePubBitString cap x y k out length =
      if length < 3 then .err .smallDerBuffer
      else if length - (hdr 3 (k * 2 + 2)).length < 2 + k * 2 then .err .smallDerBuffer
      else .ok (out ++ (hdr 3 (k * 2 + 2) ++ [0, 4] ++ x ++ y), length - (hdr 3 (k * 2 + 2)).length - (2 + k * 2)) := by
  unfold encodePubBitString
  rw [addNextTag_none _ _ h]
  have := hdr_length_le 3 (k * 2 + 2)
  split
  · rfl
  · simp only [ok_bind]
    split
    · rfl
    · rw [put_ok (by simp; omega), ok_bind, put_ok (by simp; omega), ok_bind, put_ok (by simp; omega)]
      simp

/-! ### Decoding what was encoded -/

theorem getNextTag_hdr (t : UInt8) (n length : Nat) (rest : Bytes) (hn : n < 256) (h3 : 3 ≤ length)
    (hl : (hdr t n).length + n ≤ length) :
    getNextTag t (hdr t n ++ rest) length = .ok (rest, length - (hdr t n).length, n) := by
  have e : (UInt8.ofNat n).toNat = n := by simp [UInt8.toNat_ofNat']; omega
  unfold getNextTag
  rw [if_neg (by omega)]
  by_cases h : n ≥ 0x80
  · simp only [hdr, h, if_true, List.length_cons, List.length_nil] at hl ⊢
    simp only [List.cons_append, List.nil_append, rd_cons_zero, rd_cons_succ, ok_bind]
    rw [if_neg (by simp), if_neg (by decide), if_pos trivial]
    simp only [e]
    rw [if_neg (by omega)]
    simp
  · simp only [hdr, h, if_false, List.length_cons, List.length_nil] at hl ⊢
    simp only [List.cons_append, List.nil_append, rd_cons_zero, rd_cons_succ, ok_bind]
    rw [if_neg (by simp), if_pos (by rw [UInt8.lt_iff_toNat_lt, e]; exact Nat.not_le.mp h)]
    rw [e, if_neg (by omega)]
    simp

theorem pubOid_cases {mx k : Nat} {oid : Bytes} (h : pubOid mx k = some oid) :
    (k = 32 ∧ oid = p256Oid) ∨ (k = 48 ∧ oid = p384Oid ∧ mx ≥ 48) ∨ (k = 66 ∧ oid = p521Oid ∧ mx ≥ 66) := by
  simp only [pubOid] at h
  split at h
  · simp at h; exact .inl ⟨by assumption, h.symm⟩
  · split at h
    · simp at h; rename_i h'; exact .inr (.inl ⟨h'.1, h.symm, h'.2⟩)
    · split at h
      · simp at h; rename_i h'; exact .inr (.inr ⟨h'.1, h.symm, h'.2⟩)
      · simp at h

theorem pubOid_length {mx k : Nat} {oid : Bytes} (h : pubOid mx k = some oid) : oid.length = 8 ∨ oid.length = 5 := by
  rcases pubOid_cases h with ⟨_, rfl⟩ | ⟨_, rfl, _⟩ | ⟨_, rfl, _⟩ <;> simp [p256Oid, p384Oid, p521Oid]

theorem privKeyCase_eq {mx k : Nat} {oid : Bytes} (h : pubOid mx k = some oid) (p : Bytes) :
    privKeyCase mx p k = .ok (p, k, oid) := by
  rcases pubOid_cases h with ⟨rfl, rfl⟩ | ⟨rfl, rfl, h'⟩ | ⟨rfl, rfl, h'⟩ <;> simp [privKeyCase, *]

/-- Decoding a well-formed private key structure. -/
theorem decodePrivNoCopy_wf {mx k : Nat} {oid : Bytes} (h : pubOid mx k = some oid) (N length : Nat) (priv rest : Bytes)
    (hp : priv.length = k) (hN : N < 256) (h1 : (hdr 0x30 N).length + N ≤ length)
    (h2 : (hdr 0x30 N).length + (3 + (2 + k) + 4 + oid.length) ≤ length) :
    decodePrivNoCopy mx (hdr 0x30 N ++ (hdr 2 1 ++ ([1] ++ (hdr 4 k ++ (priv ++ (hdr 0xa0 (oid.length + 2) ++
      (hdr 6 oid.length ++ (oid ++ rest)))))))) length = .ok (k, priv ++ (hdr 0xa0 (oid.length + 2) ++
      (hdr 6 oid.length ++ (oid ++ rest)))) := by
  have ho := pubOid_length h
  have hk : k = 32 ∨ k = 48 ∨ k = 66 := by rcases pubOid_cases h with h | h | h <;> simp [h.1]
  have hd := hdr_length_le 0x30 N
  have e2 : (hdr 2 1).length = 2 := rfl
  have e4 : (hdr 4 k).length = 2 := hdr_short (by omega)
  have ea : (hdr 0xa0 (oid.length + 2)).length = 2 := hdr_short (by omega)
  have e6 : (hdr 6 oid.length).length = 2 := hdr_short (by omega)
  unfold decodePrivNoCopy
  rw [getNextTag_hdr _ _ _ _ hN (by omega) h1]
  simp only [ok_bind]
  rw [getNextTag_hdr _ _ _ _ (by omega) (by omega) (by omega)]
  simp only [ok_bind, checkVersion, if_true, List.cons_append, List.nil_append, rd_cons_zero]
  rw [if_neg (by simp)]
  simp only [pure_eq, ok_bind, List.drop_succ_cons, List.drop_zero]
  rw [getNextTag_hdr _ _ _ _ (by omega) (by omega) (by omega)]
  simp only [ok_bind, privKeyCase_eq h]
  rw [List.drop_left' hp, getNextTag_hdr _ _ _ _ (by omega) (by omega) (by omega)]
  simp only [ok_bind]
  rw [getNextTag_hdr _ _ _ _ (by omega) (by omega) (by omega)]
  simp only [ok_bind]
  rw [if_neg (by simp), rdN_ok (by simp)]
  simp

theorem decodePubNoCopy_wf {mx k : Nat} {oid : Bytes} (h : pubOid mx k = some oid) (N A length : Nat) (x y rest : Bytes)
    (hx : x.length = k) (hy : y.length = k) (hN : N < 256) (hA : A < 0x80) (h1 : (hdr 0x30 N).length + N ≤ length)
    (h3 : A ≤ 20)
    (h2 : (hdr 0x30 N).length + (2 + 9 + (2 + oid.length) + (hdr 3 (k * 2 + 2)).length + (k * 2 + 2)) ≤ length) :
    decodePubNoCopy mx (hdr 0x30 N ++ (hdr 0x30 A ++ (hdr 6 7 ++ (ecPublicKeyOid ++ (hdr 6 oid.length ++ (oid ++
      (hdr 3 (k * 2 + 2) ++ ([0, 4] ++ (x ++ (y ++ rest)))))))))) length = .ok (k * 2 + 1, 4 :: (x ++ (y ++ rest))) := by
  have ho := pubOid_length h
  have hk : k = 32 ∨ k = 48 ∨ k = 66 := by rcases pubOid_cases h with h | h | h <;> simp [h.1]
  have hd := hdr_length_le 0x30 N
  have ea : (hdr 0x30 A).length = 2 := hdr_short (by omega)
  have e7 : (hdr 6 7).length = 2 := rfl
  have e6 : (hdr 6 oid.length).length = 2 := hdr_short (by omega)
  have hd3 := hdr_length_le 3 (k * 2 + 2)
  unfold decodePubNoCopy
  rw [getNextTag_hdr _ _ _ _ hN (by omega) h1]
  simp only [ok_bind]
  rw [getNextTag_hdr _ _ _ _ (by omega) (by omega) (by omega)]
  simp only [ok_bind]
  rw [getNextTag_hdr _ _ _ _ (by omega) (by omega) (by omega)]
  simp only [ok_bind]
  rw [if_neg (by decide), rdN_ok (by simp [ecPublicKeyOid])]
  simp only [ok_bind, List.drop_zero]
  rw [if_neg (by simp [ecPublicKeyOid]), show List.drop 7 (ecPublicKeyOid ++ _) = _ from List.drop_left' rfl]
  rw [getNextTag_hdr _ _ _ _ (by omega) (by omega) (by omega)]
  simp only [ok_bind]
  rw [List.drop_left, getNextTag_hdr _ _ _ _ (by omega) (by omega) (by omega)]
  simp only [ok_bind]
  rw [if_neg (by omega)]
  simp only [List.cons_append, List.nil_append, List.drop_succ_cons, List.drop_zero, rd_cons_zero, ok_bind]
  rw [if_neg (by decide), if_neg (by decide)]
  rw [show (k * 2 + 2 - 1 - 1) / 2 = k by omega, h]
  simp only
  rw [if_neg (by simp), rdN_ok (by simp)]
  simp

end Verif.EccDer

namespace Verif.EccDer
open Res

/-! ### ECDSA integers -/

theorem trim_spec : ∀ (sig : Bytes), sig ≠ [] → ∃ i t ts, trim sig = t :: ts ∧ sig = List.replicate i 0 ++ t :: ts := by
  intro sig
  fun_induction trim sig with
  | case1 b bs ih =>
    intro _
    obtain ⟨i, t, ts, h1, h2⟩ := ih (by simp)
    exact ⟨i + 1, t, ts, h1, by rw [h2]; simp [List.replicate_succ]⟩
  | case2 bs hne =>
    intro h
    match bs, h with
    | t :: ts, _ => exact ⟨0, t, ts, rfl, by simp⟩

/-- The content of the DER integer. -/
def intBody (sig : Bytes) : Bytes :=
  if (trim sig).headD 0 &&& 0x80 ≠ 0 then 0 :: trim sig else trim sig

theorem intBody_length (sig : Bytes) (h : sig ≠ []) : 1 ≤ (intBody sig).length ∧ (intBody sig).length ≤ sig.length + 1 := by
  obtain ⟨i, t, ts, h1, h2⟩ := trim_spec sig h
  have := congrArg List.length h2
  simp at this
  unfold intBody
  rw [h1]
  split <;> simp <;> omega

theorem encodeEcdsaInteger_eq {cap : Nat} (sig : Bytes) (hs : sig ≠ []) {out : Bytes} {length : Nat}
    (h : out.length + length = cap) :
    encodeEcdsaInteger cap sig out length =
      if length < 3 ∨ length < 2 + (intBody sig).length then .err .smallDerBuffer
      else .ok (out ++ [2, UInt8.ofNat (intBody sig).length] ++ intBody sig, length - 2 - (intBody sig).length) := by
  obtain ⟨i, t, ts, h1, h2⟩ := trim_spec sig hs
  have hset : ∀ (b : UInt8) (tail : Bytes), (out ++ ([2, 0] ++ tail)).set (out.length + 1) b = out ++ ([2, b] ++ tail) := by
    intro b tail
    rw [List.set_append_right _ _ (by omega)]
    simp
  unfold encodeEcdsaInteger
  rw [addNextTag_none _ _ h]
  by_cases h3 : length < 3
  · rw [if_pos h3, if_pos (.inl h3)]; rfl
  · rw [if_neg h3]
    have e2 : hdr 2 0 = [2, 0] := rfl
    simp only [ok_bind, h1, rd_cons_zero, e2]
    by_cases hp : t &&& 0x80 ≠ 0
    · have hb : intBody sig = 0 :: t :: ts := by
        unfold intBody; rw [h1]; exact if_pos hp
      rw [if_pos hp, put_ok (by simp; omega)]
      simp only [ok_bind, pure_eq, hb]
      simp only [List.length_cons, List.length_nil]
      by_cases h4 : length - (0 + 1 + 1) - 1 < ts.length + 1
      · rw [if_pos h4, if_pos (by omega)]
      · rw [if_neg h4, if_neg (by omega), put_ok (by simp; omega)]
        simp only [ok_bind, ok.injEq, Prod.mk.injEq]
        refine ⟨?_, by omega⟩
        have := hset (UInt8.ofNat (1 + (ts.length + 1))) (0 :: t :: ts)
        simp only [List.append_assoc, List.cons_append, List.nil_append] at this ⊢
        rw [this, show 1 + (ts.length + 1) = ts.length + 1 + 1 by omega]
    · have hb : intBody sig = t :: ts := by
        simp only [intBody, h1, List.headD_cons]; rw [if_neg hp]
      rw [if_neg hp]
      simp only [ok_bind, pure_eq, hb]
      simp only [List.length_cons, List.length_nil]
      by_cases h4 : length - (0 + 1 + 1) < ts.length + 1
      · rw [if_pos h4, if_pos (by omega)]
      · rw [if_neg h4, if_neg (by omega), put_ok (by simp; omega)]
        simp only [ok_bind, ok.injEq, Prod.mk.injEq]
        refine ⟨?_, by simp⟩
        have := hset (UInt8.ofNat (0 + (ts.length + 1))) (t :: ts)
        simp only [List.append_assoc, List.cons_append, List.nil_append] at this ⊢
        rw [this, show 0 + (ts.length + 1) = ts.length + 1 by omega]

theorem decodeEcdsaInteger_intBody (sig rest : Bytes) (hs : sig ≠ []) (length : Nat) (hb : (intBody sig).length < 0x80)
    (hl : 2 + (intBody sig).length ≤ length) :
    decodeEcdsaInteger (2 :: UInt8.ofNat (intBody sig).length :: (intBody sig ++ rest)) length sig.length =
      .ok (rest, length - 2 - (intBody sig).length, sig) := by
  have hlen := intBody_length sig hs
  have hh : hdr 2 (intBody sig).length = [2, UInt8.ofNat (intBody sig).length] := by
    unfold hdr; rw [if_neg (by omega)]
  have := getNextTag_hdr 2 (intBody sig).length length (intBody sig ++ rest) (by omega) (by omega)
    (by rw [hdr_short hb]; omega)
  rw [hh] at this
  simp only [List.cons_append, List.nil_append, List.length_cons, List.length_nil] at this
  unfold decodeEcdsaInteger
  rw [this]
  simp only [ok_bind]
  rw [if_neg (by omega)]
  obtain ⟨i, t, ts, h1, h2⟩ := trim_spec sig hs
  have hsl := congrArg List.length h2
  simp at hsl
  unfold skipPadding
  by_cases hp : t &&& 0x80 ≠ 0
  · have hbe : intBody sig = 0 :: t :: ts := by
        unfold intBody; rw [h1]; exact if_pos hp
    rw [hbe] at hl ⊢
    simp only [List.length_cons, List.cons_append, rd_cons_zero, ok_bind] at hl ⊢
    by_cases hi : i = 0
    · subst hi
      rw [if_pos (by omega), if_neg (by simp)]
      simp only [pure_eq, ok_bind, List.drop_succ_cons, List.drop_zero, Nat.add_sub_cancel]
      rw [rdN_ok (by simp), ok_bind, wrN_ok (by simp; omega)]
      simp only [ok_bind, ok.injEq, Prod.mk.injEq]
      refine ⟨by simp, by simp only [Nat.zero_add, Nat.reduceAdd]; omega, ?_⟩
      simp only [List.replicate_zero, List.nil_append] at h2
      have htk : ((t :: (ts ++ rest)).drop 0).take (ts.length + 1) = t :: ts := by simp
      rw [htk, h2]
      simp
    · rw [if_neg (by omega)]
      simp only [pure_eq, ok_bind]
      rw [rdN_ok (by simp), ok_bind, wrN_ok (by simp; omega)]
      simp only [ok_bind, ok.injEq, Prod.mk.injEq]
      refine ⟨by simp, by simp only [Nat.zero_add, Nat.reduceAdd], ?_⟩
      have htk : ((0 :: t :: (ts ++ rest)).drop 0).take (ts.length + 1 + 1) = 0 :: t :: ts := by simp
      rw [htk]
      obtain ⟨j, rfl⟩ : ∃ j, i = j + 1 := ⟨i - 1, by omega⟩
      simp only [List.take_replicate, List.drop_replicate, List.length_cons]
      rw [show sig.length - (sig.length - (ts.length + 1 + 1) + (ts.length + 1 + 1)) = 0 by omega,
        show min (sig.length - (ts.length + 1 + 1)) sig.length = j by omega]
      conv => rhs; rw [h2]
      simp [List.replicate_succ']
  · have hbe : intBody sig = t :: ts := by
        simp only [intBody, h1, List.headD_cons]; rw [if_neg hp]
    rw [hbe] at hl ⊢
    simp only [List.length_cons, List.cons_append] at hl ⊢
    rw [if_neg (by omega)]
    simp only [pure_eq, ok_bind]
    rw [rdN_ok (by simp), ok_bind, wrN_ok (by simp; omega)]
    simp only [ok_bind, ok.injEq, Prod.mk.injEq]
    refine ⟨by simp, by simp only [Nat.zero_add, Nat.reduceAdd], ?_⟩
    have htk : ((t :: (ts ++ rest)).drop 0).take (ts.length + 1) = t :: ts := by simp
    rw [htk]
    simp only [List.take_replicate, List.drop_replicate, List.length_cons]
    rw [show sig.length - (sig.length - (ts.length + 1) + (ts.length + 1)) = 0 by omega,
      show min (sig.length - (ts.length + 1)) sig.length = i by omega]
    conv => rhs; rw [h2]
    simp

end Verif.EccDer
