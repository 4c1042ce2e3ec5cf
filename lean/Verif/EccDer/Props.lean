import Verif.EccDer.Lemmas
/-! Properties C10-C12 of `ecc_der_util.c`. -/
namespace Verif.EccDer
open Res

/-! ### C10: ECDSA signatures -/

/-- Content of the signature sequence. -/
def sigBody (r s : Bytes) : Bytes :=
  [2, UInt8.ofNat (intBody r).length] ++ intBody r ++ ([2, UInt8.ofNat (intBody s).length] ++ intBody s)

theorem sigBody_length (r s : Bytes) : (sigBody r s).length = 4 + (intBody r).length + (intBody s).length := by
  simp [sigBody]; omega

theorem encodeSig_eq (mx cap : Nat) (r s : Bytes) (hr : r ≠ []) (hs : s ≠ []) :
    encodeSig mx cap r s =
      if cap < 2 + (sigBody r s).length then .err .smallDerBuffer
      else if mx ≥ 66 ∧ (sigBody r s).length ≥ 0x80 then
        if cap = 2 + (sigBody r s).length then .err .smallDerBuffer
        else .ok ((sigBody r s).length + 3, 0x30 :: 0x81 :: UInt8.ofNat (sigBody r s).length :: sigBody r s)
      else .ok ((sigBody r s).length + 2, 0x30 :: UInt8.ofNat (sigBody r s).length :: sigBody r s) := by
  have h1 := intBody_length r hr
  have h2 := intBody_length s hs
  have hb := sigBody_length r s
  have e0 : hdr 0x30 0 = [0x30, 0] := rfl
  unfold encodeSig
  rw [if_neg (by simpa using hr), addNextTag_none _ _ (by simp)]
  by_cases c1 : cap < 3
  · rw [if_pos c1, if_pos (by omega)]; rfl
  rw [if_neg c1]
  simp only [ok_bind, e0]
  rw [encodeEcdsaInteger_eq r hr (by simp; omega)]
  by_cases c2 : cap - 2 < 3 ∨ cap - 2 < 2 + (intBody r).length
  · rw [if_pos (by simpa using c2), if_pos (by omega)]; rfl
  rw [if_neg (by simpa using c2)]
  simp only [ok_bind]
  rw [encodeEcdsaInteger_eq s hs (by simp; omega)]
  by_cases c3 : cap - 2 - 2 - (intBody r).length < 3 ∨ cap - 2 - 2 - (intBody r).length < 2 + (intBody s).length
  · rw [if_pos (by simpa using c3), if_pos (by omega)]; rfl
  rw [if_neg (by simpa using c3), if_neg (by omega)]
  simp only [ok_bind]
  have ho : [] ++ [0x30, 0] ++ [2, UInt8.ofNat (intBody r).length] ++ intBody r ++ [2, UInt8.ofNat (intBody s).length] ++
      intBody s = 0x30 :: 0 :: sigBody r s := by simp [sigBody]
  rw [ho]
  simp only [List.length_cons, List.length_nil, List.set_cons_succ, List.set_cons_zero, Nat.reduceSubDiff, Nat.sub_zero]
  split
  · by_cases c4 : cap = 2 + (sigBody r s).length
    · rw [if_pos (by omega), if_pos c4]
    · rw [if_neg (by omega), if_neg c4, rdN_ok (by simp; omega)]
      simp only [ok_bind]
      rw [put_ok (by simp; omega)]
      simp only [ok_bind, pure_eq, List.drop_succ_cons, List.drop_zero, List.take_succ_cons, List.take_zero,
        List.cons_append, List.nil_append, ok.injEq, Prod.mk.injEq, true_and, List.cons.injEq]
      exact List.take_of_length_le (by omega)
  · simp

theorem decodeSig_sigBody (r s rest : Bytes) (hr : r ≠ []) (hs : s.length = r.length) (hbr : (intBody r).length < 0x80)
    (hbs : (intBody s).length < 0x80) (length : Nat)
    (hN : (sigBody r s).length < 256) (hl : (hdr 0x30 (sigBody r s).length).length + (sigBody r s).length ≤ length) :
    decodeSig (hdr 0x30 (sigBody r s).length ++ (sigBody r s ++ rest)) length r.length = .ok (r, s) := by
  have hs' : s ≠ [] := by intro h; subst h; exact hr (List.eq_nil_of_length_eq_zero hs.symm)
  have hb := sigBody_length r s
  have hd := hdr_length_le 0x30 (sigBody r s).length
  unfold decodeSig
  rw [getNextTag_hdr _ _ _ _ hN (by omega) hl]
  simp only [ok_bind, sigBody, List.append_assoc, List.cons_append, List.nil_append]
  rw [decodeEcdsaInteger_intBody r _ hr _ hbr (by simp; omega)]
  simp only [ok_bind]
  rw [← hs, decodeEcdsaInteger_intBody s _ hs' _ hbs (by simp; omega)]
  simp only [ok_bind]
  rw [if_neg (by simp)]
  rfl

/-- C10: for every key length the encoder supports, whatever it encodes decodes to the same `r` and `s`, also if other data follows
in the buffer; the encoding fits in the output buffer. -/
theorem sig_roundtrip (mx cap : Nat) (r s : Bytes) (hr : 0 < r.length) (hs : s.length = r.length)
    (hk : r.length ≤ 60 ∨ (mx ≥ 66 ∧ r.length ≤ 124)) (n : Nat) (out : Bytes) (h : encodeSig mx cap r s = .ok (n, out)) :
    n = out.length ∧ n ≤ cap ∧ ∀ rest, decodeSig (out ++ rest) n r.length = .ok (r, s) := by
  have hr' : r ≠ [] := by intro h; simp [h] at hr
  have hs' : s ≠ [] := by intro h; simp [h] at hs; omega
  have h1 := intBody_length r hr'
  have h2 := intBody_length s hs'
  have hb := sigBody_length r s
  have key := decodeSig_sigBody r s
  rw [encodeSig_eq mx cap r s hr' hs'] at h
  split at h
  · simp at h
  · split at h
    · rename_i hlong
      split at h
      · simp at h
      · simp only [ok.injEq, Prod.mk.injEq] at h
        obtain ⟨rfl, rfl⟩ := h
        have hh : hdr 0x30 (sigBody r s).length = [0x30, 0x81, UInt8.ofNat (sigBody r s).length] := by
          unfold hdr; rw [if_pos hlong.2]
        refine ⟨by simp, by omega, fun rest => ?_⟩
        have := key rest hr' hs (by omega) (by omega) ((sigBody r s).length + 3) (by omega)
          (by rw [hh]; simp; omega)
        rwa [hh] at this
    · rename_i hshort
      simp only [ok.injEq, Prod.mk.injEq] at h
      obtain ⟨rfl, rfl⟩ := h
      have hlt : (sigBody r s).length < 0x80 := by omega
      have hh : hdr 0x30 (sigBody r s).length = [0x30, UInt8.ofNat (sigBody r s).length] := by
        unfold hdr; rw [if_neg (by omega)]
      refine ⟨by simp, by omega, fun rest => ?_⟩
      have := key rest hr' hs (by omega) (by omega) ((sigBody r s).length + 2) (by omega)
        (by rw [hh]; simp; omega)
      rwa [hh] at this

/-- C10: encoding never writes outside the output buffer. -/
theorem encodeSig_in_bounds (mx cap : Nat) (r s : Bytes) (hs : s.length = r.length) : encodeSig mx cap r s ≠ .oob := by
  by_cases hr : r = []
  · subst hr; simp [encodeSig]
  · have hs' : s ≠ [] := by intro h; subst h; exact hr (List.eq_nil_of_length_eq_zero hs.symm)
    rw [encodeSig_eq mx cap r s hr hs']
    (repeat' split) <;> simp

theorem intBody_top (sig : Bytes) (h : sig ≠ []) (ht : sig.headD 0 &&& 0x80 = 0) : (intBody sig).length ≤ sig.length := by
  obtain ⟨i, t, ts, h1, h2⟩ := trim_spec sig h
  have := congrArg List.length h2
  simp at this
  unfold intBody
  rw [h1]
  split
  · rename_i hp
    match i with
    | 0 => rw [h2] at ht; simp at ht hp; exact absurd ht hp
    | i + 1 => simp; omega
  · simp; omega

/-- C10: a buffer of the advertised maximum length is always enough, and the advertised maximum is not exceeded. For P-521 the top bit
of the 66-byte values is zero. -/
theorem sig_max_length (mx cap : Nat) (r s : Bytes) (m : Nat) (hm : maxSigLength mx r.length = some m) (hs : s.length = r.length)
    (hcap : m ≤ cap) (htop : r.length = 66 → r.headD 0 &&& 0x80 = 0 ∧ s.headD 0 &&& 0x80 = 0) :
    ∃ n out, encodeSig mx cap r s = .ok (n, out) ∧ n ≤ m := by
  have hk : (r.length = 32 ∧ m = 72) ∨ (r.length = 48 ∧ m = 104) ∨ (r.length = 66 ∧ m = 139 ∧ mx ≥ 66) := by
    simp only [maxSigLength] at hm
    split at hm
    · simp at hm; omega
    · split at hm
      · simp at hm; omega
      · split at hm
        · simp at hm; omega
        · simp at hm
  have hr' : r ≠ [] := by intro h; subst h; simp at hk
  have hs' : s ≠ [] := by intro h; subst h; simp at hs; omega
  have h1 := intBody_length r hr'
  have h2 := intBody_length s hs'
  have hb := sigBody_length r s
  have h3 : r.length = 66 → (intBody r).length ≤ 66 ∧ (intBody s).length ≤ 66 := by
    intro h
    have := intBody_top r hr' (htop h).1
    have := intBody_top s hs' (htop h).2
    omega
  rw [encodeSig_eq mx cap r s hr' hs', if_neg (by omega)]
  split
  · rw [if_neg (by omega)]
    exact ⟨_, _, rfl, by omega⟩
  · exact ⟨_, _, rfl, by omega⟩

example : encodeSig 66 20 [0, 0x80, 1] [0, 0, 0] = .ok (10, [0x30, 8, 2, 3, 0, 0x80, 1, 2, 1, 0]) := by decide
example : maxSigLength 66 66 = some 139 ∧ (List.replicate 66 (0x01 : UInt8)).headD 0 &&& 0x80 = 0 := by decide

/-! ### C11: keys -/

/-- The optional public key. -/
def pubPart (pub : Option (Bytes × Bytes)) (k : Nat) : Bytes :=
  match pub with
  | none => []
  | some (x, y) => hdr 0xa1 (if k ≠ 66 then k * 2 + 4 else k * 2 + 5) ++ (hdr 3 (k * 2 + 2) ++ [0, 4] ++ x ++ y)

/-- What the private key encoder writes after the sequence header. -/
def privBody (priv : Bytes) (pub : Option (Bytes × Bytes)) (k : Nat) (oid : Bytes) : Bytes :=
  hdr 2 1 ++ ([1] ++ (hdr 4 k ++ (priv ++ (hdr 0xa0 (oid.length + 2) ++ (hdr 6 oid.length ++ (oid ++
    pubPart pub k))))))

theorem hdr3_length {k : Nat} (hk : k = 32 ∨ k = 48 ∨ k = 66) :
    (hdr 3 (k * 2 + 2)).length = if k = 66 then 3 else 2 := by
  rcases hk with rfl | rfl | rfl <;> simp [hdr]

theorem hdra1_length {k : Nat} (hk : k = 32 ∨ k = 48 ∨ k = 66) :
    (hdr 0xa1 (if k ≠ 66 then k * 2 + 4 else k * 2 + 5)).length = if k = 66 then 3 else 2 := by
  rcases hk with rfl | rfl | rfl <;> simp [hdr]


theorem bind_err {α β} {x : R α} {e : Err} {f : α → R β} (h : x = .err e) : (x >>= f) = .err e := by rw [h]; rfl

theorem addNextTag_step (cap : Nat) (t : UInt8) (n : Nat) (d : Option Bytes) (out : Bytes) (length : Nat)
    (h : out.length + length = cap) (hd : ∀ b ∈ d, b.length = n) :
    (addNextTag cap t n d out length = .err .smallDerBuffer ∧
      (length < 3 ∨ length < (hdr t n).length + (d.getD []).length)) ∨
    (∃ l', addNextTag cap t n d out length = .ok (out ++ hdr t n ++ d.getD [], l') ∧
      (hdr t n).length + (d.getD []).length + l' = length) := by
  have := hdr_length_le t n
  cases d with
  | none =>
    rw [addNextTag_none t n h]
    split
    · left; simp; omega
    · right; exact ⟨_, by simp; rfl, by simp; omega⟩
  | some d =>
    have hd := hd d rfl
    rw [addNextTag_some t n d h hd]
    split
    · left; simp; omega
    · split
      · left; simp; omega
      · right; exact ⟨_, by simp; rfl, by simp; omega⟩

theorem encodePubBitString_step (cap : Nat) (x y : Bytes) (k : Nat) (out : Bytes) (length : Nat)
    (h : out.length + length = cap) (hx : x.length = k) (hy : y.length = k) :
    (encodePubBitString cap x y k out length = .err .smallDerBuffer ∧
      length < (hdr 3 (k * 2 + 2) ++ [0, 4] ++ x ++ y).length) ∨
    (∃ l', encodePubBitString cap x y k out length = .ok (out ++ (hdr 3 (k * 2 + 2) ++ [0, 4] ++ x ++ y), l') ∧
      (hdr 3 (k * 2 + 2) ++ [0, 4] ++ x ++ y).length + l' = length) := by
  have := hdr_length_le 3 (k * 2 + 2)
  rw [encodePubBitString_eq x y k h hx hy]
  split
  · left; simp; omega
  · split
    · left; simp; omega
    · right; exact ⟨_, by simp; rfl, by simp; omega⟩

theorem addPub_step (cap : Nat) (pub : Option (Bytes × Bytes)) (k : Nat) (out : Bytes) (length : Nat)
    (h : out.length + length = cap) (hq : ∀ xy ∈ pub, xy.1.length = k ∧ xy.2.length = k) :
    (addPub cap pub k out length = .err .smallDerBuffer ∧ length < (pubPart pub k).length) ∨
    (∃ l', addPub cap pub k out length = .ok (out ++ pubPart pub k, l') ∧ (pubPart pub k).length + l' = length) := by
  cases pub with
  | none => right; exact ⟨length, by simp [addPub, pubPart], by simp [pubPart]⟩
  | some xy =>
    obtain ⟨x, y⟩ := xy
    obtain ⟨hx, hy⟩ := hq _ rfl
    simp only [addPub, pubPart]
    generalize (if k ≠ 66 then k * 2 + 4 else k * 2 + 5) = n
    have e1 := hdr_length_le 0xa1 n
    have e3 := hdr_length_le 3 (k * 2 + 2)
    rcases addNextTag_step cap 0xa1 n none out length h (by simp) with ⟨f, g⟩ | ⟨l', f, g⟩
    · refine .inl ⟨bind_err f, ?_⟩
      simp only [Option.getD_none, List.length_append, List.length_cons, List.length_nil] at g ⊢
      omega
    · simp only [Option.getD_none, List.length_nil, List.append_nil] at f g
      rw [f, ok_bind]
      simp only
      rcases encodePubBitString_step cap x y k (out ++ hdr 0xa1 n) l' (by rw [List.length_append]; omega) hx hy with
        ⟨f7, g7⟩ | ⟨l7, f7, g7⟩
      · exact .inl ⟨f7, by rw [List.length_append (as := hdr 0xa1 n)]; omega⟩
      · exact .inr ⟨l7, by rw [f7]; simp, by rw [List.length_append (as := hdr 0xa1 n)]; omega⟩

theorem hdr0_length (c : Prop) [Decidable c] : (hdr 0x30 (if c then 0x80 else 0)).length = if c then 3 else 2 := by
  split <;> simp [hdr]

/-- Setting the length byte of the outer sequence. -/
theorem set_hdr (c : Prop) [Decidable c] (n : Nat) (body : Bytes) (h : c ↔ n ≥ 0x80) :
    (hdr 0x30 (if c then 0x80 else 0) ++ body).set ((if c then 3 else 2) - 1) (UInt8.ofNat n) = hdr 0x30 n ++ body := by
  by_cases hc : c
  · have := h.mp hc; simp [hc, hdr, this]
  · have : ¬ n ≥ 0x80 := fun h' => hc (h.mpr h'); simp [hc, hdr, this]

/-- The encoder writes exactly the sequence, or reports that the buffer is too small. -/
theorem encodePriv_spec {mx k : Nat} {oid : Bytes} (h : pubOid mx k = some oid) (cap : Nat) (priv : Bytes)
    (pub : Option (Bytes × Bytes)) (hp : priv.length = k) (hq : ∀ xy ∈ pub, xy.1.length = k ∧ xy.2.length = k) :
    (encodePriv mx cap priv pub k = .err .smallDerBuffer ∧
      cap < (hdr 0x30 (privBody priv pub k oid).length ++ privBody priv pub k oid).length) ∨
    (encodePriv mx cap priv pub k =
      .ok ((hdr 0x30 (privBody priv pub k oid).length ++ privBody priv pub k oid).length,
        hdr 0x30 (privBody priv pub k oid).length ++ privBody priv pub k oid) ∧
      (hdr 0x30 (privBody priv pub k oid).length ++ privBody priv pub k oid).length ≤ cap ∧
      (privBody priv pub k oid).length < 256) := by
  have ho := pubOid_length h
  have hc := pubOid_cases h
  have hk : k = 32 ∨ k = 48 ∨ k = 66 := by rcases hc with h | h | h <;> simp [h.1]
  have ho8 : k = 32 ↔ oid.length = 8 := by
    rcases hc with ⟨rfl, rfl⟩ | ⟨rfl, rfl, _⟩ | ⟨rfl, rfl, _⟩ <;> simp [p256Oid, p384Oid, p521Oid]
  have e2 : (hdr 2 1).length = 2 := rfl
  have e4 : (hdr 4 k).length = 2 := hdr_short (by omega)
  have ea : (hdr 0xa0 (oid.length + 2)).length = 2 := hdr_short (by omega)
  have e6 : (hdr 6 oid.length).length = 2 := hdr_short (by omega)
  have e3 := hdr3_length hk
  have e1 := hdra1_length hk
  have hbl : (privBody priv pub k oid).length = 3 + 2 + k + 4 + oid.length +
      (pubPart pub k).length := by
    simp only [privBody, List.length_append, e2, e4, ea, e6, hp, List.length_cons, List.length_nil]
    omega
  have hpl : (pubPart pub k).length = if pub.isSome then (if k = 66 then 6 else 4) + 2 + k * 2 else 0 := by
    cases pub with
    | none => simp [pubPart]
    | some xy =>
      have := hq xy rfl
      simp only [pubPart, List.length_append, e1, e3, this, Option.isSome_some, if_true, List.length_cons, List.length_nil]
      split <;> omega
  have hlt : (privBody priv pub k oid).length < 256 := by
    rw [hbl, hpl]; (repeat' split) <;> omega
  have hcc : (mx ≥ 48 ∧ pub.isSome ∧ k > 32) ↔ (privBody priv pub k oid).length ≥ 0x80 := by
    rw [hbl, hpl]
    have : k > 32 → mx ≥ 48 := by omega
    cases pub <;> simp <;> (repeat' split) <;> omega
  generalize hB : privBody priv pub k oid = B at *
  have hH : (hdr 0x30 B.length).length = if (mx ≥ 48 ∧ pub.isSome ∧ k > 32) then 3 else 2 := by
    have h0 := hdr0_length (mx ≥ 48 ∧ pub.isSome ∧ k > 32)
    have h1 := set_hdr (mx ≥ 48 ∧ pub.isSome ∧ k > 32) B.length [] hcc
    have := congrArg List.length h1
    simp only [List.append_nil, List.length_set] at this
    rw [← this, h0]
  have hn : (UInt8.ofNat B.length).toNat = B.length := by simp [UInt8.toNat_ofNat']; omega
  have fin := set_hdr (mx ≥ 48 ∧ pub.isSome ∧ k > 32) B.length B hcc
  have h0 := hdr0_length (mx ≥ 48 ∧ pub.isSome ∧ k > 32)
  have hp1 : ∀ b ∈ some [(1 : UInt8)], b.length = 1 := by simp
  have hp2 : ∀ b ∈ some priv, b.length = k := by simp [hp]
  have hp3 : ∀ b ∈ some oid, b.length = oid.length := by simp
  have hL : B.length = 3 + 2 + k + 4 + oid.length + ((B.length - (9 + k + oid.length))) := by omega
  unfold encodePriv
  simp only [decide_eq_true_eq, h, List.length_append]
  have st := addNextTag_step cap 0x30 (if mx ≥ 48 ∧ pub.isSome ∧ k > 32 then 0x80 else 0) none [] cap (by simp) (by simp)
  generalize hdr 0x30 (if mx ≥ 48 ∧ pub.isSome ∧ k > 32 then 0x80 else 0) = H0 at *
  rcases st with ⟨f, g⟩ | ⟨l1, f, g⟩
  · exact .inl ⟨bind_err f, by simp only [Option.getD_none, Option.getD_some, List.length_nil, List.length_cons] at g; omega⟩
  rw [f, ok_bind]
  simp only [Option.getD_none, List.append_nil, List.nil_append, List.length_nil] at g ⊢
  rcases addNextTag_step cap 2 1 (some [1]) H0 l1 (by omega) hp1 with
    ⟨f2, g2⟩ | ⟨l2, f2, g2⟩
  · exact .inl ⟨bind_err f2, by simp only [Option.getD_none, Option.getD_some, List.length_nil, List.length_cons] at g2; omega⟩
  rw [f2, ok_bind]
  simp only [Option.getD_some, List.length_cons, List.length_nil, e2] at g2 ⊢
  rcases addNextTag_step cap 4 k (some priv) (H0 ++ hdr 2 1 ++ [1]) l2 (by simp only [List.length_append, List.length_cons, List.length_nil, e2]; omega) hp2 with
    ⟨f3, g3⟩ | ⟨l3, f3, g3⟩
  · exact .inl ⟨bind_err f3, by simp only [Option.getD_some] at g3; omega⟩
  rw [f3, ok_bind]
  simp only [Option.getD_some, e4, hp] at g3 ⊢
  rcases addNextTag_step cap 0xa0 (oid.length + 2) none (H0 ++ hdr 2 1 ++ [1] ++ hdr 4 k ++ priv) l3 (by simp only [List.length_append, List.length_cons, List.length_nil, e2, e4, hp]; omega) (by simp) with
    ⟨f4, g4⟩ | ⟨l4, f4, g4⟩
  · exact .inl ⟨bind_err f4, by simp only [Option.getD_none, Option.getD_some, List.length_nil, List.length_cons] at g4; omega⟩
  rw [f4, ok_bind]
  simp only [Option.getD_none, List.append_nil, List.length_nil, ea] at g4 ⊢
  rcases addNextTag_step cap 6 oid.length (some oid) (H0 ++ hdr 2 1 ++ [1] ++ hdr 4 k ++ priv ++ hdr 0xa0 (oid.length + 2)) l4 (by simp only [List.length_append, List.length_cons, List.length_nil, e2, e4, ea, hp]; omega) hp3 with
    ⟨f5, g5⟩ | ⟨l5, f5, g5⟩
  · exact .inl ⟨bind_err f5, by simp only [Option.getD_some] at g5; omega⟩
  rw [f5, ok_bind]
  simp only [Option.getD_some, e6] at g5 ⊢
  rcases addPub_step cap pub k (H0 ++ hdr 2 1 ++ [1] ++ hdr 4 k ++ priv ++ hdr 0xa0 (oid.length + 2) ++ hdr 6 oid.length ++ oid) l5
    (by simp only [List.length_append, List.length_cons, List.length_nil, e2, e4, ea, e6, hp]; omega) hq with ⟨f6, g6⟩ | ⟨l6, f6, g6⟩
  · exact .inl ⟨bind_err f6, by omega⟩
  · right
    rw [f6, ok_bind]
    have hB' : H0 ++ hdr 2 1 ++ [1] ++ hdr 4 k ++ priv ++ hdr 0xa0 (oid.length + 2) ++ hdr 6 oid.length ++ oid ++ pubPart pub k =
        H0 ++ B := by simp [← hB, privBody]
    rw [hB']
    simp only [List.length_append, h0, Nat.add_sub_cancel_left, hn, fin, hH, pure_eq, ok.injEq, Prod.mk.injEq, and_true]
    omega

/-- C11: for every supported curve, with and without the public key, a private key that was encoded is decoded to the same key, and
the encoding stays in the buffer. -/
theorem privateKey_roundtrip (mx cap : Nat) (priv : Bytes) (pub : Option (Bytes × Bytes))
    (hq : ∀ xy ∈ pub, xy.1.length = priv.length ∧ xy.2.length = priv.length) (n : Nat) (der : Bytes)
    (h : encodePriv mx cap priv pub priv.length = .ok (n, der)) :
    n = der.length ∧ n ≤ cap ∧
    ∀ (rest buf : Bytes), priv.length ≤ buf.length →
      decodePriv mx (der ++ rest) n buf = .ok (priv.length, priv ++ buf.drop priv.length) := by
  cases ho : pubOid mx priv.length with
  | none => simp [encodePriv, ho] at h
  | some oid =>
    rcases encodePriv_spec ho cap priv pub rfl hq with ⟨f, _⟩ | ⟨f, g, hl⟩
    · rw [f] at h; cases h
    · rw [f] at h
      simp only [ok.injEq, Prod.mk.injEq] at h
      obtain ⟨rfl, rfl⟩ := h
      refine ⟨rfl, g, fun rest buf hb => ?_⟩
      have ol := pubOid_length ho
      have hk : priv.length = 32 ∨ priv.length = 48 ∨ priv.length = 66 := by rcases pubOid_cases ho with h | h | h <;> simp [h.1]
      have e2 : (hdr 2 1).length = 2 := rfl
      have e4 : (hdr 4 priv.length).length = 2 := hdr_short (by omega)
      have ea : (hdr 0xa0 (oid.length + 2)).length = 2 := hdr_short (by omega)
      have e6 : (hdr 6 oid.length).length = 2 := hdr_short (by omega)
      have hbl : (privBody priv pub priv.length oid).length = 3 + 2 + priv.length + 4 + oid.length + (pubPart pub priv.length).length := by
        simp only [privBody, List.length_append, e2, e4, ea, e6, List.length_cons, List.length_nil]
        omega
      have wf := decodePrivNoCopy_wf ho (privBody priv pub priv.length oid).length
        (hdr 0x30 (privBody priv pub priv.length oid).length ++ privBody priv pub priv.length oid).length priv
        (pubPart pub priv.length ++ rest) rfl hl (by rw [List.length_append]; omega) (by rw [List.length_append]; omega)
      have hder : hdr 0x30 (privBody priv pub priv.length oid).length ++ privBody priv pub priv.length oid ++ rest =
        hdr 0x30 (privBody priv pub priv.length oid).length ++ (hdr 2 1 ++ ([1] ++ (hdr 4 priv.length ++ (priv ++
          (hdr 0xa0 (oid.length + 2) ++ (hdr 6 oid.length ++ (oid ++ (pubPart pub priv.length ++ rest)))))))) := by
        conv => lhs; arg 1; arg 2; unfold privBody
        simp only [List.append_assoc]
      unfold decodePriv
      rw [hder, wf, ok_bind]
      have h65 : ¬ (mx ≥ 66 ∧ priv.length = 65) := by omega
      simp only [h65, decide_false, Bool.false_eq_true, if_false]
      rw [if_pos hb, rdN_ok (by simp), ok_bind, List.drop_zero, List.take_left' rfl, wrN_ok (by omega)]
      simp

/-- C11: the private key encoder succeeds exactly for the supported lengths if the buffer is large enough, and never writes
outside the buffer. -/
theorem encodePriv_in_bounds (mx cap : Nat) (priv : Bytes) (pub : Option (Bytes × Bytes))
    (hq : ∀ xy ∈ pub, xy.1.length = priv.length ∧ xy.2.length = priv.length) : encodePriv mx cap priv pub priv.length ≠ .oob := by
  cases ho : pubOid mx priv.length with
  | none => simp [encodePriv, ho]
  | some oid =>
    rcases encodePriv_spec ho cap priv pub rfl hq with ⟨f, _⟩ | ⟨f, _⟩ <;> simp [f]

/-- C11: buffers of the sizes advertised in ecc_der_util.h:23-54 are enough. -/
theorem encodePriv_max_length (mx cap : Nat) (priv : Bytes) (pub : Option (Bytes × Bytes))
    (hq : ∀ xy ∈ pub, xy.1.length = priv.length ∧ xy.2.length = priv.length)
    (hcap : (priv.length = 32 ∧ 32 * 3 + 25 ≤ cap) ∨ (priv.length = 48 ∧ mx ≥ 48 ∧ 48 * 3 + 23 ≤ cap) ∨
      (priv.length = 66 ∧ mx ≥ 66 ∧ 66 * 3 + 25 ≤ cap)) :
    ∃ n der, encodePriv mx cap priv pub priv.length = .ok (n, der) := by
  obtain ⟨oid, ho⟩ : ∃ oid, pubOid mx priv.length = some oid := by
    rcases hcap with ⟨h, _⟩ | ⟨h, h', _⟩ | ⟨h, h', _⟩ <;> simp [pubOid, *]
  rcases encodePriv_spec ho cap priv pub rfl hq with ⟨f, g⟩ | ⟨f, _⟩
  · exfalso
    have ol := pubOid_length ho
    have hk : priv.length = 32 ∨ priv.length = 48 ∨ priv.length = 66 := by omega
    have ol8 : priv.length = 32 ↔ oid.length = 8 := by
      rcases pubOid_cases ho with ⟨h, rfl⟩ | ⟨h, rfl, _⟩ | ⟨h, rfl, _⟩ <;> simp [h, p256Oid, p384Oid, p521Oid]
    have e2 : (hdr 2 1).length = 2 := rfl
    have e4 : (hdr 4 priv.length).length = 2 := hdr_short (by omega)
    have ea : (hdr 0xa0 (oid.length + 2)).length = 2 := hdr_short (by omega)
    have e6 : (hdr 6 oid.length).length = 2 := hdr_short (by omega)
    have e3 := hdr3_length hk
    have e1 := hdra1_length hk
    have hpl : (pubPart pub priv.length).length ≤ (if priv.length = 66 then 6 else 4) + 2 + priv.length * 2 := by
      cases pub with
      | none => simp [pubPart]
      | some xy =>
        have := hq xy rfl
        simp only [pubPart, List.length_append, e1, e3, this, List.length_cons, List.length_nil]
        split <;> omega
    have hbl : (privBody priv pub priv.length oid).length = 3 + 2 + priv.length + 4 + oid.length + (pubPart pub priv.length).length := by
      simp only [privBody, List.length_append, e2, e4, ea, e6, List.length_cons, List.length_nil]
      omega
    rw [List.length_append] at g
    have hh : (hdr 0x30 (privBody priv pub priv.length oid).length).length ≤ if (privBody priv pub priv.length oid).length < 128 then 2 else 3 := by
      unfold hdr; split <;> split <;> simp <;> omega
    split at hpl <;> split at hh <;> omega
  · exact ⟨_, _, f⟩

/-- What the public key encoder writes after the sequence header. -/
def pubBody (x y : Bytes) (k : Nat) (oid : Bytes) : Bytes :=
  hdr 0x30 (if k = 32 then 0x13 else 0x10) ++ (hdr 6 7 ++ (ecPublicKeyOid ++ (hdr 6 oid.length ++ (oid ++
    (hdr 3 (k * 2 + 2) ++ [0, 4] ++ x ++ y)))))

theorem encodePub_spec {mx k : Nat} {oid : Bytes} (h : pubOid mx k = some oid) (cap : Nat) (x y : Bytes)
    (hx : x.length = k) (hy : y.length = k) :
    (encodePub mx cap x y k = .err .smallDerBuffer ∧
      cap < (hdr 0x30 (pubBody x y k oid).length ++ pubBody x y k oid).length) ∨
    (encodePub mx cap x y k =
      .ok ((hdr 0x30 (pubBody x y k oid).length ++ pubBody x y k oid).length,
        hdr 0x30 (pubBody x y k oid).length ++ pubBody x y k oid) ∧
      (hdr 0x30 (pubBody x y k oid).length ++ pubBody x y k oid).length ≤ cap ∧
      (pubBody x y k oid).length < 256 ∧ 13 + oid.length + (hdr 3 (k * 2 + 2)).length + 2 + 2 * k = (pubBody x y k oid).length) := by
  have ho := pubOid_length h
  have hc := pubOid_cases h
  have hk : k = 32 ∨ k = 48 ∨ k = 66 := by rcases hc with h | h | h <;> simp [h.1]
  have ho8 : k = 32 ↔ oid.length = 8 := by
    rcases hc with ⟨rfl, rfl⟩ | ⟨rfl, rfl, _⟩ | ⟨rfl, rfl, _⟩ <;> simp [p256Oid, p384Oid, p521Oid]
  have e7 : (hdr 6 7).length = 2 := rfl
  have el : ecPublicKeyOid.length = 7 := rfl
  have eA : (hdr 0x30 (if k = 32 then 0x13 else 0x10)).length = 2 := by split <;> rfl
  have e6 : (hdr 6 oid.length).length = 2 := hdr_short (by omega)
  have e3 := hdr3_length hk
  have hbl : (pubBody x y k oid).length = 13 + oid.length + (hdr 3 (k * 2 + 2)).length + 2 + 2 * k := by
    simp only [pubBody, List.length_append, eA, e7, el, e6, hx, hy, List.length_cons, List.length_nil]
    omega
  have hlt : (pubBody x y k oid).length < 256 := by
    rw [hbl, e3]; split <;> omega
  have hcc : (k = 66) ↔ (pubBody x y k oid).length ≥ 0x80 := by
    rw [hbl, e3]; split <;> omega
  generalize hB : pubBody x y k oid = B at *
  have h0 := hdr0_length (k = 66)
  have fin := set_hdr (k = 66) B.length B hcc
  have hH : (hdr 0x30 B.length).length = if k = 66 then 3 else 2 := by
    have h1 := set_hdr (k = 66) B.length [] hcc
    have := congrArg List.length h1
    simp only [List.append_nil, List.length_set] at this
    rw [← this, h0]
  have hn : (UInt8.ofNat B.length).toNat = B.length := by simp [UInt8.toNat_ofNat']; omega
  have hp2 : ∀ b ∈ some ecPublicKeyOid, b.length = ecPublicKeyOid.length := by simp
  have hp3 : ∀ b ∈ some oid, b.length = oid.length := by simp
  have hif : (if (if k = 66 then 3 else 2) = 2 then 0 else 0x80) = (if k = 66 then 0x80 else 0 : Nat) := by
    by_cases h66 : k = 66 <;> simp [h66]
  unfold encodePub
  simp only [h, List.length_append, hif]
  have st := addNextTag_step cap 0x30 (if k = 66 then 0x80 else 0) none [] cap (by simp) (by simp)
  generalize hdr 0x30 (if k = 66 then 0x80 else 0) = H0 at *
  rcases st with ⟨f, g⟩ | ⟨l1, f, g⟩
  · exact .inl ⟨bind_err f, by simp only [Option.getD_none, List.length_nil] at g; omega⟩
  rw [f, ok_bind]
  simp only [Option.getD_none, List.append_nil, List.nil_append, List.length_nil] at g ⊢
  rcases addNextTag_step cap 0x30 (if k = 32 then 0x13 else 0x10) none H0 l1 (by omega) (by simp) with ⟨f2, g2⟩ | ⟨l2, f2, g2⟩
  · exact .inl ⟨bind_err f2, by simp only [Option.getD_none, List.length_nil] at g2; omega⟩
  rw [f2, ok_bind]
  simp only [Option.getD_none, List.append_nil, List.length_nil, eA] at g2 ⊢
  rcases addNextTag_step cap 6 ecPublicKeyOid.length (some ecPublicKeyOid) (H0 ++ hdr 0x30 (if k = 32 then 0x13 else 0x10)) l2
    (by simp only [List.length_append, eA]; omega) hp2 with ⟨f3, g3⟩ | ⟨l3, f3, g3⟩
  · exact .inl ⟨bind_err f3, by simp only [Option.getD_some, el, e7] at g3; omega⟩
  rw [f3, ok_bind]
  simp only [Option.getD_some, el, e7] at g3 ⊢
  rcases addNextTag_step cap 6 oid.length (some oid) (H0 ++ hdr 0x30 (if k = 32 then 0x13 else 0x10) ++ hdr 6 7 ++ ecPublicKeyOid) l3
    (by simp only [List.length_append, eA, e7, el]; omega) hp3 with ⟨f4, g4⟩ | ⟨l4, f4, g4⟩
  · exact .inl ⟨bind_err f4, by simp only [Option.getD_some] at g4; omega⟩
  rw [f4, ok_bind]
  simp only [Option.getD_some, e6] at g4 ⊢
  rcases encodePubBitString_step cap x y k (H0 ++ hdr 0x30 (if k = 32 then 0x13 else 0x10) ++ hdr 6 7 ++ ecPublicKeyOid ++
    hdr 6 oid.length ++ oid) l4 (by simp only [List.length_append, eA, e7, el, e6]; omega) hx hy with ⟨f5, g5⟩ | ⟨l5, f5, g5⟩
  · simp only [List.length_append, hx, hy, List.length_cons, List.length_nil] at g5
    exact .inl ⟨bind_err f5, by omega⟩
  · right
    simp only [List.length_append, hx, hy, List.length_cons, List.length_nil] at g5
    rw [f5, ok_bind]
    have hB' : H0 ++ hdr 0x30 (if k = 32 then 0x13 else 0x10) ++ hdr 6 7 ++ ecPublicKeyOid ++ hdr 6 oid.length ++ oid ++
        (hdr 3 (k * 2 + 2) ++ [0, 4] ++ x ++ y) = H0 ++ B := by simp [← hB, pubBody]
    rw [hB']
    simp only [List.length_append, h0, Nat.add_sub_cancel_left, hn, fin, hH, pure_eq, ok.injEq, Prod.mk.injEq, and_true]
    omega

/-- C11: for every supported curve a public key that was encoded is decoded to the same coordinates. -/
theorem publicKey_roundtrip (mx cap : Nat) (x y : Bytes) (hy : y.length = x.length) (n : Nat) (der : Bytes)
    (h : encodePub mx cap x y x.length = .ok (n, der)) :
    n = der.length ∧ n ≤ cap ∧
    ∀ (rest bx bv : Bytes), x.length ≤ bx.length → bv.length = bx.length →
      decodePub mx (der ++ rest) n bx bv bx.length = .ok (x.length, x ++ bx.drop x.length, y ++ bv.drop y.length) := by
  cases ho : pubOid mx x.length with
  | none => simp [encodePub, ho] at h
  | some oid =>
    rcases encodePub_spec ho cap x y rfl hy with ⟨f, _⟩ | ⟨f, g, hl, hbl⟩
    · rw [f] at h; cases h
    · rw [f] at h
      simp only [ok.injEq, Prod.mk.injEq] at h
      obtain ⟨rfl, rfl⟩ := h
      refine ⟨rfl, g, fun rest bx bv hb hbv => ?_⟩
      have ol := pubOid_length ho
      have hA : (if x.length = 32 then 0x13 else 0x10) ≤ 20 := by split <;> omega
      have wf := decodePubNoCopy_wf ho (pubBody x y x.length oid).length (if x.length = 32 then 0x13 else 0x10)
        (hdr 0x30 (pubBody x y x.length oid).length ++ pubBody x y x.length oid).length x y rest rfl hy hl (by omega)
        (by rw [List.length_append]; omega) hA (by rw [List.length_append]; omega)
      have hder : hdr 0x30 (pubBody x y x.length oid).length ++ pubBody x y x.length oid ++ rest =
        hdr 0x30 (pubBody x y x.length oid).length ++ (hdr 0x30 (if x.length = 32 then 0x13 else 0x10) ++ (hdr 6 7 ++ (ecPublicKeyOid ++
          (hdr 6 oid.length ++ (oid ++ (hdr 3 (x.length * 2 + 2) ++ ([0, 4] ++ (x ++ (y ++ rest))))))))) := by
        conv => lhs; arg 1; arg 2; unfold pubBody
        simp only [List.append_assoc]
      unfold decodePub
      rw [hder, wf, ok_bind]
      simp only [rd_cons_zero, ok_bind]
      rw [if_neg (by simp), show (x.length * 2 + 1 - 1) / 2 = x.length by omega, if_neg (by omega), rdN_ok (by simp; omega), ok_bind]
      simp only [List.drop_succ_cons, List.drop_zero]
      rw [List.take_left' rfl, wrN_ok (by simp; omega), ok_bind, rdN_ok (by simp; omega), ok_bind]
      rw [show 1 + x.length = x.length + 1 by omega, List.drop_succ_cons, List.drop_left' rfl, List.take_left' hy,
        wrN_ok (by simp; omega)]
      simp

/-- C11: the public key encoder never writes outside the buffer. -/
theorem encodePub_in_bounds (mx cap : Nat) (x y : Bytes) (hy : y.length = x.length) : encodePub mx cap x y x.length ≠ .oob := by
  cases ho : pubOid mx x.length with
  | none => simp [encodePub, ho]
  | some oid =>
    rcases encodePub_spec ho cap x y rfl hy with ⟨f, _⟩ | ⟨f, _⟩ <;> simp [f]

/-- C11: the sizes advertised for public keys, ecc_der_util.h:56-77 (P-521: 26 bytes of headers; P-256: 27; P-384: 24). -/
theorem encodePub_max_length (mx cap : Nat) (x y : Bytes) (hy : y.length = x.length)
    (hcap : (x.length = 32 ∧ 32 * 2 + 27 ≤ cap) ∨ (x.length = 48 ∧ mx ≥ 48 ∧ 48 * 2 + 24 ≤ cap) ∨
      (x.length = 66 ∧ mx ≥ 66 ∧ 66 * 2 + 26 ≤ cap)) :
    ∃ n der, encodePub mx cap x y x.length = .ok (n, der) := by
  obtain ⟨oid, ho⟩ : ∃ oid, pubOid mx x.length = some oid := by
    rcases hcap with ⟨h, _⟩ | ⟨h, h', _⟩ | ⟨h, h', _⟩ <;> simp [pubOid, *]
  rcases encodePub_spec ho cap x y rfl hy with ⟨f, g⟩ | ⟨f, _⟩
  · exfalso
    have hk : x.length = 32 ∨ x.length = 48 ∨ x.length = 66 := by omega
    have ol8 : x.length = 32 ∧ oid.length = 8 ∨ oid.length = 5 := by
      rcases pubOid_cases ho with ⟨h, rfl⟩ | ⟨h, rfl, _⟩ | ⟨h, rfl, _⟩ <;> simp [h, p256Oid, p384Oid, p521Oid]
    have eA : (hdr 0x30 (if x.length = 32 then 0x13 else 0x10)).length = 2 := by split <;> rfl
    have e7 : (hdr 6 7).length = 2 := rfl
    have el : ecPublicKeyOid.length = 7 := rfl
    have e6 : (hdr 6 oid.length).length = 2 := hdr_short (by omega)
    have e3 := hdr3_length hk
    have hbl : (pubBody x y x.length oid).length = 13 + oid.length + (hdr 3 (x.length * 2 + 2)).length + 2 + 2 * x.length := by
      simp only [pubBody, List.length_append, eA, e7, el, e6, hy, List.length_cons, List.length_nil]
      omega
    rw [List.length_append] at g
    have hh : (hdr 0x30 (pubBody x y x.length oid).length).length ≤ if (pubBody x y x.length oid).length < 128 then 2 else 3 := by
      unfold hdr; split <;> split <;> simp <;> omega
    split at e3 <;> split at hh <;> omega
  · exact ⟨_, _, f⟩

example : (match encodePriv 66 223 (List.replicate 66 7) (some (List.replicate 66 1, List.replicate 66 2)) 66 with
    | .ok (n, _) => n | _ => 0) = 223 := by decide +kernel
example : (match encodePub 48 120 (List.replicate 48 7) (List.replicate 48 1) 48 with | .ok (n, _) => n | _ => 0) = 120 := by
  decide +kernel

/-! ### C12: hostile input -/

/-- C12: decoding any public key data stays in the given buffer, and the output buffers are not overrun. -/
theorem decodePub_in_bounds (mx : Nat) (der : Bytes) (x y : Bytes) (hy : y.length = x.length) :
    decodePub mx der der.length x y x.length ≠ .oob := by
  apply Safe.ne_oob (Q := fun _ => True)
  unfold decodePub
  refine Safe.bind (decodePubNoCopy_safe mx der der.length (Nat.le_refl _)) fun ⟨tl, p⟩ ⟨h1, h2⟩ => ?_
  simp only at h1 h2 ⊢
  refine Safe.bind (rd_safe (by omega)) fun f _ => ?_
  refine Safe.ite (fun _ => trivial) fun _ => ?_
  refine Safe.ite (fun _ => trivial) fun hk => ?_
  refine Safe.bind (rdN_safe (by omega)) fun kx hkx => ?_
  refine Safe.bind (wrN_safe (by omega)) fun x' _ => ?_
  refine Safe.bind (rdN_safe (by omega)) fun ky hky => ?_
  refine Safe.bind (wrN_safe (by omega)) fun y' _ => ?_
  trivial

/-- C12: decoding any signature stays in the given buffer. -/
theorem decodeSig_in_bounds (der : Bytes) (keyLength : Nat) : decodeSig der der.length keyLength ≠ .oob := by
  apply Safe.ne_oob (Q := fun _ => True)
  unfold decodeSig
  refine Safe.bind (getNextTag_safe _ _ _ (Nat.le_refl _)) fun ⟨p, l, tl⟩ ⟨h1, h2⟩ => ?_
  simp only at h1 h2 ⊢
  refine Safe.bind (decodeEcdsaInteger_safe _ _ _ (by omega)) fun ⟨p, l, r⟩ h3 => ?_
  simp only at h3 ⊢
  refine Safe.bind (decodeEcdsaInteger_safe _ _ _ (by omega)) fun ⟨p, l, r⟩ h3 => ?_
  exact Safe.ite (fun _ => trivial) fun _ => trivial

/-- C12 is false for private keys: this input, a P-256 key with a leading zero whose OID is cut by one byte, makes the decoder read one byte beyond it. -/
def overreadKey : Bytes :=
  [0x30, 48, 2, 1, 1, 4, 33, 0] ++ List.replicate 32 0x55 ++ [0xa0, 8, 6, 8] ++ p256Oid.take 7

theorem decodePriv_overreads (out : Bytes) : decodePriv 66 overreadKey overreadKey.length out = .oob := by
  have : decodePrivNoCopy 66 overreadKey overreadKey.length = .oob := by decide +kernel
  unfold decodePriv
  rw [this]
  rfl

/-- C12, partial: no input makes the private key decoder read more than one byte beyond the given length. Missing: that single byte
(`decodePriv_overreads`). -/
theorem decodePriv_in_bounds_partial (mx : Nat) (der : Bytes) (extra : UInt8) (out : Bytes) :
    decodePriv mx (der ++ [extra]) der.length out ≠ .oob := by
  apply Safe.ne_oob (Q := fun _ => True)
  unfold decodePriv
  refine Safe.bind (decodePrivNoCopy_safe_aux mx (der ++ [extra]) der.length (by simp)) fun ⟨tl, p⟩ h1 => ?_
  simp only at h1 ⊢
  refine Safe.ite (fun hb => ?_) fun _ => trivial
  refine Safe.ite (fun hs => ?_) fun hs => ?_
  · rw [if_pos hs] at hb
    refine Safe.bind (P := fun o => o.length = out.length) ?_ fun o ho => ?_
    · unfold wr; rw [if_pos (by omega)]; simp [Safe]
    refine Safe.bind (rdN_safe (by omega)) fun k hk => ?_
    refine Safe.bind (wrN_safe (by omega)) fun o _ => ?_
    trivial
  · rw [if_neg hs] at hb ⊢
    refine Safe.bind (rdN_safe (by omega)) fun k hk => ?_
    refine Safe.bind (wrN_safe (by omega)) fun o _ => ?_
    trivial

end Verif.EccDer
