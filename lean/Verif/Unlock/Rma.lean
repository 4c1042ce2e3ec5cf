import Verif.Unlock.Lemmas
/-! Which data moves a device to the RMA state. -/
namespace Verif.Unlock
open ManifestFlash (window_prefix window_after window_self)

/-- The header of an item: how long it is and where its content starts. -/
def Header (h : Bytes) (len : Nat) : Prop :=
  (len < 128 ∧ h = [0x06, UInt8.ofNat len]) ∨ ∃ k, 1 ≤ k ∧ k ≤ 4 ∧ len < 256 ^ k ∧ h = [0x06, UInt8.ofNat (0x80 + k)] ++ toBE k len

theorem isOid_iff {enc oid : Bytes} : IsOid enc oid ↔ ∃ h, Header h oid.length ∧ enc = h ++ oid := by
  constructor
  · rintro (⟨h1, rfl⟩ | ⟨k, h1, h2, h3, rfl⟩)
    · exact ⟨_, .inl ⟨h1, rfl⟩, rfl⟩
    · exact ⟨_, .inr ⟨k, h1, h2, h3, rfl⟩, rfl⟩
  · rintro ⟨h, ⟨h1, rfl⟩ | ⟨k, h1, h2, h3, rfl⟩, rfl⟩
    · exact .inl ⟨h1, rfl⟩
    · exact .inr ⟨k, h1, h2, h3, rfl⟩

theorem toNat_ofNat_mod (n : Nat) : (UInt8.ofNat n).toNat = n % 256 := by rw [UInt8.toNat_ofNat']

theorem parseHeader_header {h rest : Bytes} {len : Nat} (hh : Header h len) (hl : len < 2 ^ 31) :
    Asn1.parseHeader 32 (h ++ rest) = .ok (len, h.length) ∧ ∃ t, h ++ rest = 0x06 :: t := by
  rcases hh with ⟨h1, rfl⟩ | ⟨k, h1, h2, h3, rfl⟩
  · have hn : (UInt8.ofNat len).toNat = len := by rw [toNat_ofNat_mod]; omega
    have hlt : UInt8.ofNat len < 0x80 := by
      rw [UInt8.lt_iff_toNat_lt, hn]; show len < 128; omega
    have hne : ∀ x : UInt8, x < 0x80 → x ≠ 0x81 ∧ x ≠ 0x82 ∧ x ≠ 0x83 ∧ x ≠ 0x84 := by decide +kernel
    obtain ⟨n1, n2, n3, n4⟩ := hne _ hlt
    refine ⟨?_, _, rfl⟩
    simp only [List.cons_append, List.nil_append]
    unfold Asn1.parseHeader
    rw [if_neg (by simp)]
    simp only [rd_cons_succ, rd_cons_zero, Res.ok_bind, n1, n2, n3, n4, if_false, hlt, if_true, Res.pure_eq, hn]
    rfl
  · refine ⟨?_, _, rfl⟩
    rcases (by omega : k = 1 ∨ k = 2 ∨ k = 3 ∨ k = 4) with rfl | rfl | rfl | rfl
    · have e : toBE 1 len = [UInt8.ofNat len] := by simp [toBE]
      rw [e, show UInt8.ofNat (0x80 + 1) = 0x81 from rfl]
      simp only [List.cons_append, List.nil_append]
      unfold Asn1.parseHeader
      rw [if_neg (by simp)]
      simp only [rd_cons_succ, rd_cons_zero, Res.ok_bind, if_true]
      rw [if_neg (by simp)]
      simp only [Res.pure_eq, toNat_ofNat_mod, Res.ok.injEq, Prod.mk.injEq]
      exact ⟨by omega, rfl⟩
    · have e : toBE 2 len = [UInt8.ofNat (len / 256), UInt8.ofNat len] := by simp [toBE]
      rw [e, show UInt8.ofNat (0x80 + 2) = 0x82 from rfl]
      simp only [List.cons_append, List.nil_append]
      unfold Asn1.parseHeader
      rw [if_neg (by simp)]
      simp only [rd_cons_succ, rd_cons_zero, Res.ok_bind]
      rw [if_neg (by decide), if_pos trivial, if_neg (by simp)]
      simp only [Res.pure_eq, toNat_ofNat_mod, Res.ok.injEq, Prod.mk.injEq]
      exact ⟨by omega, rfl⟩
    · have e : toBE 3 len = [UInt8.ofNat (len / 256 / 256), UInt8.ofNat (len / 256), UInt8.ofNat len] := by simp [toBE]
      rw [e, show UInt8.ofNat (0x80 + 3) = 0x83 from rfl]
      simp only [List.cons_append, List.nil_append]
      unfold Asn1.parseHeader
      rw [if_neg (by simp)]
      simp only [rd_cons_succ, rd_cons_zero, Res.ok_bind]
      rw [if_neg (by decide), if_neg (by decide), if_pos trivial, if_neg (by simp)]
      simp only [Res.pure_eq, toNat_ofNat_mod, Res.ok.injEq, Prod.mk.injEq]
      exact ⟨by omega, rfl⟩
    · have e : toBE 4 len = [UInt8.ofNat (len / 256 / 256 / 256), UInt8.ofNat (len / 256 / 256), UInt8.ofNat (len / 256), UInt8.ofNat len] := by
        simp [toBE]
      rw [e, show UInt8.ofNat (0x80 + 4) = 0x84 from rfl]
      simp only [List.cons_append, List.nil_append]
      unfold Asn1.parseHeader
      rw [if_neg (by simp)]
      simp only [rd_cons_succ, rd_cons_zero, Res.ok_bind]
      rw [if_neg (by decide), if_neg (by decide), if_neg (by decide), if_pos trivial, if_neg (by simp)]
      simp only [Res.pure_eq, toNat_ofNat_mod, Res.ok.injEq, Prod.mk.injEq]
      refine ⟨?_, rfl⟩
      have : len / 256 / 256 / 256 % 256 * 2 ^ 24 + len / 256 / 256 % 256 * 2 ^ 16 + len / 256 % 256 * 2 ^ 8 + len % 256 = len := by omega
      rw [this, Asn1.signExtend, if_pos hl]

theorem header_of_parse {d : Bytes} {len off : Nat} (h : Asn1.parseHeader 32 d = .ok (len, off)) (h0 : d[0]? = some 0x06) (hl : len < 2 ^ 31) :
    ∃ hd rest, d = hd ++ rest ∧ Header hd len ∧ off = hd.length := by
  have u8 : ∀ x : UInt8, UInt8.ofNat x.toNat = x := by intro x; simp
  obtain ⟨t, rfl⟩ : ∃ t, d = 6 :: t := by
    match d, h0 with
    | a :: t, h0 =>
      have : a = 6 := by simpa using h0
      exact ⟨t, by rw [this]⟩
  match t with
  | [] => simp [Asn1.parseHeader] at h
  | b :: t =>
    unfold Asn1.parseHeader at h
    rw [if_neg (by simp)] at h
    simp only [rd_cons_succ, rd_cons_zero, Res.ok_bind] at h
    split at h
    · rename_i hb; subst hb
      match t with
      | [] => simp at h
      | x :: t =>
        rw [if_neg (by simp)] at h
        simp at h
        obtain ⟨rfl, rfl⟩ := h
        refine ⟨[6, 0x81, x], t, rfl, .inr ⟨1, by omega, by omega, by have := x.toNat_lt; omega, ?_⟩, rfl⟩
        have := toBE_beNat [x]
        simp [beNat] at this
        rw [this]; rfl
    · split at h
      · rename_i hb; subst hb
        match t with
        | [] => simp at h
        | [x] => simp at h
        | x :: y :: t =>
          rw [if_neg (by simp)] at h
          simp at h
          obtain ⟨rfl, rfl⟩ := h
          refine ⟨[6, 0x82, x, y], t, rfl, .inr ⟨2, by omega, by omega, by have := x.toNat_lt; have := y.toNat_lt; omega, ?_⟩, rfl⟩
          have := toBE_beNat [x, y]
          simp [beNat] at this
          rw [this]; rfl
      · split at h
        · rename_i hb; subst hb
          match t with
          | [] => simp at h
          | [x] => simp at h
          | [x, y] => simp at h
          | x :: y :: z :: t =>
            rw [if_neg (by simp)] at h
            simp at h
            obtain ⟨rfl, rfl⟩ := h
            refine ⟨[6, 0x83, x, y, z], t, rfl, .inr ⟨3, by omega, by omega, by have := x.toNat_lt; have := y.toNat_lt; have := z.toNat_lt; omega, ?_⟩, rfl⟩
            have := toBE_beNat [x, y, z]
            simp [beNat] at this
            rw [Nat.add_assoc, this]; rfl
        · split at h
          · rename_i hb; subst hb
            match t with
            | [] => simp at h
            | [x] => simp at h
            | [x, y] => simp at h
            | [x, y, z] => simp at h
            | x :: y :: z :: w :: t =>
              rw [if_neg (by simp)] at h
              simp at h
              obtain ⟨e, rfl⟩ := h
              have e' : x.toNat * 16777216 + y.toNat * 65536 + z.toNat * 256 + w.toNat = len := by
                rw [Asn1.signExtend] at e
                split at e
                · exact e
                · have := x.toNat_lt; have := y.toNat_lt; have := z.toNat_lt; have := w.toNat_lt
                  omega
              subst e'
              refine ⟨[6, 0x84, x, y, z, w], t, rfl, .inr ⟨4, by omega, by omega, by
                have := x.toNat_lt; have := y.toNat_lt; have := z.toNat_lt; have := w.toNat_lt; omega, ?_⟩, rfl⟩
              have := toBE_beNat [x, y, z, w]
              simp [beNat] at this
              rw [Nat.add_assoc, Nat.add_assoc, this]; rfl
          · split at h
            · rename_i hb
              simp at h
              obtain ⟨rfl, rfl⟩ := h
              have : b.toNat < 128 := UInt8.lt_iff_toNat_lt.mp hb
              exact ⟨[6, b], t, rfl, .inl ⟨this, by rw [u8]⟩, rfl⟩
            · cases h

theorem sameAs_eq {d x : Bytes} {off : Nat} (h : off + x.length ≤ d.length) : sameAs d off x = .ok (decide (window d off x.length = x)) := by
  unfold sameAs
  rw [rdN_ok h]
  rfl

theorem sameAs_behind (a x y b : Bytes) (off : Nat) (ho : off = a.length) (hx : x.length = y.length) :
    sameAs (a ++ (y ++ b)) off x = .ok (decide (y = x)) := by
  unfold sameAs
  rw [rdN_behind a y b off x.length ho hx]
  rfl

theorem rd32_ok {d : Bytes} {off : Nat} (h : off + 4 ≤ d.length) : ∃ n, rd32 d off = .ok n ∧ window d off 4 = toLE 4 n := by
  obtain ⟨a, a1, a2, a3⟩ := rd16_ok (d := d) (off := off) (by omega)
  obtain ⟨b, b1, b2, b3⟩ := rd16_ok (d := d) (off := off + 2) (by omega)
  refine ⟨a + 65536 * b, by unfold rd32; rw [a1]; simp only [Res.ok_bind, b1, Res.pure_eq], ?_⟩
  have := window_concat d off 2 2
  rw [← this, a3, b3]
  have u8 : ∀ x y : Nat, x % 256 = y % 256 → UInt8.ofNat x = UInt8.ofNat y := by
    intro x y hxy
    apply UInt8.toNat_inj.mp
    rw [UInt8.toNat_ofNat', UInt8.toNat_ofNat']
    omega
  show [UInt8.ofNat a, UInt8.ofNat (a / 256), UInt8.ofNat b, UInt8.ofNat (b / 256)] = [UInt8.ofNat _, UInt8.ofNat _, UInt8.ofNat _, UInt8.ofNat _]
  rw [u8 a (a + 65536 * b) (by omega), u8 (a / 256) ((a + 65536 * b) / 256) (by omega), u8 b ((a + 65536 * b) / 256 / 256) (by omega),
    u8 (b / 256) ((a + 65536 * b) / 256 / 256 / 256) (by omega)]

theorem peel {d a r x : Bytes} {off : Nat} (h : d = a ++ r) (ho : off = a.length) (hx : window d off x.length = x) : ∃ r', d = (a ++ x) ++ r' := by
  subst h ho
  have h := window_after a r 0 x.length
  rw [Nat.add_zero] at h
  rw [h] at hx
  refine ⟨r.drop x.length, ?_⟩
  rw [List.append_assoc]
  congr 1
  conv => lhs; rw [← List.take_append_drop x.length r]
  congr 1

theorem validate_ne_oob {c : RmaCfg} (ho : c.oid.length < 2 ^ 31) {e : RmaEnv} (hu : ∀ u, e.uuid = some u → u.length ≤ 16) (d : Bytes) :
    validateTokenData c e d ≠ .oob := by
  unfold validateTokenData
  cases h : e.uuid with
  | none => simp
  | some u =>
    have hul := pad16_length (hu u h)
    unfold pad16 at hul
    simp only
    cases hd : Asn1.decodeOid 32 d with
    | err x => simp
    | oob => exact absurd hd (Asn1.getItem_reads_in_bounds _ _ _)
    | ok p =>
      obtain ⟨off, len⟩ := p
      simp only
      split
      · simp
      rename_i hlen
      obtain ⟨hp, ht, hb⟩ := Asn1.getItem_ok hd
      have := Asn1.parseHeader_ok hp
      rw [Nat.mod_eq_of_lt (by omega)] at hb
      rw [sameAs_eq (by omega)]
      simp only [Res.ok_bind]
      split
      · simp
      split
      · simp
      obtain ⟨f, f1, f2⟩ := rd16_ok (d := d) (off := off + len) (by omega)
      rw [f1]
      simp only [Res.ok_bind]
      split
      · simp
      split
      · simp
      obtain ⟨g, g1, g2⟩ := rd32_ok (d := d) (off := off + len + 2) (by omega)
      rw [g1]
      simp only [Res.ok_bind]
      split
      · simp
      split
      · simp
      rw [sameAs_eq (by omega)]
      simp only [Res.ok_bind]
      split
      · simp
      split
      · simp
      rw [sameAs_eq (by omega)]
      simp only [Res.ok_bind]
      split <;> simp

theorem validate_ok {c : RmaCfg} (ho : c.oid.length < 2 ^ 31) {e : RmaEnv} (hu : ∀ u, e.uuid = some u → u.length ≤ 16) {d : Bytes} {n : Nat}
    (h : validateTokenData c e d = .ok n) :
    ∃ u enc rest, e.uuid = some u ∧ IsOid enc c.oid ∧ d = rmaBody enc u c.dice ++ rest ∧ n = (rmaBody enc u c.dice).length := by
  unfold validateTokenData at h
  cases hue : e.uuid with
  | none => rw [hue] at h; cases h
  | some u =>
    rw [hue] at h
    have hul := pad16_length (hu u hue)
    have hul' := hul
    unfold pad16 at hul'
    simp only at h
    cases hd : Asn1.decodeOid 32 d with
    | err x => rw [hd] at h; cases h
    | oob => rw [hd] at h; cases h
    | ok p =>
      obtain ⟨off, len⟩ := p
      rw [hd] at h
      simp only at h
      split at h
      · cases h
      rename_i hlen
      obtain ⟨hp, ht, hb⟩ := Asn1.getItem_ok hd
      have := Asn1.parseHeader_ok hp
      rw [Nat.mod_eq_of_lt (by omega)] at hb
      have hll : len = c.oid.length := by omega
      subst hll
      obtain ⟨hdr, r0, e0, e1, e2⟩ := header_of_parse hp ht ho
      rw [sameAs_eq (by omega)] at h
      simp only [Res.ok_bind] at h
      split at h
      · cases h
      rename_i w1
      simp only [decide_eq_false_iff_not, Decidable.not_not] at w1
      split at h
      · cases h
      obtain ⟨f, f1, f2, f3⟩ := rd16_ok (d := d) (off := off + c.oid.length) (by omega)
      rw [f1] at h
      simp only [Res.ok_bind] at h
      split at h
      · cases h
      rename_i hf
      have hf : f = 1 := by simpa using hf
      subst hf
      split at h
      · cases h
      obtain ⟨g, g1, g2⟩ := rd32_ok (d := d) (off := off + c.oid.length + 2) (by omega)
      rw [g1] at h
      simp only [Res.ok_bind] at h
      split at h
      · cases h
      rename_i hg
      have hg : g = 0x52545354 := by simpa using hg
      subst hg
      split at h
      · cases h
      rw [sameAs_eq (by omega)] at h
      simp only [Res.ok_bind] at h
      split at h
      · cases h
      rename_i w2
      simp only [decide_eq_false_iff_not, Decidable.not_not] at w2
      split at h
      · cases h
      rw [sameAs_eq (by omega)] at h
      simp only [Res.ok_bind] at h
      split at h
      · cases h
      rename_i w3
      simp only [decide_eq_false_iff_not, Decidable.not_not] at w3
      simp only [Res.pure_eq, Res.ok.injEq] at h
      obtain ⟨r1, q1⟩ := peel e0 e2 w1
      obtain ⟨r2, q2⟩ := peel (x := [1, 0]) q1 (by rw [List.length_append, ← e2]) f3
      obtain ⟨r3, q3⟩ := peel (x := [0x54, 0x53, 0x54, 0x52]) q2 (by simp only [List.length_append, ← e2]; rfl) g2
      obtain ⟨r4, q4⟩ := peel q3 (by simp only [List.length_append, ← e2]; rfl) w2
      obtain ⟨r5, q5⟩ := peel q4 (by simp only [List.length_append, ← e2, List.length_replicate, List.length_cons, List.length_nil] at hul' ⊢; omega) w3
      refine ⟨u, hdr ++ c.oid, r5, rfl, isOid_iff.mpr ⟨hdr, e1, rfl⟩, q5, ?_⟩
      rw [← h, rmaBody]
      simp only [List.length_append, ← e2, hul, List.length_cons, List.length_nil]

theorem validate_of {c : RmaCfg} (ho : c.oid.length < 2 ^ 31) {e : RmaEnv} (hu : ∀ u, e.uuid = some u → u.length ≤ 16) {u enc rest : Bytes}
    (h1 : e.uuid = some u) (h2 : IsOid enc c.oid) : validateTokenData c e (rmaBody enc u c.dice ++ rest) = .ok (rmaBody enc u c.dice).length := by
  obtain ⟨hdr, q1, rfl⟩ := isOid_iff.mp h2
  have hul := pad16_length (hu u h1)
  have hul' := hul
  unfold pad16 at hul'
  have hlen : (rmaBody (hdr ++ c.oid) u c.dice ++ rest).length = hdr.length + c.oid.length + 22 + c.dice.length + rest.length := by
    simp only [rmaBody, List.length_append, hul, List.length_cons, List.length_nil]
  have e0 : rmaBody (hdr ++ c.oid) u c.dice ++ rest = hdr ++ (c.oid ++ ([1, 0] ++ [0x54, 0x53, 0x54, 0x52] ++ pad16 u ++ c.dice ++ rest)) := by
    simp [rmaBody]
  have hdec : Asn1.decodeOid 32 (rmaBody (hdr ++ c.oid) u c.dice ++ rest) = .ok (hdr.length, c.oid.length) := by
    obtain ⟨p1, t, p2⟩ := parseHeader_header (rest := c.oid ++ ([1, 0] ++ [0x54, 0x53, 0x54, 0x52] ++ pad16 u ++ c.dice ++ rest)) q1 ho
    have hh : hdr.length ≤ 6 := (Asn1.parseHeader_ok p1).2.1
    rw [← e0] at p1 p2
    unfold Asn1.decodeOid Asn1.getItem
    rw [p1]
    simp only [Res.ok_bind]
    rw [p2]
    simp only [rd_cons_zero, Res.ok_bind]
    rw [← p2, if_neg (by simp), Nat.mod_eq_of_lt (by omega), if_neg (by omega)]
    rfl
  unfold validateTokenData
  rw [h1]
  simp only [hdec]
  rw [if_neg (by simp)]
  have s1 : sameAs (rmaBody (hdr ++ c.oid) u c.dice ++ rest) hdr.length c.oid = .ok true := by
    rw [e0, sameAs_behind _ _ _ _ _ rfl rfl]; simp
  have s2 : rd16 (rmaBody (hdr ++ c.oid) u c.dice ++ rest) (hdr.length + c.oid.length) = .ok 1 := by
    have := rd16_behind (hdr ++ c.oid) ([0x54, 0x53, 0x54, 0x52] ++ pad16 u ++ c.dice ++ rest) 1 (hdr.length + c.oid.length) (by omega) (by simp)
    rw [show toLE 2 1 = [1, 0] from rfl] at this
    rw [← this]; simp [rmaBody]
  have s3 : rd32 (rmaBody (hdr ++ c.oid) u c.dice ++ rest) (hdr.length + c.oid.length + 2) = .ok 0x52545354 := by
    have a1 := rd16_behind (hdr ++ c.oid ++ [1, 0]) ([0x54, 0x52] ++ pad16 u ++ c.dice ++ rest) 0x5354 (hdr.length + c.oid.length + 2) (by omega) (by simp; omega)
    have a2 := rd16_behind (hdr ++ c.oid ++ [1, 0, 0x54, 0x53]) (pad16 u ++ c.dice ++ rest) 0x5254 (hdr.length + c.oid.length + 2 + 2) (by omega) (by simp; omega)
    rw [show toLE 2 0x5354 = [0x54, 0x53] by decide] at a1
    rw [show toLE 2 0x5254 = [0x54, 0x52] by decide] at a2
    unfold rd32
    rw [show rmaBody (hdr ++ c.oid) u c.dice ++ rest = hdr ++ c.oid ++ [1, 0] ++ ([0x54, 0x53] ++ ([0x54, 0x52] ++ pad16 u ++ c.dice ++ rest)) by
      simp [rmaBody], a1]
    simp only [Res.ok_bind]
    rw [show hdr ++ c.oid ++ [1, 0] ++ ([0x54, 0x53] ++ ([0x54, 0x52] ++ pad16 u ++ c.dice ++ rest)) =
      hdr ++ c.oid ++ [1, 0, 0x54, 0x53] ++ ([0x54, 0x52] ++ (pad16 u ++ c.dice ++ rest)) by simp, a2]
    rfl
  have s4 : sameAs (rmaBody (hdr ++ c.oid) u c.dice ++ rest) (hdr.length + c.oid.length + 6) (u ++ List.replicate (16 - u.length) 0) = .ok true := by
    rw [show rmaBody (hdr ++ c.oid) u c.dice ++ rest = (hdr ++ c.oid ++ [1, 0] ++ [0x54, 0x53, 0x54, 0x52]) ++ (pad16 u ++ (c.dice ++ rest)) by
      simp [rmaBody], sameAs_behind _ _ _ _ _ (by simp; omega) (by rw [hul, hul'])]
    simp [pad16]
  have s5 : sameAs (rmaBody (hdr ++ c.oid) u c.dice ++ rest) (hdr.length + c.oid.length + 22) c.dice = .ok true := by
    rw [show rmaBody (hdr ++ c.oid) u c.dice ++ rest = (hdr ++ c.oid ++ [1, 0] ++ [0x54, 0x53, 0x54, 0x52] ++ pad16 u) ++ (c.dice ++ rest) by
      simp [rmaBody], sameAs_behind _ _ _ _ _ (by simp [hul]; omega) rfl]
    simp
  simp only [s1, Res.ok_bind]
  rw [if_neg (by simp), if_neg (by omega), s2]
  simp only [Res.ok_bind]
  rw [if_neg (by simp), if_neg (by omega), s3]
  simp only [Res.ok_bind]
  rw [if_neg (by simp), if_neg (by omega), s4]
  simp only [Res.ok_bind]
  rw [if_neg (by simp), if_neg (by omega), s5]
  simp only [Res.ok_bind]
  rw [if_neg (by simp)]
  simp only [Res.pure_eq, Res.ok.injEq]
  rw [List.length_append] at hlen
  omega

/-- Accepted token data, and only that: the fields of this device in order. -/
theorem validate_iff {c : RmaCfg} (ho : c.oid.length < 2 ^ 31) {e : RmaEnv} (hu : ∀ u, e.uuid = some u → u.length ≤ 16) (d : Bytes) :
    validateTokenData c e d ≠ .oob ∧ ∀ n, validateTokenData c e d = .ok n ↔
      ∃ u enc rest, e.uuid = some u ∧ IsOid enc c.oid ∧ d = rmaBody enc u c.dice ++ rest ∧ n = (rmaBody enc u c.dice).length := by
  refine ⟨validate_ne_oob ho hu d, fun n => ⟨validate_ok ho hu, ?_⟩⟩
  rintro ⟨u, enc, rest, h1, h2, rfl, rfl⟩
  exact validate_of ho hu h1 h2

/-- C99: what moves a device to the RMA state when the tokens are signed: data that names this very device and ends with a signature of the authority over
all of it. Nothing else does, and nothing is read outside the data. -/
theorem rma_signed {c : RmaCfg} (hs : c.signed = true) (ho : c.oid.length < 2 ^ 31) {e : RmaEnv} (hu : ∀ u, e.uuid = some u → u.length ≤ 16) (d : Bytes) :
    (rmaApply c e d).2 ≠ .oob ∧ ((rmaApply c e d).1 = true ↔
      ∃ u enc sig, e.uuid = some u ∧ IsOid enc c.oid ∧ d = rmaBody enc u c.dice ++ sig ∧ sig ≠ [] ∧ e.engineFails = false ∧
        c.sigOk c.hash (rmaBody enc u c.dice) sig = true) := by
  obtain ⟨v1, v2⟩ := validate_iff ho hu d
  have key : rmaAuthenticate c e d ≠ .oob ∧ (rmaAuthenticate c e d = .ok () ↔
      ∃ u enc sig, e.uuid = some u ∧ IsOid enc c.oid ∧ d = rmaBody enc u c.dice ++ sig ∧ sig ≠ [] ∧ e.engineFails = false ∧
        c.sigOk c.hash (rmaBody enc u c.dice) sig = true) := by
    unfold rmaAuthenticate
    rw [hs, if_pos rfl]
    unfold rmaAuthenticateSigned
    cases hv : validateTokenData c e d with
    | oob => exact absurd hv v1
    | err x =>
      refine ⟨by simp, by simp, ?_⟩
      rintro ⟨u, enc, sig, h1, h2, h3, _⟩
      have := (v2 _).mpr ⟨u, enc, sig, h1, h2, h3, rfl⟩
      rw [hv] at this; cases this
    | ok n =>
      obtain ⟨u, enc, rest, h1, h2, h3, h4⟩ := (v2 n).mp hv
      simp only [Res.ok_bind]
      have hl : d.length - n = rest.length := by rw [h3, h4, List.length_append]; omega
      have m1 : (rdN d 0 n : R Bytes) = .ok (rmaBody enc u c.dice) := by
        rw [h3]
        have := rdN_behind (ε := Err) [] (rmaBody enc u c.dice) rest 0 n rfl h4
        simpa using this
      have m2 : (rdN d n (d.length - n) : R Bytes) = .ok rest := by
        rw [hl]
        have := rdN_behind (ε := Err) (rmaBody enc u c.dice) rest [] n rest.length h4 rfl
        rw [List.append_nil] at this
        rw [h3]; exact this
      rw [m1]
      simp only [Res.ok_bind]
      rw [m2]
      simp only [Res.ok_bind]
      have uniq : ∀ u' enc' sig', e.uuid = some u' → IsOid enc' c.oid → d = rmaBody enc' u' c.dice ++ sig' →
          rmaBody enc' u' c.dice = rmaBody enc u c.dice ∧ sig' = rest := by
        intro u' enc' sig' g1 g2 g3
        have := (v2 _).mpr ⟨u', enc', sig', g1, g2, g3, rfl⟩
        rw [hv] at this
        have hn : n = (rmaBody enc' u' c.dice).length := by simpa using this
        have := h3.symm.trans g3
        have := List.append_inj this (by omega)
        exact ⟨this.1.symm, this.2.symm⟩
      split
      · rename_i h0
        refine ⟨by simp, by simp, ?_⟩
        rintro ⟨u', enc', sig', g1, g2, g3, g4, _⟩
        have := (uniq _ _ _ g1 g2 g3).2
        subst this
        exact absurd (List.length_eq_zero_iff.mp (by omega)) g4
      · rename_i h0
        split
        · rename_i h5
          refine ⟨by simp, by simp, ?_⟩
          rintro ⟨u', enc', sig', g1, g2, g3, g4, g5, _⟩
          rw [h5] at g5; cases g5
        · rename_i h5
          split
          · rename_i h6
            refine ⟨by simp, fun _ => ⟨u, enc, rest, h1, h2, h3, ?_, by simpa using h5, h6⟩, fun _ => rfl⟩
            intro hr; apply h0; rw [hl, hr]; rfl
          · rename_i h6
            refine ⟨by simp, by simp, ?_⟩
            rintro ⟨u', enc', sig', g1, g2, g3, g4, g5, g6⟩
            obtain ⟨k1, k2⟩ := uniq _ _ _ g1 g2 g3
            rw [k1, k2] at g6
            exact absurd g6 h6
  obtain ⟨k1, k2⟩ := key
  unfold rmaApply
  cases hr : rmaAuthenticate c e d with
  | oob => exact absurd hr k1
  | err x =>
    rw [hr] at k2
    exact ⟨by simp, by simpa using k2⟩
  | ok x =>
    rw [hr] at k2
    exact ⟨by simp only; split <;> simp, fun _ => k2.mp rfl, fun _ => rfl⟩

/-- C99: the same for a handler without signatures: the data is exactly the data that names this device. -/
theorem rma_unsigned {c : RmaCfg} (hs : c.signed = false) (ho : c.oid.length < 2 ^ 31) {e : RmaEnv} (hu : ∀ u, e.uuid = some u → u.length ≤ 16) (d : Bytes) :
    (rmaApply c e d).2 ≠ .oob ∧ ((rmaApply c e d).1 = true ↔ ∃ u enc, e.uuid = some u ∧ IsOid enc c.oid ∧ d = rmaBody enc u c.dice) := by
  obtain ⟨v1, v2⟩ := validate_iff ho hu d
  have key : rmaAuthenticate c e d ≠ .oob ∧ (rmaAuthenticate c e d = .ok () ↔ ∃ u enc, e.uuid = some u ∧ IsOid enc c.oid ∧ d = rmaBody enc u c.dice) := by
    unfold rmaAuthenticate
    rw [hs, if_neg (by simp)]
    unfold rmaAuthenticateUnsigned
    cases hv : validateTokenData c e d with
    | oob => exact absurd hv v1
    | err x =>
      refine ⟨by simp, by simp, ?_⟩
      rintro ⟨u, enc, h1, h2, h3⟩
      have := (v2 _).mpr ⟨u, enc, [], h1, h2, by rw [h3, List.append_nil], rfl⟩
      rw [hv] at this; cases this
    | ok n =>
      obtain ⟨u, enc, rest, h1, h2, h3, h4⟩ := (v2 n).mp hv
      simp only [Res.ok_bind]
      split
      · rename_i hn
        refine ⟨by simp, by simp, ?_⟩
        rintro ⟨u', enc', g1, g2, g3⟩
        have := (v2 _).mpr ⟨u', enc', [], g1, g2, by rw [g3, List.append_nil], rfl⟩
        rw [hv] at this
        have : n = (rmaBody enc' u' c.dice).length := by simpa using this
        exact absurd (by rw [g3, this]) hn
      · rename_i hn
        refine ⟨by simp, fun _ => ⟨u, enc, h1, h2, ?_⟩, fun _ => rfl⟩
        have hn : n = d.length := by simpa using hn
        rw [h3, List.length_append] at hn
        have : rest = [] := List.length_eq_zero_iff.mp (by omega)
        rw [h3, this, List.append_nil]
  obtain ⟨k1, k2⟩ := key
  unfold rmaApply
  cases hr : rmaAuthenticate c e d with
  | oob => exact absurd hr k1
  | err x =>
    rw [hr] at k2
    exact ⟨by simp, by simpa using k2⟩
  | ok x =>
    rw [hr] at k2
    exact ⟨by simp only; split <;> simp, fun _ => k2.mp rfl, fun _ => rfl⟩

end Verif.Unlock
