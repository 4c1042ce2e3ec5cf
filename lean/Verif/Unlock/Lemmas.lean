import Verif.Unlock.Spec
import Verif.AuthToken.Lemmas
import Verif.Asn1.Props
import Verif.CommonMath.Props
namespace Verif.Unlock
open ManifestFlash (window_prefix window_after window_self)

/-- Writing right behind a known prefix. -/
theorem wrN_behind {ε : Type} (a b x : Bytes) (n : Nat) (hn : n = a.length) (h : x.length ≤ b.length) :
    (wrN (a ++ b) n x : Res ε Bytes) = .ok (a ++ x ++ b.drop x.length) := by
  subst hn
  rw [wrN_ok (by rw [List.length_append]; omega), List.take_left, List.drop_append]
  rw [List.drop_of_length_le (by omega), Nat.add_sub_cancel_left, List.nil_append]

theorem rdN_behind {ε : Type} (a x b : Bytes) (i n : Nat) (hi : i = a.length) (hn : n = x.length) :
    (rdN (a ++ (x ++ b)) i n : Res ε Bytes) = .ok x := by
  subst hi hn
  rw [rdN_ok (by simp only [List.length_append]; omega), List.drop_left, List.take_left]

theorem rd_behind {ε : Type} (a b : Bytes) (x : UInt8) (i : Nat) (hi : i = a.length) : (rd (a ++ (x :: b)) i : Res ε UInt8) = .ok x := by
  subst hi
  rw [rd_ok (by simp)]
  simp

theorem rd16_behind (a b : Bytes) (n i : Nat) (hn : n < 65536) (hi : i = a.length) : rd16 (a ++ (toLE 2 n ++ b)) i = .ok n := by
  subst hi
  have e : toLE 2 n = [UInt8.ofNat n, UInt8.ofNat (n / 256)] := rfl
  unfold rd16
  rw [e, List.cons_append, rd_behind _ _ _ _ rfl]
  have : (rd (a ++ (UInt8.ofNat n :: ([UInt8.ofNat (n / 256)] ++ b))) (a.length + 1) : R UInt8) = .ok (UInt8.ofNat (n / 256)) := by
    have := rd_behind (ε := Err) (a ++ [UInt8.ofNat n]) b (UInt8.ofNat (n / 256)) (a.length + 1) (by simp)
    simpa using this
  rw [this]
  simp only [Res.ok_bind, Res.pure_eq, UInt8.toNat_ofNat', Res.ok.injEq]
  omega

theorem encodeOid_eq (oid buf : Bytes) (h0 : oid ≠ []) (h1 : oid.length < 128) (h2 : 2 + oid.length ≤ buf.length) :
    Asn1.encodeOid oid buf = .ok (2 + oid.length, [0x06, UInt8.ofNat oid.length] ++ oid ++ buf.drop (2 + oid.length)) := by
  have h0' : 0 < oid.length := List.length_pos_iff.mpr h0
  obtain ⟨a, b, t, rfl⟩ : ∃ a b t, buf = a :: b :: t := by
    match buf, h2 with
    | a :: b :: t, _ => exact ⟨a, b, t, rfl⟩
    | [_], hl => simp at hl; omega
    | [], hl => simp at hl
  simp only [List.length_cons] at h2
  unfold Asn1.encodeOid
  rw [if_neg (by omega), if_neg (by omega), if_neg (by simp; omega), wr_cons_zero]
  simp only [Res.ok_bind]
  rw [wr_cons_one]
  simp only [Res.ok_bind]
  rw [show (0x06 : UInt8) :: UInt8.ofNat oid.length :: t = [0x06, UInt8.ofNat oid.length] ++ t from rfl,
    wrN_behind [0x06, UInt8.ofNat oid.length] t oid 2 rfl (by omega)]
  simp only [Res.ok_bind, Res.pure_eq, Res.ok.injEq, Prod.mk.injEq, true_and]
  rw [show 2 + oid.length = oid.length + 1 + 1 by omega, List.drop_succ_cons, List.drop_succ_cons]

theorem pad16_length {u : Bytes} (h : u.length ≤ 16) : (pad16 u).length = 16 := by
  simp only [pad16, List.length_append, List.length_replicate]; omega

theorem contextOf_length {oid u ctr : Bytes} (h : u.length ≤ 16) : (contextOf oid u ctr).length = 2 + oid.length + 2 + 16 + 1 + ctr.length := by
  simp only [contextOf, List.length_append, pad16_length h, List.length_cons, List.length_nil]

/-- The context data is built exactly as the format says and stays within `data_length`. -/
theorem tokenContext_some {c : Cfg} (wf : c.WF) {u ctr buf : Bytes} (hu : u.length ≤ 16) (hc : ctr.length = c.counterLen)
    (hb : c.dataLength ≤ buf.length) : tokenContext c (some u) ctr buf = .ok (contextOf c.oid u ctr ++ buf.drop c.dataLength) := by
  obtain ⟨h0, h1⟩ := wf.oid
  have hd : c.dataLength = 2 + c.oid.length + 2 + 16 + 1 + c.counterLen := rfl
  unfold tokenContext
  rw [encodeOid_eq _ _ h0 h1 (by rw [List.length_take]; omega)]
  simp only [Res.ok_bind]
  have hr : ((buf.take c.dataLength).drop (2 + c.oid.length)).length = 19 + c.counterLen := by
    rw [List.length_drop, List.length_take]; omega
  generalize (buf.take c.dataLength).drop (2 + c.oid.length) = r at hr ⊢
  rw [List.append_assoc _ r, wrN_behind _ _ _ _ (by simp; omega) (by simp [List.length_append]; omega)]
  simp only [Res.ok_bind]
  rw [wrN_behind _ _ _ _ (by simp; omega) (by rw [List.length_drop, List.length_append, List.length_replicate]; simp; omega)]
  simp only [Res.ok_bind]
  rw [List.append_assoc _ (List.replicate 16 0), wrN_behind _ _ _ _ (by simp; omega) (by simp [List.length_append]; omega)]
  simp only [Res.ok_bind]
  have e1 : ∀ z : Bytes, List.drop u.length (List.replicate 16 (0 : UInt8) ++ z) = List.replicate (16 - u.length) 0 ++ z := by
    intro z
    rw [List.drop_append, List.drop_replicate, List.length_replicate, show u.length - 16 = 0 by omega, List.drop_zero]
  rw [e1, List.length_replicate]
  have hp := pad16_length hu
  rw [List.append_assoc _ u, ← List.append_assoc u, show u ++ List.replicate (16 - u.length) 0 = pad16 u from rfl, ← List.append_assoc _ (pad16 u)]
  rw [wrN_behind _ _ _ _ (by simp [hp]; omega) (by simp [List.length_append]; omega)]
  simp only [Res.ok_bind]
  rw [wrN_behind _ _ _ _ (by simp [hp]; omega) (by rw [List.length_take]; simp [List.length_append]; omega)]
  simp only [Res.ok.injEq]
  rw [List.take_of_length_le (by omega)]
  simp only [List.drop_drop, contextOf, hc]
  congr 1
  rw [List.drop_append, List.drop_of_length_le (by simp; omega), List.nil_append]
  rw [show _ - r.length = 0 by simp; omega, List.drop_zero]

theorem tokenContext_none {c : Cfg} (wf : c.WF) {ctr buf : Bytes} (hb : c.dataLength ≤ buf.length) :
    tokenContext c none ctr buf = .err .uuid := by
  obtain ⟨h0, h1⟩ := wf.oid
  have hd : c.dataLength = 2 + c.oid.length + 2 + 16 + 1 + c.counterLen := rfl
  unfold tokenContext
  rw [encodeOid_eq _ _ h0 h1 (by rw [List.length_take]; omega)]
  simp only [Res.ok_bind]
  have hr : ((buf.take c.dataLength).drop (2 + c.oid.length)).length = 19 + c.counterLen := by
    rw [List.length_drop, List.length_take]; omega
  generalize (buf.take c.dataLength).drop (2 + c.oid.length) = r at hr ⊢
  rw [List.append_assoc _ r, wrN_behind _ _ _ _ (by simp; omega) (by simp [List.length_append]; omega)]
  simp only [Res.ok_bind]
  rw [wrN_behind _ _ _ _ (by simp; omega) (by rw [List.length_drop, List.length_append, List.length_replicate]; simp; omega)]
  simp only [Res.ok_bind]

/-! ### Parsing -/

theorem rd16_ok {d : Bytes} {off : Nat} (h : off + 2 ≤ d.length) : ∃ n, rd16 d off = .ok n ∧ n < 65536 ∧ window d off 2 = toLE 2 n := by
  unfold rd16
  rw [rd_ok (by omega), rd_ok (by omega)]
  have a := d[off].toNat_lt
  have b := d[off + 1].toNat_lt
  refine ⟨_, rfl, by omega, ?_⟩
  have e : window d off 2 = [d[off], d[off + 1]] := by
    unfold window
    rw [List.drop_eq_getElem_cons (by omega), List.drop_eq_getElem_cons (by omega)]
    rfl
  rw [e]
  have h1 : UInt8.ofNat (d[off].toNat + 256 * d[off + 1].toNat) = d[off] := by
    apply UInt8.toNat_inj.mp; rw [UInt8.toNat_ofNat']; omega
  have h2 : UInt8.ofNat ((d[off].toNat + 256 * d[off + 1].toNat) / 256) = d[off + 1] := by
    apply UInt8.toNat_inj.mp; rw [UInt8.toNat_ofNat']; omega
  show _ = [UInt8.ofNat _, UInt8.ofNat _]
  rw [h1, h2]

theorem field_eq {length off n : Nat} (h : length < 2 ^ 31) (ho : off ≤ length) (hn : n < 65536) :
    field length off n = if length < off + n then .err .badAuthData else .ok (off + n) := by
  unfold field
  rw [Nat.mod_eq_of_lt hn, Nat.mod_eq_of_lt (by unfold AuthToken.SZ; omega)]

/-- What parsing a container gives: the container as a concatenation. -/
theorem parseContainer_cases {d : Bytes} (hd : d.length < 2 ^ 31) :
    parseContainer d = .err .badAuthData ∨
    ∃ tl pl, parseContainer d = .ok ⟨2, tl, 2 + tl + 2, pl⟩ ∧ tl < 65536 ∧ pl < 65536 ∧ 2 + tl + 2 + pl ≤ d.length ∧
      window d 0 2 = toLE 2 tl ∧ window d (2 + tl) 2 = toLE 2 pl := by
  unfold parseContainer
  rw [field_eq hd (by omega) (by omega)]
  by_cases h1 : d.length < 0 + 2
  · rw [if_pos h1]; exact .inl rfl
  rw [if_neg h1]
  obtain ⟨tl, e1, t1, w1⟩ := rd16_ok (d := d) (off := 0) (by omega)
  simp only [Res.ok_bind, e1]
  rw [field_eq hd (by omega) t1]
  by_cases h2 : d.length < 0 + 2 + tl
  · rw [if_pos h2]; exact .inl rfl
  rw [if_neg h2]
  simp only [Res.ok_bind]
  rw [field_eq hd (by omega) (by omega)]
  by_cases h3 : d.length < 0 + 2 + tl + 2
  · rw [if_pos h3]; exact .inl rfl
  rw [if_neg h3]
  obtain ⟨pl, e2, t2, w2⟩ := rd16_ok (d := d) (off := 0 + 2 + tl) (by omega)
  simp only [Res.ok_bind, e2]
  rw [field_eq hd (by omega) t2]
  by_cases h4 : d.length < 0 + 2 + tl + 2 + pl
  · rw [if_pos h4]; exact .inl rfl
  rw [if_neg h4]
  simp only [Res.ok_bind, Res.pure_eq, Nat.zero_add] at *
  exact .inr ⟨tl, pl, rfl, t1, t2, by omega, w1, w2⟩

theorem parseContainer_container {T P sig : Bytes} (h1 : T.length < 65536) (h2 : P.length < 65536) (hs : sig.length < 2 ^ 30) :
    parseContainer (container T P ++ sig) = .ok ⟨2, T.length, 2 + T.length + 2, P.length⟩ := by
  have hl : (container T P ++ sig).length = 4 + T.length + P.length + sig.length := by
    simp only [container, List.length_append, toLE_length]; omega
  have hd : (container T P ++ sig).length < 2 ^ 31 := by omega
  unfold parseContainer
  rw [field_eq hd (by omega) (by omega), if_neg (by omega)]
  have e1 : rd16 (container T P ++ sig) 0 = .ok T.length := by
    have := rd16_behind [] (T ++ toLE 2 P.length ++ P ++ sig) T.length 0 h1 rfl
    simpa [container] using this
  simp only [Res.ok_bind, e1]
  rw [field_eq hd (by omega) h1, if_neg (by omega)]
  simp only [Res.ok_bind]
  rw [field_eq hd (by omega) (by omega), if_neg (by omega)]
  have e2 : rd16 (container T P ++ sig) (0 + 2 + T.length) = .ok P.length := by
    have := rd16_behind (toLE 2 T.length ++ T) (P ++ sig) P.length (0 + 2 + T.length) h2 (by simp)
    simpa [container] using this
  simp only [Res.ok_bind, e2]
  rw [field_eq hd (by omega) h2, if_neg (by omega)]
  simp

/-! ### The token -/

theorem itemLen_ne_oob (w : Nat) (t : Bytes) : Asn1.itemLen w t ≠ .oob := by
  unfold Asn1.itemLen
  cases h : Asn1.parseHeader w t with
  | oob => exact absurd h (Asn1.parseHeader_ne_oob _ _)
  | err e => simp
  | ok p => simp

theorem field_safe {length off n : Nat} (h : length < 2 ^ 31) (ho : off ≤ length) (hn : n < 65536) :
    Res.Safe (field length off n) (fun o => o = off + n ∧ o ≤ length) := by
  rw [field_eq h ho hn]
  split
  · trivial
  · exact ⟨rfl, by omega⟩

/-- Parsing a token never reads outside it, and the fields it finds lie inside. -/
theorem parseToken_safe {t : Bytes} (ht : t.length < 65536) :
    Res.Safe (parseToken t) (fun f => f.counterOff + f.counterLen ≤ t.length ∧ f.nonceOff + 32 ≤ t.length) := by
  have hs : t.length < 2 ^ 31 := by omega
  unfold parseToken
  cases h : Asn1.itemLen 32 t with
  | oob => exact absurd h (itemLen_ne_oob _ _)
  | err e => trivial
  | ok n =>
    simp only
    split
    · trivial
    · refine (field_safe hs (by omega) (by omega)).bind fun o1 ⟨_, h1⟩ => ?_
      refine (field_safe hs h1 (by omega)).bind fun o2 ⟨_, h2⟩ => ?_
      refine (field_safe hs h2 (by omega)).bind fun o3 ⟨e3, h3⟩ => ?_
      refine (field_safe hs h3 (by omega)).bind fun o4 ⟨e4, h4⟩ => ?_
      refine (rd_safe (by omega)).bind fun cl _ => ?_
      have := cl.toNat_lt
      refine (field_safe hs h4 (by omega)).bind fun o5 ⟨e5, h5⟩ => ?_
      refine (field_safe hs h5 (by omega)).bind fun o6 ⟨e6, h6⟩ => ?_
      exact ⟨by show o4 + cl.toNat ≤ _; omega, by show o5 + 32 ≤ _; omega⟩

theorem itemLen_oid {oid rest : Bytes} (h : oid.length < 128) :
    Asn1.itemLen 32 ([0x06, UInt8.ofNat oid.length] ++ oid ++ rest) = .ok (2 + oid.length) := by
  have hn : (UInt8.ofNat oid.length).toNat = oid.length := by rw [UInt8.toNat_ofNat']; omega
  have hlt : UInt8.ofNat oid.length < 0x80 := by
    rw [UInt8.lt_iff_toNat_lt, hn]; show oid.length < 128; omega
  have hne : ∀ x : UInt8, x < 0x80 → x ≠ 0x81 ∧ x ≠ 0x82 ∧ x ≠ 0x83 ∧ x ≠ 0x84 := by decide +kernel
  obtain ⟨n1, n2, n3, n4⟩ := hne _ hlt
  simp only [List.cons_append, List.nil_append]
  unfold Asn1.itemLen Asn1.parseHeader
  rw [if_neg (by simp)]
  simp only [rd_cons_succ, rd_cons_zero, Res.ok_bind, n1, n2, n3, n4, if_false, hlt, if_true, Res.pure_eq, hn]
  rw [Nat.mod_eq_of_lt (by omega), Asn1.signExtend, if_pos (by omega), Nat.add_comm]

theorem parseToken_token {oid u ctr nonce sig : Bytes} (h1 : oid.length < 128) (hu : u.length ≤ 16) (hc : ctr.length < 256) (hn : nonce.length = 32)
    (hl : (contextOf oid u ctr ++ nonce ++ sig).length < 65536) :
    parseToken (contextOf oid u ctr ++ nonce ++ sig) = .ok ⟨2 + oid.length + 19, ctr.length, 2 + oid.length + 19 + ctr.length⟩ := by
  have hlen : (contextOf oid u ctr ++ nonce ++ sig).length = 2 + oid.length + 19 + ctr.length + 32 + sig.length := by
    rw [List.length_append, List.length_append, contextOf_length hu]; omega
  have hs : (contextOf oid u ctr ++ nonce ++ sig).length < 2 ^ 31 := by omega
  have e0 : Asn1.itemLen 32 (contextOf oid u ctr ++ nonce ++ sig) = .ok (2 + oid.length) := by
    have := itemLen_oid (oid := oid) (rest := [1, 0] ++ pad16 u ++ [UInt8.ofNat ctr.length] ++ ctr ++ nonce ++ sig) h1
    simpa [contextOf] using this
  have e1 : (rd (contextOf oid u ctr ++ nonce ++ sig) (0 + (2 + oid.length) + 2 + 16) : R UInt8) = .ok (UInt8.ofNat ctr.length) := by
    have := rd_behind (ε := Err) ([0x06, UInt8.ofNat oid.length] ++ oid ++ [1, 0] ++ pad16 u) (ctr ++ nonce ++ sig) (UInt8.ofNat ctr.length)
      (0 + (2 + oid.length) + 2 + 16) (by simp [pad16_length hu]; omega)
    simpa [contextOf] using this
  have e2 : (UInt8.ofNat ctr.length).toNat = ctr.length := by rw [UInt8.toNat_ofNat']; omega
  unfold parseToken
  simp only [e0]
  rw [if_neg (by omega), field_eq hs (by omega) (by omega), if_neg (by omega)]
  simp only [Res.ok_bind]
  rw [field_eq hs (by omega) (by omega), if_neg (by omega)]
  simp only [Res.ok_bind]
  rw [field_eq hs (by omega) (by omega), if_neg (by omega)]
  simp only [Res.ok_bind]
  rw [field_eq hs (by omega) (by omega), if_neg (by omega)]
  simp only [Res.ok_bind, e1, e2]
  rw [field_eq hs (by omega) (by omega), if_neg (by omega)]
  simp only [Res.ok_bind]
  rw [field_eq hs (by omega) (by omega), if_neg (by omega)]
  simp only [Res.ok_bind, Res.pure_eq, Res.ok.injEq, TokenFields.mk.injEq]
  exact ⟨by omega, trivial, by omega⟩

end Verif.Unlock
