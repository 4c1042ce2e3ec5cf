import Verif.Pcisig.Lemmas
namespace Verif.Pcisig

variable {versions : Bytes} {e : Env} {m : Msg} {s : St}

theorem hasNonce_eq (c : Ctx) : hasNonce c = c.mask.testBit 0 := by
  unfold hasNonce
  have h : (1 : Nat).testBit 0 = true := rfl
  rw [Nat.and_one_is_mod, Nat.testBit_zero]
  by_cases h : c.mask % 2 = 1
  · rw [h]; rfl
  · have : c.mask % 2 = 0 := by omega
    rw [this]; rfl

theorem hasNonce_locked (ctx : Nat → Ctx) (f : Nat) : hasNonce (ctx f) = Locked ctx f := hasNonce_eq _

theorem Sized.bdf {n : Nat} (h : Sized m n) : leNat ((functionOf m.q).take 2) = bdfOf m.q := by
  rw [h.fn_eq, h.bdf_eq]

theorem Sized.fid {n : Nat} (h : Sized m n) : (functionOf m.q).length = 4 := by
  have := h.len; have := h.n16; have := h.buf
  rw [h.fn_eq]; exact window_len (by omega)

theorem getVersion_good (u : Usable m) (ht : typeOf m.q = 0x81) :
    Good m (getVersion versions e m s) (bytesOf m.q (namedIn m.q) (replyTo versions e s.ctx m.room m.q)) (after versions e s m.room m.q) := by
  have hc : callsOf e s.ctx m.room m.q = [] := callsOf_type (by omega)
  rw [after_none hc]
  unfold getVersion
  refine good_checked u.h16 u.hb u.h24 u.hr (by omega) (by rw [ht]; rfl) (fun _ => rfl) ?_
  intro sz hv
  rw [replyTo_checked (by omega) (by rw [sz.q_length, ht]; rfl) hv, ht]
  show Good m (roomy m _ _ _ _) (bytesOf m.q (functionOf m.q) (if m.room < 17 + versions.length then _ else _)) s
  unfold roomy
  by_cases hroom : m.room < 17 + versions.length
  · rw [if_pos hroom, if_pos hroom]; exact good_fail _ sz.fid u.h24 u.hr
  · rw [if_neg hroom, if_neg hroom, if_neg (by decide)]
    unfold indexed target
    rw [sz.bdf]
    cases hi : e.index (bdfOf m.q) with
    | none => exact good_fail _ sz.fid u.h24 u.hr
    | some f =>
      have : replyFor versions e s.ctx m.room m.q f = .ok 0x01 false ([UInt8.ofNat versions.length] ++ versions) := by
        unfold replyFor; rw [if_pos ht]
      simp only [this]
      have := good_put (m := m) (fid := functionOf m.q) (body := [UInt8.ofNat versions.length] ++ versions) (t := 0x01) (s := s) m.q
        (17 + versions.length) (by simp; omega) sz.fid (by omega) u.hr
      rw [← List.append_assoc] at this
      exact this

theorem getState_good (u : Usable m) (ht : typeOf m.q = 0x85) :
    Good m (getState e m s) (bytesOf m.q (namedIn m.q) (replyTo versions e s.ctx m.room m.q)) (after versions e s m.room m.q) := by
  have hc : callsOf e s.ctx m.room m.q = [] := callsOf_type (by omega)
  rw [after_none hc]
  unfold getState
  refine good_checked u.h16 u.hb u.h24 u.hr (by omega) (by rw [ht]; rfl) (fun _ => rfl) ?_
  intro sz hv
  rw [replyTo_checked (by omega) (by rw [sz.q_length, ht]; rfl) hv, ht]
  show Good m (roomy m _ _ _ _) (bytesOf m.q (functionOf m.q) (if m.room < 17 then _ else _)) s
  unfold roomy
  by_cases hroom : m.room < 17
  · rw [if_pos hroom, if_pos hroom]; exact good_fail _ sz.fid u.h24 u.hr
  · rw [if_neg hroom, if_neg hroom, if_neg (by decide)]
    unfold indexed target
    rw [sz.bdf]
    cases hi : e.index (bdfOf m.q) with
    | none => exact good_fail _ sz.fid u.h24 u.hr
    | some f =>
      have hrep : replyFor versions e s.ctx m.room m.q f = match e.state f with | none => .error 0x101 | some st => .ok 0x05 false [st] := by
        unfold replyFor; rw [if_neg (by omega), if_neg (by omega), if_neg (by omega), if_pos ht]; rfl
      simp only [hrep]
      cases hs : e.state f with
      | none => exact good_fail _ sz.fid u.h24 u.hr
      | some st => exact good_put _ 17 (by simp) sz.fid (by omega) u.hr

theorem set_of_put {b : Bytes} {i : Nat} {x : UInt8} (h : i < b.length) : put b i [x] = some (b.set i x) := by
  rw [put_ok (by simp; omega), List.set_eq_take_append_cons_drop, if_pos h]
  simp

theorem addMessages_supported {caps : Bytes} (h : caps.length = 28) : addMessages caps supported = some (withMessages caps) := by
  have step : ∀ (c : Bytes) (k : Nat) (ms : List Nat), c.length = 28 → 1 ≤ k → k < 8 →
      addMessages c ((0x80 + k) :: ms) = addMessages (c.set 4 (c.getD 4 0 ||| UInt8.ofNat (1 <<< k))) ms := by
    intro c k ms hc h1 h2
    rw [addMessages]
    rw [if_neg (show ¬ (0x80 + k < 0x80) by omega), show 0x80 + k - 0x80 = k by omega, show k / 8 = 0 by omega, show k % 8 = k by omega,
      if_neg (by omega), get_ok (by omega), window_one (by omega)]
    simp only [Option.bind_eq_bind, Option.bind_some, List.headD_cons]
    rw [set_of_put (by omega)]
    rfl
  have l : ∀ (c : Bytes) x, c.length = 28 → (c.set 4 x).length = 28 := by intro c x h; rw [List.length_set]; exact h
  have g : ∀ (c : Bytes) x, c.length = 28 → (c.set 4 x).getD 4 0 = x := by
    intro c x h
    rw [List.getD_eq_getElem?_getD, List.getElem?_set_self (by omega)]; rfl
  unfold supported withMessages
  rw [show (0x81 : Nat) = 0x80 + 1 from rfl, step _ 1 _ h (by omega) (by omega),
    show (0x82 : Nat) = 0x80 + 2 from rfl, step _ 2 _ (l _ _ h) (by omega) (by omega), g _ _ h, List.set_set,
    show (0x83 : Nat) = 0x80 + 3 from rfl, step _ 3 _ (l _ _ h) (by omega) (by omega), g _ _ h, List.set_set,
    show (0x84 : Nat) = 0x80 + 4 from rfl, step _ 4 _ (l _ _ h) (by omega) (by omega), g _ _ h, List.set_set,
    show (0x85 : Nat) = 0x80 + 5 from rfl, step _ 5 _ (l _ _ h) (by omega) (by omega), g _ _ h, List.set_set,
    show (0x86 : Nat) = 0x80 + 6 from rfl, step _ 6 _ (l _ _ h) (by omega) (by omega), g _ _ h, List.set_set,
    show (0x87 : Nat) = 0x80 + 7 from rfl, step _ 7 _ (l _ _ h) (by omega) (by omega), g _ _ h, List.set_set]
  simp only [addMessages, UInt8.or_assoc]
  rfl

/-- An answer written over the request: only version, type and function are replaced. -/
theorem echo_put {t : UInt8} {body : Bytes} {n : Nat} (sz : Sized m n) (h : 16 + body.length ≤ m.buf.length) :
    (do
      let b ← put m.buf 0 [0x10, t]
      let b ← put b 4 (functionOf m.q)
      put b 16 body) = some (bytesOf m.q (functionOf m.q) (.ok t true body) ++ m.buf.drop (16 + body.length)) := by
  have hn := sz.len; have h16 := sz.n16; have hb := sz.buf
  have hf := sz.fid
  have e1 : m.buf.drop 2 = window m.q 2 2 ++ m.buf.drop 4 := by
    rw [sz.win (by omega)]; exact split_window _ _ _
  have e2 : m.buf.drop 8 = window m.q 8 8 ++ m.buf.drop 16 := by
    rw [sz.win (by omega)]; exact split_window _ _ _
  have w1 : (window m.q 2 2).length = 2 := window_len (by rw [sz.q_length]; omega)
  have w2 : (window m.q 8 8).length = 8 := window_len (by rw [sz.q_length]; omega)
  rw [put_zero (by simp; omega)]
  simp only [Option.bind_eq_bind, Option.bind_some, List.length_cons, List.length_nil]
  rw [e1, put_ok (by simp [w1, hf]; omega)]
  simp only [Option.bind_some]
  have a1 : List.take 4 ([0x10, t] ++ (window m.q 2 2 ++ m.buf.drop 4)) = [0x10, t] ++ window m.q 2 2 := by
    rw [← List.append_assoc, List.take_left' (by simp [w1])]
  have a2 : List.drop (4 + (functionOf m.q).length) ([0x10, t] ++ (window m.q 2 2 ++ m.buf.drop 4)) = m.buf.drop 8 := by
    rw [hf, ← List.append_assoc, List.drop_append, List.drop_of_length_le (by simp [w1]), List.nil_append, List.drop_drop]
    simp [w1]
  rw [a1, a2, e2, put_ok (by simp [w1, w2, hf]; omega)]
  have b1 : ([0x10, t] ++ window m.q 2 2 ++ functionOf m.q ++ (window m.q 8 8 ++ m.buf.drop 16)) =
    ([0x10, t] ++ window m.q 2 2 ++ functionOf m.q ++ window m.q 8 8) ++ m.buf.drop 16 := by simp
  rw [b1, List.take_left' (by simp [w1, w2, hf]), List.drop_append, List.drop_of_length_le (by simp [w1, w2, hf]), List.nil_append,
    List.drop_drop]
  simp [bytesOf, w1, w2, hf]

theorem getCapabilities_good (wf : e.WF) (u : Usable m) (ht : typeOf m.q = 0x82) :
    Good m (getCapabilities supported e m s) (bytesOf m.q (namedIn m.q) (replyTo versions e s.ctx m.room m.q)) (after versions e s m.room m.q) := by
  have hc : callsOf e s.ctx m.room m.q = [] := callsOf_type (by omega)
  rw [after_none hc]
  unfold getCapabilities
  refine good_checked u.h16 u.hb u.h24 u.hr (by omega) (by rw [ht]; rfl) (fun _ => rfl) ?_
  intro sz hv
  rw [replyTo_checked (by omega) (by rw [sz.q_length, ht]; rfl) hv, ht]
  show Good m (roomy m _ _ _ _) (bytesOf m.q (functionOf m.q) (if m.room < 44 then _ else _)) s
  unfold roomy
  by_cases hroom : m.room < 44
  · rw [if_pos hroom, if_pos hroom]; exact good_fail _ sz.fid u.h24 u.hr
  · rw [if_neg hroom, if_neg hroom, if_pos rfl, sz.rd (by omega)]
    simp only [Option.bind_eq_bind, Option.bind_some]
    cases hcap : e.caps (window m.q 16 4) with
    | none => exact good_fail _ sz.fid u.h24 u.hr
    | some caps =>
      have hl := wf.caps _ _ hcap
      have hr := u.hr
      have hw : (withMessages caps).length = 28 := by unfold withMessages; rw [List.length_set, hl]
      simp only [addMessages_supported hl, Option.bind_some]
      have hp := echo_put (t := 0x02) (body := withMessages caps) sz (by omega)
      simp only [Option.bind_eq_bind] at hp
      have hlen : (bytesOf m.q (functionOf m.q) (.ok 0x02 true (withMessages caps))).length = 44 := by
        have w1 : (window m.q 2 2).length = 2 := window_len (by rw [sz.q_length]; omega)
        have w2 : (window m.q 8 8).length = 8 := window_len (by rw [sz.q_length]; omega)
        simp [bytesOf, w1, w2, sz.fid, hw]
      refine ⟨_, m.buf.drop 44, ?_, rfl, ?_, by omega⟩
      · have e : ∀ (x : Option Bytes) (y : Bytes → Option Bytes) (z : Bytes → Option Bytes) (r : Bytes),
            (x.bind fun b => (y b).bind fun b => z b) = some r →
            (x.bind fun b => (y b).bind fun b => (z b).bind fun b => some ((⟨b, 44⟩ : Ans), s)) = some (⟨r, 44⟩, s) := by
          intro x y z r h
          cases x with
          | none => cases h
          | some x =>
            simp only [Option.bind_some] at h ⊢
            cases hy : y x with
            | none => rw [hy] at h; cases h
            | some y => rw [hy] at h; simp only [Option.bind_some] at h ⊢; rw [h]; rfl
        rw [hw] at hp
        rw [hlen]
        exact e _ _ _ _ hp
      · rw [List.length_append, hlen, List.length_drop]; omega

end Verif.Pcisig
