import Verif.Pcisig.Spec
namespace Verif.Pcisig

/-! ### Memory -/

theorem get_ok {b : Bytes} {i n : Nat} (h : i + n ≤ b.length) : get b i n = some (window b i n) := if_pos h

theorem put_ok {b d : Bytes} {i : Nat} (h : i + d.length ≤ b.length) : put b i d = some (b.take i ++ d ++ b.drop (i + d.length)) := if_pos h

theorem put_zero {b d : Bytes} (h : d.length ≤ b.length) : put b 0 d = some (d ++ b.drop d.length) := by
  rw [put_ok (by omega)]
  simp

theorem put_length {b d b' : Bytes} {i : Nat} (h : put b i d = some b') : b'.length = b.length := by
  unfold put at h
  split at h
  · cases h; simp only [List.length_append, List.length_take, List.length_drop]; omega
  · cases h

theorem window_take {b : Bytes} {i n len : Nat} (h : i + n ≤ len) : window (b.take len) i n = window b i n := by
  unfold window
  rw [List.drop_take, List.take_take, Nat.min_eq_left (by omega)]

theorem getD_take {b : Bytes} {i len : Nat} (h : i < len) : (b.take len).getD i 0 = b.getD i 0 := by
  rw [List.getD_eq_getElem?_getD, List.getD_eq_getElem?_getD, List.getElem?_take_of_lt h]

theorem window_one {b : Bytes} {i : Nat} (h : i < b.length) : window b i 1 = [b.getD i 0] := by
  unfold window
  rw [List.drop_eq_getElem_cons h, List.take_succ_cons, List.take_zero, List.getD_eq_getElem?_getD, List.getElem?_eq_getElem h, Option.getD_some]

theorem window_len {b : Bytes} {i n : Nat} (h : i + n ≤ b.length) : (window b i n).length = n := by
  rw [window_length]; omega

/-- Splits the first bytes off. -/
theorem split_window (b : Bytes) (i n : Nat) : b.drop i = window b i n ++ b.drop (i + n) := by
  rw [← List.drop_drop]
  exact (List.take_append_drop n _).symm

/-! ### Judgement -/

/-- The handler leaves exactly these bytes as the answer, in a buffer of the same size, and this state. -/
def Good (m : Msg) (x : Option (Ans × St)) (bytes : Bytes) (s' : St) : Prop :=
  ∃ b rest, x = some (⟨b, bytes.length⟩, s') ∧ b = bytes ++ rest ∧ b.length = m.buf.length ∧ bytes.length ≤ m.room

theorem toLE_4_0 : toLE 4 0 = [0, 0, 0, 0] := rfl

theorem good_fail' {m : Msg} {buf fid : Bytes} {code : Nat} {s : St} (q : Bytes) (hf : fid.length = 4) (hb : buf.length = m.buf.length)
    (h24 : 24 ≤ m.room) (hr : m.room ≤ m.buf.length) : Good m (failWith buf fid code s) (bytesOf q fid (.error code)) s := by
  have hl : (header 0x7f fid ++ toLE 4 code ++ toLE 4 0).length = 24 := by simp [header, hf]
  refine ⟨_, buf.drop 24, ?_, rfl, ?_, ?_⟩
  · unfold failWith
    rw [put_zero (by omega), hl]
    have : (bytesOf q fid (.error code)).length = 24 := by simp [bytesOf, hf]
    rw [this]
    simp [header, bytesOf, toLE_4_0, List.replicate]
  · have : (bytesOf q fid (.error code)).length = 24 := by simp [bytesOf, hf]
    rw [List.length_append, this, List.length_drop]; omega
  · have : (bytesOf q fid (.error code)).length = 24 := by simp [bytesOf, hf]
    omega

theorem good_fail {m : Msg} {fid : Bytes} {code : Nat} {s : St} (q : Bytes) (hf : fid.length = 4)
    (h24 : 24 ≤ m.room) (hr : m.room ≤ m.buf.length) : Good m (failWith m.buf fid code s) (bytesOf q fid (.error code)) s :=
  good_fail' q hf rfl h24 hr

/-- An answer written into a fresh structure. -/
theorem good_put {m : Msg} {fid body : Bytes} {t : UInt8} {s : St} (q : Bytes) (n : Nat) (hn : n = 16 + body.length) (hf : fid.length = 4)
    (h : n ≤ m.room) (hr : m.room ≤ m.buf.length) :
    Good m ((put m.buf 0 (header t fid ++ body)).bind fun b => some (⟨b, n⟩, s)) (bytesOf q fid (.ok t false body)) s := by
  have hl : (header t fid ++ body).length = n := by simp [header, hf]; omega
  have hl' : (bytesOf q fid (.ok t false body)).length = n := by simp [bytesOf, hf]; omega
  refine ⟨_, m.buf.drop n, ?_, rfl, ?_, by omega⟩
  · rw [put_zero (by omega), hl, hl']
    simp [header, bytesOf, List.replicate]
  · rw [List.length_append, hl', List.length_drop]; omega

theorem fid_length {m : Msg} (h : 8 ≤ m.buf.length) : (window m.buf 4 4).length = 4 := window_len (by omega)

/-- A request of the right length. -/
structure Sized (m : Msg) (n : Nat) : Prop where
  len : m.len = n
  n16 : 16 ≤ n
  buf : m.len ≤ m.buf.length
  r24 : 24 ≤ m.room
  room : m.room ≤ m.buf.length

theorem Sized.q_length {m : Msg} {n : Nat} (h : Sized m n) : m.q.length = n := by
  have := h.len; have := h.buf
  simp only [Msg.q, List.length_take]; omega

theorem Sized.fn_eq {m : Msg} {n : Nat} (h : Sized m n) : functionOf m.q = window m.buf 4 4 := by
  have := h.len; have := h.n16
  exact window_take (by omega)

theorem Sized.bdf_eq {m : Msg} {n : Nat} (h : Sized m n) : leNat ((window m.buf 4 4).take 2) = bdfOf m.q := by
  have := h.len; have := h.n16
  unfold bdfOf Msg.q
  rw [window_take (by omega)]
  unfold window
  rw [List.take_take, Nat.min_eq_left (by omega)]

theorem Sized.win {m : Msg} {n i k : Nat} (h : Sized m n) (hi : i + k ≤ n) : window m.q i k = Verif.window m.buf i k := by
  have := h.len
  exact window_take (by omega)

theorem Sized.rd {m : Msg} {n i k : Nat} (h : Sized m n) (hi : i + k ≤ n) : get m.buf i k = some (Verif.window m.q i k) := by
  have := h.len; have := h.buf
  rw [h.win hi, get_ok (by omega)]

/-- The first checks. -/
theorem good_checked {versions : Bytes} {e : Env} {m : Msg} {size : Nat} {s s' : St} {k : Bytes → Option (Ans × St)}
    (h16 : 16 ≤ m.len) (hb : m.len ≤ m.buf.length) (h24 : 24 ≤ m.room) (hr : m.room ≤ m.buf.length)
    (ht : 0x81 ≤ typeOf m.q ∧ typeOf m.q ≤ 0x87) (hz : sizeOf (typeOf m.q) = size)
    (hbad : m.q.length ≠ size ∨ m.q.getD 0 0 ≠ 0x10 → s' = s)
    (hk : Sized m size → m.q.getD 0 0 = 0x10 → Good m (k (functionOf m.q)) (bytesOf m.q (functionOf m.q) (replyTo versions e s.ctx m.room m.q)) s') :
    Good m (checked m size s k) (bytesOf m.q (namedIn m.q) (replyTo versions e s.ctx m.room m.q)) s' := by
  have hql : m.q.length = m.len := by simp only [Msg.q, List.length_take]; omega
  have hnt : ¬ (typeOf m.q < 0x81 ∨ 0x87 < typeOf m.q) := by omega
  by_cases hl : m.len = size
  · have sz : Sized m size := ⟨hl, by omega, hb, h24, hr⟩
    have e1 : namedIn m.q = functionOf m.q := by
      unfold namedIn
      rw [if_neg (by rw [hz]; omega)]
    have e0 : window m.q 0 1 = [m.q.getD 0 0] := window_one (by omega)
    unfold checked
    rw [if_neg (by omega), sz.rd (by omega), sz.rd (by omega), e0]
    simp only [Option.bind_eq_bind, Option.bind_some]
    by_cases hv : m.q.getD 0 0 = 0x10
    · rw [hv, if_neg (by simp), e1]
      exact hk sz hv
    · rw [if_pos (by simpa using hv), e1]
      have : replyTo versions e s.ctx m.room m.q = .error 0x41 := by
        unfold replyTo
        rw [if_neg hnt, if_neg (by rw [hz]; omega), if_pos hv]
      rw [this, hbad (.inr hv)]
      exact good_fail _ (window_len (by omega)) h24 hr
  · have e1 : namedIn m.q = noFid := by
      unfold namedIn
      rw [if_pos (by rw [hz]; omega)]; rfl
    unfold checked
    rw [if_pos hl, e1]
    have : replyTo versions e s.ctx m.room m.q = .error 0x01 := by
      unfold replyTo
      rw [if_neg hnt, if_pos (by rw [hz]; omega)]
    rw [this, hbad (.inl (by omega))]
    exact good_fail _ rfl h24 hr

/-- The state a request leaves. -/
def after (versions : Bytes) (e : Env) (s : St) (room : Nat) (q : Bytes) : St :=
  if callsOf e s.ctx room q = [] then s
  else
    ⟨fun g => match replyTo versions e s.ctx room q with
      | .ok 0x03 _ n => if target e q = some g then { e.touch s.ctx g with nonce := n, mask := (e.touch s.ctx g).mask ||| 0x0001 } else e.touch s.ctx g
      | _ => e.touch s.ctx g,
     s.calls ++ callsOf e s.ctx room q⟩

theorem after_none {versions : Bytes} {e : Env} {s : St} {room : Nat} {q : Bytes} (h : callsOf e s.ctx room q = []) :
    after versions e s room q = s := if_pos h

/-- A request of another type makes no calls. -/
theorem callsOf_type {e : Env} {ctx : Nat → Ctx} {room : Nat} {q : Bytes} (h : typeOf q ≠ 0x83 ∧ typeOf q ≠ 0x86 ∧ typeOf q ≠ 0x87) :
    callsOf e ctx room q = [] := by
  unfold callsOf
  split
  · rfl
  · split
    · rfl
    · rw [if_neg (by omega), if_neg (by omega), if_neg (by omega)]

theorem callsOf_bad {e : Env} {ctx : Nat → Ctx} {room : Nat} {q : Bytes} (h : q.length ≠ sizeOf (typeOf q) ∨ q.getD 0 0 ≠ 0x10) :
    callsOf e ctx room q = [] := if_pos h

/-- Checks passed: the reply is decided by the room and the interface. -/
theorem replyTo_checked {versions : Bytes} {e : Env} {ctx : Nat → Ctx} {room : Nat} {q : Bytes} (ht : 0x81 ≤ typeOf q ∧ typeOf q ≤ 0x87)
    (hz : q.length = sizeOf (typeOf q)) (hv : q.getD 0 0 = 0x10) :
    replyTo versions e ctx room q =
      if room < roomFor versions (typeOf q) then .error 0x05
      else if typeOf q = 0x82 then
        match e.caps (window q 16 4) with
        | none => .error 0x05
        | some caps => .ok 0x02 true (withMessages caps)
      else match target e q with
        | none => .error 0x101
        | some f => replyFor versions e ctx room q f := by
  unfold replyTo
  rw [if_neg (by omega), if_neg (by omega), if_neg (by rw [hv]; decide)]
  rfl

end Verif.Pcisig
