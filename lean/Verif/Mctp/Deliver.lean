import Verif.Mctp.Lemmas
namespace Verif.Mctp
open Res

/-- What happens when the last packet of a message has been added. -/
def complete (s : St) (owner : Nat) : R (St × Event) :=
  if owner = 0 then handleResponse s
  else .ok (s.reset, .request { srcEid := s.srcEid, srcAddr := s.srcAddr, dstEid := s.dstEid, tag := s.tag, data := s.data })

/-- The receiver is in the middle of a message with header `h`. -/
structure Mid (env : Env) (s : St) (h : Hdr) (mtu : Nat) : Prop where
  range : h.InRange
  som : h.som = false
  dst : h.dstEid = env.selfEid ∨ h.dstEid = 0
  owner : h.owner ≠ 0 ∨ s.rsp = .waiting ∧ h.tag = s.rspTag
  start : s.startLen = mtu
  tag : h.tag = s.tag
  own : h.owner = s.owner
  src : h.srcEid = s.srcEid
  seq : h.seq = s.seq

theorem accept_mid (env : Env) (s : St) (h : Hdr) (mtu : Nat) (h0 : 0 < mtu) (m : Mid env s h mtu) (eom : Bool) (pl : Bytes) (t : Nat)
    (hl : pl.length ≤ mtu) (he : eom = false → pl.length = mtu) :
    accept env s { hdr := { h with eom := eom }, msgType := t, payload := pl } = .inr s := by
  have hd := m.dst
  have ho := m.owner
  unfold accept
  simp only
  rw [if_neg (by intro c; exact hd.elim c.1 c.2), if_neg, if_neg (by simp [m.som]), if_neg (by simp [m.som]),
    if_neg (by rw [m.start]; omega), if_neg (by simp [m.tag, m.own]), if_neg (by simp [m.src]), if_neg (by simp [m.seq]), if_neg]
  · rw [m.start]
    intro c
    cases eom
    · exact c.1 (he rfl)
    · exact c.2 ⟨rfl, by omega⟩
  · intro c
    rcases ho with ho | ho
    · exact ho c.1
    · have := c.2
      simp [isExpectedResponse, ho.1, ho.2, m.som] at this

theorem process_accepted (env : Env) (s s' : St) (buf : Bytes) (a : UInt8) (p : Pkt) (hi : interpret buf a = .ok p)
    (ha : accept env s p = .inr s') (hs : s'.data.length + p.payload.length ≤ maxBody) :
    processPacket env s buf a =
      if p.hdr.eom then complete { s' with data := s'.data ++ p.payload, seq := (s'.seq + 1) % 4 } p.hdr.owner
      else .ok ({ s' with data := s'.data ++ p.payload, seq := (s'.seq + 1) % 4 }, .accepted) := by
  unfold processPacket
  rw [hi]
  simp only [ha]
  rw [if_neg (by omega), addPayload, if_pos hs, ok_bind]
  simp only [complete]
  cases p.hdr.eom <;> rfl

theorem run_cons (env : Env) (s s' : St) (e : Event) (op : Op) (ops : List Op) (h : step env s op = .ok (s', e)) :
    run env s (op :: ops) = (run env s' ops).bind fun r => .ok (r.1, e :: r.2) := by
  rw [run, h]; rfl

theorem deliver_rest (env : Env) (a : UInt8) (mtu : Nat) (h0 : 0 < mtu) (h1 : mtu ≤ maxUnit) :
    ∀ (k : Nat) (msg : Bytes) (s : St) (h : Hdr) (s' : St) (e : Event), msg.length ≤ k → msg ≠ [] → Mid env s h mtu →
      s.data.length + msg.length ≤ maxBody →
      (∀ q, complete { s with data := s.data ++ msg, seq := q } h.owner = .ok ({ s' with seq := q }, e)) →
      ∃ q es, run env s ((fragment mtu h a msg).map (.rx · a)) = .ok ({ s' with seq := q }, es ++ [e]) ∧ ∀ x ∈ es, x = .accepted := by
  intro k
  induction k with
  | zero =>
    intro msg s h s' e hk hm
    exact absurd (List.eq_nil_of_length_eq_zero (by omega)) hm
  | succ k ih =>
    intro msg s h s' e hk hm m hsz hc
    have hpos : 0 < msg.length := List.length_pos_iff.mpr hm
    have htl : (msg.take mtu).length = min mtu msg.length := by simp
    have hi := interpret_packet { h with eom := decide (msg.length ≤ mtu) } ⟨m.range.1, m.range.2, m.range.3, m.range.4, m.range.5⟩
      (msg.take mtu) (List.ne_nil_of_length_pos (by omega)) (by omega) a
    have ha := accept_mid env s h mtu h0 m (decide (msg.length ≤ mtu)) (msg.take mtu)
      (if h.som then ((msg.take mtu).headD 0).toNat % 128 else 0) (by omega) (by intro c; simp at c; omega)
    have hp := process_accepted env s s _ a _ hi ha (by simp only [htl]; omega)
    rw [fragment_cons mtu h a msg hm h0, List.map_cons]
    by_cases hl : msg.length ≤ mtu
    · simp only [hl, decide_true, if_true, List.take_of_length_le hl] at hp
      rw [hc] at hp
      rw [run_cons env s _ e _ _ (by rw [step]; simp only [hl, decide_true, List.take_of_length_le hl]; exact hp),
        List.drop_of_length_le hl, fragment_nil]
      exact ⟨_, [], by simp [run]; rfl, by simp⟩
    · simp only [hl, decide_false, Bool.false_eq_true, if_false] at hp
      rw [run_cons env s _ .accepted _ _ (by rw [step]; simp only [hl, decide_false]; exact hp)]
      have hdl : (msg.drop mtu).length = msg.length - mtu := by simp
      obtain ⟨q, es, hr, hes⟩ := ih (msg.drop mtu) { s with data := s.data ++ msg.take mtu, seq := (s.seq + 1) % 4 }
        { h with som := false, seq := (h.seq + 1) % 4 } s' e (by omega)
        (by intro c; rw [c] at hdl; simp at hdl; omega)
        { range := ⟨m.range.1, m.range.2, m.range.3, by simp only; omega, m.range.5⟩, som := rfl, dst := m.dst, owner := m.owner,
          start := m.start, tag := m.tag, own := m.own, src := m.src, seq := by simp [m.seq] }
        (by simp only [List.length_append, htl, hdl]; omega)
        (by intro q; simp only [List.append_assoc, List.take_append_drop]; exact hc q)
      rw [hr]
      refine ⟨q, .accepted :: es, rfl, ?_⟩
      intro x hx
      rcases List.mem_cons.mp hx with hx | hx
      · exact hx
      · exact hes x hx

/-- The receiver's state once the first packet has been accepted, except for the data. -/
def started (s : St) (h : Hdr) (n t : Nat) : St :=
  { s with data := [], srcEid := h.srcEid, srcAddr := h.srcAddr, dstEid := h.dstEid, startLen := n, seq := h.seq, tag := h.tag,
           msgType := t, owner := h.owner }

theorem deliver (env : Env) (a : UInt8) (mtu : Nat) (h0 : 0 < mtu) (h1 : mtu ≤ maxUnit) (msg : Bytes) (s : St) (h : Hdr) (s' : St)
    (e : Event) (hm : msg ≠ []) (hsz : msg.length ≤ maxBody) (r : h.InRange) (hs : h.som = true)
    (hd : h.dstEid = env.selfEid ∨ h.dstEid = 0)
    (ho : h.owner ≠ 0 ∧ env.supported ((msg.headD 0).toNat % 128) = true ∨
      h.owner = 0 ∧ s.rsp = .waiting ∧ h.tag = s.rspTag ∧ (msg.headD 0).toNat % 128 = s.rspType)
    (hc : ∀ q, complete { started s h (min mtu msg.length) ((msg.headD 0).toNat % 128) with data := msg, seq := q } h.owner =
      .ok ({ s' with seq := q }, e)) :
    ∃ q es, run env s ((fragment mtu h a msg).map (.rx · a)) = .ok ({ s' with seq := q }, es ++ [e]) ∧ ∀ x ∈ es, x = .accepted := by
  have hpos : 0 < msg.length := List.length_pos_iff.mpr hm
  have htl : (msg.take mtu).length = min mtu msg.length := by simp
  have hhd : (msg.take mtu).headD 0 = msg.headD 0 := by
    cases msg with
    | nil => simp
    | cons b bs => cases mtu with
      | zero => omega
      | succ n => rfl
  have hi := interpret_packet { h with eom := decide (msg.length ≤ mtu) } ⟨r.1, r.2, r.3, r.4, r.5⟩
    (msg.take mtu) (List.ne_nil_of_length_pos (by omega)) (by omega) a
  simp only [hs, if_true, hhd] at hi
  have ha : accept env s ⟨{ h with eom := decide (msg.length ≤ mtu) }, (msg.headD 0).toNat % 128, msg.take mtu⟩ = .inr (started s h (min mtu msg.length) ((msg.headD 0).toNat % 128)) := by
    unfold accept
    simp only
    rw [if_neg (by intro c; exact hd.elim c.1 c.2), if_neg, if_neg, if_pos hs]
    · simp [started]
    · intro c
      rcases ho with ho | ho
      · rw [ho.2] at c; simp at c
      · exact c.1 ho.1
    · intro c
      rcases ho with ho | ho
      · exact ho.1 c.1
      · have := c.2
        simp only [isExpectedResponse, ho.2.1, ho.2.2.1, ho.2.2.2] at this
        simp at this
  have heta : ({ h with eom := decide (msg.length ≤ mtu) } : Hdr) =
    { srcAddr := h.srcAddr, dstEid := h.dstEid, srcEid := h.srcEid, som := true, eom := decide (msg.length ≤ mtu), seq := h.seq,
      tag := h.tag, owner := h.owner } := by rw [← hs]
  rw [heta] at ha
  have hp := process_accepted env s _ _ a _ hi ha (by simp only [htl, started, List.length_nil, maxBody] at *; omega)
  rw [fragment_cons mtu h a msg hm h0, List.map_cons, heta]
  by_cases hl : msg.length ≤ mtu
  · simp only [hl, decide_true, if_true, List.take_of_length_le hl] at hp
    have hcc := hc ((started s h (min mtu msg.length) ((msg.headD 0).toNat % 128)).seq + 1 |> (· % 4))
    have hnil : (started s h (min mtu msg.length) ((msg.headD 0).toNat % 128)).data = [] := rfl
    rw [hnil, List.nil_append, hcc] at hp
    rw [run_cons env s _ e _ _ (by rw [step]; simp only [hl, decide_true, List.take_of_length_le hl]; exact hp),
      List.drop_of_length_le hl, fragment_nil]
    exact ⟨_, [], by simp [run]; rfl, by simp⟩
  · simp only [hl, decide_false, Bool.false_eq_true, if_false] at hp
    rw [run_cons env s _ .accepted _ _ (by rw [step]; simp only [hl, decide_false]; exact hp)]
    have hdl : (msg.drop mtu).length = msg.length - mtu := by simp
    obtain ⟨q, es, hr, hes⟩ := deliver_rest env a mtu h0 h1 msg.length (msg.drop mtu)
      { started s h (min mtu msg.length) ((msg.headD 0).toNat % 128) with data := msg.take mtu, seq := (h.seq + 1) % 4 }
      { h with som := false, seq := (h.seq + 1) % 4 } s' e (by omega)
      (by intro c; rw [c] at hdl; simp at hdl; omega)
      { range := ⟨r.1, r.2, r.3, by simp only; omega, r.5⟩, som := rfl, dst := hd,
        owner := by
          rcases ho with ho | ho
          · exact .inl ho.1
          · exact .inr ⟨ho.2.1, ho.2.2.1⟩
        start := by simp only [started]; omega
        tag := rfl, own := rfl, src := rfl, seq := rfl }
      (by simp only [htl, hdl]; omega)
      (by intro q; simp only [List.take_append_drop]; exact hc q)
    have hst : ({ started s h (min mtu msg.length) ((msg.headD 0).toNat % 128) with
        data := (started s h (min mtu msg.length) ((msg.headD 0).toNat % 128)).data ++ msg.take mtu,
        seq := ((started s h (min mtu msg.length) ((msg.headD 0).toNat % 128)).seq + 1) % 4 } : St) =
      { started s h (min mtu msg.length) ((msg.headD 0).toNat % 128) with data := msg.take mtu, seq := (h.seq + 1) % 4 } := rfl
    rw [hst, hr]
    refine ⟨q, .accepted :: es, rfl, ?_⟩
    intro x hx
    rcases List.mem_cons.mp hx with hx | hx
    · exact hx
    · exact hes x hx

end Verif.Mctp
