import Verif.MctpCtl.Model
/-!
C141: the MCTP control endpoint.
-/
namespace Verif.MctpCtl
open Verif

/-! ### Helper lemmas -/

theorem write2 (buf data : Bytes) (h : 2 + data.length ≤ buf.length) :
    window (writeAt buf 2 data) 0 (2 + data.length) = buf.take 2 ++ data := by
  have h1 : data.take (buf.length - 2) = data := List.take_of_length_le (by omega)
  have h2 : (buf.take 2 ++ data).length = 2 + data.length := by rw [List.length_append, List.length_take]; omega
  simp only [writeAt, h1, window, List.drop_zero]
  rw [List.take_append_of_le_length (by omega), List.take_of_length_le (by omega)]

theorem success_eq (ep : Ep) (ne : Option UInt8) (told : Bool) (buf params : Bytes) (h : 3 + params.length ≤ buf.length) :
    success ep ne told buf params = .ok ⟨ep, buf.take 2 ++ ([0] ++ params), ne, told⟩ := by
  have := write2 buf ([0] ++ params) (by simp only [List.length_append, List.length_cons, List.length_nil]; omega)
  simp only [List.length_append, List.length_cons, List.length_nil] at this
  unfold success
  rw [if_neg (by omega), show 3 + params.length = 2 + (0 + 1 + params.length) by omega, this]

theorem failure_eq (ep : Ep) (ne : Option UInt8) (told : Bool) (b0 b1 b2 b3 : UInt8) (t : Bytes) (code : UInt8) :
    failure ep ne told (b0 :: b1 :: b2 :: b3 :: t) code = .ok ⟨ep, [b0, b1, code, b3], ne, told⟩ := by
  unfold failure
  rw [if_neg (by simp only [List.length_cons]; omega)]
  simp [writeAt, window]

theorem req_bit (inst : UInt8) (h : inst.toNat < 32) :
    (0x80 + inst).toNat / 64 % 2 = 0 ∧ (0x80 + inst).toNat / 32 % 2 = 0 ∧ (0x80 + inst).toNat / 128 = 1 ∧ (0x80 + inst).toNat - 128 = inst.toNat := by
  have : (0x80 + inst).toNat = 128 + inst.toNat := by
    rw [UInt8.toNat_add]
    show (128 + inst.toNat) % 256 = _
    omega
  omega

theorem header_request (inst cmd : UInt8) (t : Bytes) (len : Nat) (hi : inst.toNat < 32) (hl : 2 ≤ len) :
    header ((0x80 + inst) :: cmd :: t) len = .ok (cmd, inst :: cmd :: t) := by
  obtain ⟨h1, h2, h3, h4⟩ := req_bit inst hi
  unfold header
  rw [if_neg (by omega)]
  simp only [List.getD_cons_zero, h1, h2, h3, h4, ne_eq, not_true_eq_false, if_false, Nat.one_ne_zero, List.getD_cons_succ, List.set_cons_zero, UInt8.ofNat_toNat]

theorem four (buf : Bytes) (h : 4 ≤ buf.length) : ∃ b0 b1 b2 b3 t, buf = b0 :: b1 :: b2 :: b3 :: t := by
  match buf, h with
  | b0 :: b1 :: b2 :: b3 :: t, _ => exact ⟨b0, b1, b2, b3, t, rfl⟩

/-- The header is never looked at outside of a buffer with 3 bytes, and the buffer keeps its length. -/
theorem header_cases (buf : Bytes) (len : Nat) (hb : 3 ≤ buf.length) :
    (∃ e, header buf len = .err e) ∨ ∃ c buf', header buf len = .ok (c, buf') ∧ buf'.length = buf.length ∧ c = buf.getD 1 0 ∧ 2 ≤ len ∧ ∀ i, 1 ≤ i → buf'.getD i 0 = buf.getD i 0 := by
  unfold header
  split
  · exact .inl ⟨_, rfl⟩
  · rename_i hl
    dsimp only
    split
    · exact .inl ⟨_, rfl⟩
    · split
      · exact .inl ⟨_, rfl⟩
      · split
        · split
          · omega
          · split
            · exact .inl ⟨_, rfl⟩
            · exact .inr ⟨_, _, rfl, rfl, rfl, by omega, fun _ _ => rfl⟩
        · refine .inr ⟨_, _, rfl, by rw [List.length_set], rfl, by omega, ?_⟩
          intro i hi
          rw [List.getD_eq_getElem?_getD, List.getElem?_set_ne (by omega), ← List.getD_eq_getElem?_getD]

/-! ### Requests and responses -/

/-- The device table after an accepted Set EID: the own EID, and the sender as the bridge. -/
def assigned (devs : List Dev) (eid srcEid srcAddr : UInt8) : List Dev :=
  match devs with
  | own :: _ :: rest => { own with eid := eid } :: ⟨srcEid, srcAddr, 0xff, 5⟩ :: rest
  | _ => devs

/-- The table after a request. -/
def tableAfter (r : Spec.Req) (devs : List Dev) (srcEid srcAddr : UInt8) : List Dev :=
  match r with
  | .setEid _ e => assigned devs e srcEid srcAddr
  | _ => devs

/-- Every good request is answered with the response of the specification. A Set EID makes the EID the own one and the sender the bridge; the others change nothing. -/
theorem answered (vid ver : Nat) (own bridge : Dev) (rest : List Dev) (r : Spec.Req) (inst : UInt8) (tail : Bytes) (srcEid srcAddr : UInt8)
    (hi : inst.toNat < 32) (hg : r.good = true) (hb : 9 ≤ (r.bytes inst ++ tail).length) :
    ∃ o, process ⟨own :: bridge :: rest, vid, ver⟩ ⟨r.bytes inst ++ tail, (r.bytes inst).length, srcEid, srcAddr⟩ true = .ok o ∧
      o.resp = Spec.response inst r.cmd 0 (r.answer own.eid vid ver) ∧ o.ep = ⟨tableAfter r (own :: bridge :: rest) srcEid srcAddr, vid, ver⟩ := by
  cases r with
  | setEid force eid =>
    simp only [Spec.Req.good, Bool.and_eq_true, decide_eq_true_eq, ne_eq] at hg
    refine ⟨⟨⟨tableAfter (.setEid force eid) (own :: bridge :: rest) srcEid srcAddr, vid, ver⟩, _, some eid, true⟩, ?_, rfl, rfl⟩
    simp only [process, Spec.Req.bytes, Spec.Req.cmd, Spec.Req.body, List.cons_append, List.nil_append, List.length_cons, List.length_nil] at hb ⊢
    rw [header_request _ _ _ _ hi (by omega)]
    simp only [Res.bind, if_true]
    unfold setEid
    have hop : ∀ b : Bool, (if b then (1 : UInt8) else 0).toNat / 4 = 0 ∧ (if b then (1 : UInt8) else 0).toNat % 4 ≤ 1 := by decide
    obtain ⟨ho1, ho2⟩ := hop force
    have hcond : ¬ (((if force then (1 : UInt8) else 0).toNat / 4 ≠ 0 ∨ 1 < (if force then (1 : UInt8) else 0).toNat % 4 ∨ eid = 0 ∨ eid = 0xff)) := by
      rintro (h | h | h | h)
      · exact h ho1
      · omega
      · exact hg.1 h
      · exact hg.2 h
    have hlen : ¬ ((Msg.mk ((0x80 + inst) :: 1 :: (if force then 1 else 0) :: eid :: tail) (0 + 1 + 1 + 1 + 1) srcEid srcAddr).len ≠ 4) := fun h => h rfl
    rw [if_neg hlen]
    simp only [List.getD_cons_succ, List.getD_cons_zero]
    rw [if_neg hcond]
    simp only [updateOwn, updateBridge, List.modify_zero_cons, List.length_cons]
    rw [if_neg (by omega)]
    simp only [List.set_cons_succ, List.set_cons_zero, Bool.not_true, Bool.false_eq_true, if_false]
    rw [success_eq _ _ _ _ _ (by simp only [List.length_cons, List.length_nil]; omega)]
    rfl
  | getEid =>
    refine ⟨⟨⟨own :: bridge :: rest, vid, ver⟩, _, none, false⟩, ?_, rfl, rfl⟩
    simp only [process, Spec.Req.bytes, Spec.Req.cmd, Spec.Req.body, List.cons_append, List.nil_append, List.length_cons, List.length_nil] at hb ⊢
    rw [header_request _ _ _ _ hi (by omega)]
    simp only [Res.bind, if_true, if_neg (show ¬ ((2 : UInt8) = 1) by decide)]
    simp only [getEid, Nat.zero_add, Nat.reduceAdd, ne_eq, not_true_eq_false, if_false]
    rw [success_eq _ _ _ _ _ (by simp only [List.length_cons, List.length_nil]; omega)]
    rfl
  | version t =>
    refine ⟨⟨⟨own :: bridge :: rest, vid, ver⟩, _, none, false⟩, ?_, rfl, rfl⟩
    simp only [Spec.Req.good, Bool.or_eq_true, decide_eq_true_eq] at hg
    simp only [process, Spec.Req.bytes, Spec.Req.cmd, Spec.Req.body, List.cons_append, List.nil_append, List.length_cons, List.length_nil] at hb ⊢
    rw [header_request _ _ _ _ hi (by omega)]
    simp only [Res.bind, if_true, if_neg (show ¬ ((4 : UInt8) = 1) by decide), if_neg (show ¬ ((4 : UInt8) = 2) by decide)]
    simp only [getVersion, Nat.zero_add, Nat.reduceAdd, ne_eq, not_true_eq_false, if_false, List.getD_cons_succ, List.getD_cons_zero]
    rcases hg with ((rfl | rfl) | rfl) | rfl
    · rw [if_pos rfl, success_eq _ _ _ _ _ (by simp only [List.length_cons, List.length_nil]; omega)]; rfl
    · rw [if_neg (by decide), if_pos rfl, success_eq _ _ _ _ _ (by simp only [List.length_cons, List.length_nil]; omega)]; rfl
    · rw [if_neg (by decide), if_neg (by decide), if_pos rfl, success_eq _ _ _ _ _ (by simp only [List.length_cons, List.length_nil]; omega)]; rfl
    · rw [if_neg (by decide), if_neg (by decide), if_neg (by decide), if_pos rfl, success_eq _ _ _ _ _ (by simp only [List.length_cons, List.length_nil]; omega)]; rfl
  | types =>
    refine ⟨⟨⟨own :: bridge :: rest, vid, ver⟩, _, none, false⟩, ?_, rfl, rfl⟩
    simp only [process, Spec.Req.bytes, Spec.Req.cmd, Spec.Req.body, List.cons_append, List.nil_append, List.length_cons, List.length_nil] at hb ⊢
    rw [header_request _ _ _ _ hi (by omega)]
    simp only [Res.bind, if_true, if_neg (show ¬ ((5 : UInt8) = 1) by decide), if_neg (show ¬ ((5 : UInt8) = 2) by decide), if_neg (show ¬ ((5 : UInt8) = 4) by decide)]
    simp only [getTypes, Nat.zero_add, Nat.reduceAdd, ne_eq, not_true_eq_false, if_false]
    rw [success_eq _ _ _ _ _ (by simp only [List.length_cons, List.length_nil]; omega)]
    rfl
  | vendor sel =>
    refine ⟨⟨⟨own :: bridge :: rest, vid, ver⟩, _, none, false⟩, ?_, rfl, rfl⟩
    simp only [Spec.Req.good, decide_eq_true_eq] at hg
    subst hg
    simp only [process, Spec.Req.bytes, Spec.Req.cmd, Spec.Req.body, List.cons_append, List.nil_append, List.length_cons, List.length_nil] at hb ⊢
    rw [header_request _ _ _ _ hi (by omega)]
    simp only [Res.bind, if_true, if_neg (show ¬ ((6 : UInt8) = 1) by decide), if_neg (show ¬ ((6 : UInt8) = 2) by decide), if_neg (show ¬ ((6 : UInt8) = 4) by decide), if_neg (show ¬ ((6 : UInt8) = 5) by decide)]
    simp only [getVendor, Nat.zero_add, Nat.reduceAdd, ne_eq, not_true_eq_false, if_false, List.getD_cons_succ, List.getD_cons_zero]
    rw [success_eq _ _ _ _ _ (by simp only [List.length_append, toBE_length, List.length_cons, List.length_nil]; omega)]
    rfl

/-- A request that cannot be met gets the completion code for it and changes nothing. The response has one byte more than it should. -/
theorem refused_partial (vid ver : Nat) (devs : List Dev) (r : Spec.Req) (inst : UInt8) (tail : Bytes) (srcEid srcAddr : UInt8) (ck : Bool)
    (hi : inst.toNat < 32) (hg : r.good = false) (hb : 4 ≤ (r.bytes inst ++ tail).length) :
    ∃ o x, process ⟨devs, vid, ver⟩ ⟨r.bytes inst ++ tail, (r.bytes inst).length, srcEid, srcAddr⟩ ck = .ok o ∧
      o.resp = Spec.response inst r.cmd r.refusal [x] ∧ o.ep = ⟨devs, vid, ver⟩ := by
  cases r with
  | getEid => cases hg
  | types => cases hg
  | setEid force eid =>
    have hg' : eid = 0 ∨ eid = 0xff := by
      simp only [Spec.Req.good, Bool.and_eq_false_iff, decide_eq_false_iff_not, ne_eq, Decidable.not_not] at hg
      exact hg
    simp only [process, Spec.Req.bytes, Spec.Req.cmd, Spec.Req.body, List.cons_append, List.nil_append, List.length_cons, List.length_nil] at hb ⊢
    rw [header_request _ _ _ _ hi (by omega)]
    simp only [Res.bind, if_true]
    unfold setEid
    have hlen : ¬ ((Msg.mk ((0x80 + inst) :: 1 :: (if force then 1 else 0) :: eid :: tail) (0 + 1 + 1 + 1 + 1) srcEid srcAddr).len ≠ 4) := fun h => h rfl
    rw [if_neg hlen]
    simp only [List.getD_cons_succ, List.getD_cons_zero]
    rw [if_pos (.inr (.inr hg')), failure_eq]
    exact ⟨_, _, rfl, rfl, rfl⟩
  | version t =>
    simp only [Spec.Req.good, Bool.or_eq_false_iff, decide_eq_false_iff_not] at hg
    simp only [process, Spec.Req.bytes, Spec.Req.cmd, Spec.Req.body, List.cons_append, List.nil_append, List.length_cons, List.length_nil] at hb ⊢
    rw [header_request _ _ _ _ hi (by omega)]
    simp only [Res.bind, if_true, if_neg (show ¬ ((4 : UInt8) = 1) by decide), if_neg (show ¬ ((4 : UInt8) = 2) by decide)]
    simp only [getVersion, Nat.zero_add, Nat.reduceAdd, ne_eq, not_true_eq_false, if_false, List.getD_cons_succ, List.getD_cons_zero]
    rw [if_neg hg.1.1.1, if_neg hg.1.1.2, if_neg hg.1.2, if_neg hg.2]
    cases tail with
    | nil => simp only [List.length_nil] at hb; omega
    | cons x tail => rw [failure_eq]; exact ⟨_, _, rfl, rfl, rfl⟩
  | vendor sel =>
    simp only [Spec.Req.good, decide_eq_false_iff_not] at hg
    simp only [process, Spec.Req.bytes, Spec.Req.cmd, Spec.Req.body, List.cons_append, List.nil_append, List.length_cons, List.length_nil] at hb ⊢
    rw [header_request _ _ _ _ hi (by omega)]
    simp only [Res.bind, if_true, if_neg (show ¬ ((6 : UInt8) = 1) by decide), if_neg (show ¬ ((6 : UInt8) = 2) by decide), if_neg (show ¬ ((6 : UInt8) = 4) by decide), if_neg (show ¬ ((6 : UInt8) = 5) by decide)]
    simp only [getVendor, Nat.zero_add, Nat.reduceAdd, ne_eq, not_true_eq_false, if_false, List.getD_cons_succ, List.getD_cons_zero]
    rw [if_pos hg]
    cases tail with
    | nil => simp only [List.length_nil] at hb; omega
    | cons x tail => rw [failure_eq]; exact ⟨_, _, rfl, rfl, rfl⟩

/-- The length of a request with this command. -/
def requestLen (cmd : UInt8) : Option Nat :=
  if cmd = 1 then some 4 else if cmd = 2 ∨ cmd = 5 then some 2 else if cmd = 4 ∨ cmd = 6 then some 3 else none

/-- Requests with another length get completion code 3, unknown commands code 5; nothing changes. -/
theorem malformed_partial (ep : Ep) (inst cmd b2 b3 : UInt8) (tail : Bytes) (len : Nat) (srcEid srcAddr : UInt8) (ck : Bool)
    (hi : inst.toNat < 32) (hl : 2 ≤ len) (hr : requestLen cmd ≠ some len) :
    ∃ o, process ep ⟨(0x80 + inst) :: cmd :: b2 :: b3 :: tail, len, srcEid, srcAddr⟩ ck = .ok o ∧
      o.resp = Spec.response inst cmd (if requestLen cmd = none then 5 else 3) [b3] ∧ o.ep = ep := by
  simp only [process]
  rw [header_request _ _ _ _ hi hl]
  simp only [Res.bind]
  by_cases h1 : cmd = 1
  · subst h1
    rw [if_pos rfl, setEid, if_pos (show len ≠ 4 from fun h => hr (by rw [h]; rfl)), failure_eq]
    exact ⟨_, rfl, rfl, rfl⟩
  rw [if_neg h1]
  by_cases h2 : cmd = 2
  · subst h2
    rw [if_pos rfl, getEid, if_pos (show len ≠ 2 from fun h => hr (by rw [h]; rfl)), failure_eq]
    exact ⟨_, rfl, rfl, rfl⟩
  rw [if_neg h2]
  by_cases h4 : cmd = 4
  · subst h4
    rw [if_pos rfl, getVersion, if_pos (show len ≠ 3 from fun h => hr (by rw [h]; rfl)), failure_eq]
    exact ⟨_, rfl, rfl, rfl⟩
  rw [if_neg h4]
  by_cases h5 : cmd = 5
  · subst h5
    rw [if_pos rfl, getTypes, if_pos (show len ≠ 2 from fun h => hr (by rw [h]; rfl)), failure_eq]
    exact ⟨_, rfl, rfl, rfl⟩
  rw [if_neg h5]
  by_cases h6 : cmd = 6
  · subst h6
    rw [if_pos rfl, getVendor, if_pos (show len ≠ 3 from fun h => hr (by rw [h]; rfl)), failure_eq]
    exact ⟨_, rfl, rfl, rfl⟩
  rw [if_neg h6, failure_eq]
  have : requestLen cmd = none := by
    unfold requestLen
    rw [if_neg h1, if_neg (fun h => h.elim h2 h5), if_neg (fun h => h.elim h4 h6)]
  exact ⟨_, rfl, by rw [if_pos this]; rfl, rfl⟩

theorem failure_ep {ep : Ep} {ne : Option UInt8} {told : Bool} {buf : Bytes} {code : UInt8} {o : Out} (h : failure ep ne told buf code = .ok o) : o.ep = ep := by
  unfold failure at h
  split at h
  · cases h
  · rw [← Res.ok.inj h]

theorem success_ep {ep : Ep} {ne : Option UInt8} {told : Bool} {buf params : Bytes} {o : Out} (h : success ep ne told buf params = .ok o) : o.ep = ep := by
  unfold success at h
  split at h
  · cases h
  · rw [← Res.ok.inj h]

/-- Whatever the message, the device table changes only for a Set EID of the right length with operation 0 or 1 and an EID other than 0 and 0xFF. -/
theorem only_set_eid (ep : Ep) (m : Msg) (ck : Bool) (o : Out) (hb : 4 ≤ m.buf.length) (h : process ep m ck = .ok o) (hc : o.ep ≠ ep) :
    m.len = 4 ∧ m.buf.getD 1 0 = 1 ∧ (m.buf.getD 2 0).toNat ≤ 1 ∧ m.buf.getD 3 0 ≠ 0 ∧ m.buf.getD 3 0 ≠ 0xff := by
  simp only [process] at h
  rcases header_cases m.buf m.len (by omega) with ⟨e, hh⟩ | ⟨c, buf', hh, hlen, hcc, _, hget⟩
  · rw [hh] at h; cases h
  rw [hh] at h
  simp only [Res.bind] at h
  split at h
  · rename_i h1
    unfold setEid at h
    split at h
    · exact absurd (failure_ep h) hc
    · rename_i hl
      split at h
      · exact absurd (failure_ep h) hc
      · rename_i hn
        rw [hget 2 (by omega), hget 3 (by omega)] at hn
        refine ⟨Decidable.not_not.mp hl, by rw [← hcc, h1], ?_, fun e => hn (.inr (.inr (.inl e))), fun e => hn (.inr (.inr (.inr e)))⟩
        have a1 : (m.buf.getD 2 0).toNat / 4 = 0 := Decidable.not_not.mp fun e => hn (.inl e)
        have a2 : ¬ 1 < (m.buf.getD 2 0).toNat % 4 := fun e => hn (.inr (.inl e))
        omega
  · refine absurd ?_ hc
    split at h
    · unfold getEid at h
      split at h
      · exact failure_ep h
      · split at h
        · exact failure_ep h
        · exact success_ep h
    · split at h
      · unfold getVersion at h
        split at h
        · exact failure_ep h
        · dsimp only at h
          split at h
          · exact success_ep h
          · split at h
            · exact success_ep h
            · split at h
              · exact success_ep h
              · split at h
                · exact success_ep h
                · exact failure_ep h
      · split at h
        · unfold getTypes at h
          split at h
          · exact failure_ep h
          · exact success_ep h
        · split at h
          · unfold getVendor at h
            split at h
            · exact failure_ep h
            · split at h
              · exact failure_ep h
              · exact success_ep h
          · exact failure_ep h

/-- With 9 bytes of buffer nothing is read or written outside of it. -/
theorem in_buffer (ep : Ep) (m : Msg) (ck : Bool) (hb : 9 ≤ m.buf.length) : process ep m ck ≠ .oob := by
  have hf : ∀ (ep : Ep) ne told (buf : Bytes) code, buf.length = m.buf.length → failure ep ne told buf code ≠ .oob := by
    intro ep ne told buf code hl
    unfold failure
    rw [if_neg (by omega)]
    intro h; cases h
  have hs : ∀ (ep : Ep) ne told (buf params : Bytes), buf.length = m.buf.length → params.length ≤ 6 → success ep ne told buf params ≠ .oob := by
    intro ep ne told buf params hl hp
    unfold success
    rw [if_neg (by omega)]
    intro h; cases h
  simp only [process]
  rcases header_cases m.buf m.len (by omega) with ⟨e, hh⟩ | ⟨c, buf', hh, hlen, _⟩
  · rw [hh]; intro h; cases h
  rw [hh]
  simp only [Res.bind]
  split
  · unfold setEid
    split
    · exact hf _ _ _ _ _ hlen
    · split
      · exact hf _ _ _ _ _ hlen
      · split
        · exact hf _ _ _ _ _ hlen
        · dsimp only
          split
          · exact hf _ _ _ _ _ hlen
          · exact hs _ _ _ _ _ hlen (by simp)
  · split
    · unfold getEid
      split
      · exact hf _ _ _ _ _ hlen
      · split
        · exact hf _ _ _ _ _ hlen
        · exact hs _ _ _ _ _ hlen (by simp)
    · split
      · unfold getVersion
        split
        · exact hf _ _ _ _ _ hlen
        · dsimp only
          split
          · exact hs _ _ _ _ _ hlen (by simp)
          · split
            · exact hs _ _ _ _ _ hlen (by simp)
            · split
              · exact hs _ _ _ _ _ hlen (by simp)
              · split
                · exact hs _ _ _ _ _ hlen (by simp)
                · exact hf _ _ _ _ _ hlen
      · split
        · unfold getTypes
          split
          · exact hf _ _ _ _ _ hlen
          · exact hs _ _ _ _ _ hlen (by simp)
        · split
          · unfold getVendor
            split
            · exact hf _ _ _ _ _ hlen
            · split
              · exact hf _ _ _ _ _ hlen
              · exact hs _ _ _ _ _ hlen (by simp)
          · exact hf _ _ _ _ _ hlen

/-! ### Histories -/

/-- A request of a history, with what is in the buffer behind it. -/
structure Event where
  req : Spec.Req
  inst : UInt8
  tail : Bytes
  srcEid : UInt8
  srcAddr : UInt8

/-- The endpoint after a history; requests that are not processed leave it as it is. -/
def run (ep : Ep) : List Event → Ep
  | [] => ep
  | e :: es => match process ep ⟨e.req.bytes e.inst ++ e.tail, (e.req.bytes e.inst).length, e.srcEid, e.srcAddr⟩ true with
    | .ok o => run o.ep es
    | _ => run ep es

/-- The EID assigned last. -/
def lastEid (own : UInt8) : List Event → UInt8
  | [] => own
  | e :: es => match e.req with
    | .setEid _ eid => lastEid (if eid = 0 ∨ eid = 0xff then own else eid) es
    | _ => lastEid own es

/-- After any history of requests the own EID is the one assigned last. -/
theorem eid_history (es : List Event) : ∀ (own bridge : Dev) (rest : List Dev) (vid ver : Nat),
    (∀ e ∈ es, e.inst.toNat < 32 ∧ 9 ≤ (e.req.bytes e.inst ++ e.tail).length) →
    ∃ own' bridge', run ⟨own :: bridge :: rest, vid, ver⟩ es = ⟨own' :: bridge' :: rest, vid, ver⟩ ∧ own'.eid = lastEid own.eid es := by
  induction es with
  | nil => intro own bridge rest vid ver _; exact ⟨own, bridge, rfl, rfl⟩
  | cons e es ih =>
    intro own bridge rest vid ver hall
    obtain ⟨hi, hb⟩ := hall e (List.mem_cons_self ..)
    have hrest : ∀ x ∈ es, x.inst.toNat < 32 ∧ 9 ≤ (x.req.bytes x.inst ++ x.tail).length := fun x hx => hall x (List.mem_cons_of_mem _ hx)
    simp only [run]
    cases hg : e.req.good with
    | false =>
      obtain ⟨o, x, hp, _, he⟩ := refused_partial vid ver (own :: bridge :: rest) e.req e.inst e.tail e.srcEid e.srcAddr true hi hg (by omega)
      rw [hp]
      simp only [he]
      obtain ⟨o1, b1, h1, h2⟩ := ih own bridge rest vid ver hrest
      refine ⟨o1, b1, h1, ?_⟩
      rw [h2]
      simp only [lastEid]
      cases hr : e.req with
      | setEid f eid =>
        rw [hr] at hg
        have hg' : eid = 0 ∨ eid = 0xff := by
          simp only [Spec.Req.good, Bool.and_eq_false_iff, decide_eq_false_iff_not, ne_eq, Decidable.not_not] at hg
          exact hg
        simp only [if_pos hg']
      | getEid => rfl
      | types => rfl
      | version t => rfl
      | vendor s => rfl
    | true =>
      obtain ⟨o, hp, _, he⟩ := answered vid ver own bridge rest e.req e.inst e.tail e.srcEid e.srcAddr hi hg hb
      rw [hp]
      simp only [he]
      cases hr : e.req with
      | setEid f eid =>
        rw [hr] at hg
        have hg' : ¬ (eid = 0 ∨ eid = 0xff) := by
          simp only [Spec.Req.good, Bool.and_eq_true, decide_eq_true_eq, ne_eq] at hg
          rintro (h | h)
          · exact hg.1 h
          · exact hg.2 h
        simp only [tableAfter, assigned, lastEid, hr, if_neg hg']
        exact ih { own with eid := eid } _ rest vid ver hrest
      | getEid => simp only [tableAfter, lastEid, hr]; exact ih own bridge rest vid ver hrest
      | types => simp only [tableAfter, lastEid, hr]; exact ih own bridge rest vid ver hrest
      | version t => simp only [tableAfter, lastEid, hr]; exact ih own bridge rest vid ver hrest
      | vendor s => simp only [tableAfter, lastEid, hr]; exact ih own bridge rest vid ver hrest

/-! ### Responses of others -/

theorem ranges_encode (es : List Spec.Entry) (h : ∀ e ∈ es, e.rest.length = 5) :
    ranges es.length (es.flatMap fun e => e.range.size :: e.range.start :: e.rest) = es.map (·.range) := by
  induction es with
  | nil => rfl
  | cons e es ih =>
    have he := h e (List.mem_cons_self ..)
    simp only [List.length_cons, ranges, List.flatMap_cons, List.cons_append, List.nil_append, List.getD_cons_succ, List.getD_cons_zero, List.map_cons]
    congr 1
    rw [← ih (fun x hx => h x (List.mem_cons_of_mem _ hx))]
    congr 1
    simp only [List.drop_succ_cons]
    rw [List.drop_append, he, List.drop_eq_nil_of_le (by omega), List.nil_append, Nat.sub_self, List.drop_zero]

theorem entries_length (es : List Spec.Entry) (h : ∀ e ∈ es, e.rest.length = 5) :
    (es.flatMap fun e => e.range.size :: e.range.start :: e.rest).length = 7 * es.length := by
  induction es with
  | nil => rfl
  | cons e es ih =>
    simp only [List.flatMap_cons, List.length_append, List.length_cons, List.length_nil, ih (fun x hx => h x (List.mem_cons_of_mem _ hx)), h e (List.mem_cons_self ..)]
    omega

/-- A routing table response with at least one entry is understood as what it says. -/
theorem routing_understood (inst next : UInt8) (es : List Spec.Entry) (hn : es ≠ []) (hl : es.length < 256) (h : ∀ e ∈ es, e.rest.length = 5) :
    parseRouting (Spec.routing inst next es) = some ⟨next, es.map (·.range)⟩ := by
  have hpos := List.length_pos_iff.mpr hn
  have hcount : (UInt8.ofNat es.length).toNat = es.length := by
    show es.length % 256 = _
    exact Nat.mod_eq_of_lt hl
  have hok : routingOk (Spec.routing inst next es) = true := by
    simp only [routingOk, Spec.routing, Spec.response, List.cons_append, List.nil_append, List.length_cons, List.getD_cons_succ, List.getD_cons_zero, entries_length es h, hcount,
      Bool.and_eq_true, decide_eq_true_eq]
    omega
  unfold parseRouting
  rw [if_pos hok]
  simp only [Spec.routing, Spec.response, List.cons_append, List.nil_append, List.getD_cons_succ, List.getD_cons_zero, List.drop_succ_cons, List.drop_zero, hcount, ranges_encode es h]

/-- What is accepted as a routing table response has exactly the entries it declares, and at least one. -/
theorem routing_accepted (p : Bytes) (pg : Discovery.Spec.Page) (h : parseRouting p = some pg) :
    pg.ranges ≠ [] ∧ p.length = 5 + 7 * pg.ranges.length ∧ pg.next = p.getD 3 0 := by
  unfold parseRouting at h
  split at h
  · rename_i hok
    have := Option.some.inj h
    subst this
    simp only [routingOk, Bool.and_eq_true, decide_eq_true_eq] at hok
    have hr : ∀ k b, (ranges k b).length = k := by
      intro k
      induction k with
      | zero => intro b; rfl
      | succ k ih => intro b; simp only [ranges, List.length_cons, ih]
    refine ⟨?_, by rw [hr]; exact hok.2, rfl⟩
    intro he
    have := hr (p.getD 4 0).toNat (p.drop 5)
    rw [show ranges (p.getD 4 0).toNat (p.drop 5) = [] from he] at this
    simp only [List.length_nil] at this
    omega
  · cases h

/-- The responses of this endpoint are accepted by the checks for such responses. -/
theorem own_responses_accepted (inst own : UInt8) (vid ver : Nat) :
    typesOk (Spec.response inst 5 0 (Spec.Req.answer own vid ver .types)) = true ∧
    vendorOk (Spec.response inst 6 0 (Spec.Req.answer own vid ver (.vendor 0))) = true := by
  constructor
  · rfl
  · simp only [vendorOk, Spec.response, Spec.Req.answer, List.cons_append, List.nil_append, List.length_cons, List.length_append, toBE_length, List.getD_cons_succ, List.getD_cons_zero]
    decide

/-- The requests this endpoint sends are the requests of the specification with instance 0. -/
theorem own_requests : request 5 [] = Spec.Req.bytes 0 .types ∧ ∀ s, request 6 [s] = Spec.Req.bytes 0 (.vendor s) := ⟨rfl, fun _ => rfl⟩

/-! ### Cases that meet the hypotheses -/

def exEp : Ep := ⟨[⟨8, 0x41, 0xff, 5⟩, ⟨9, 0x20, 0xff, 5⟩, ⟨0x30, 0x20, 3, 2⟩], 0x1414, 4⟩

/-- A buffer of 16 bytes. -/
def exBuf (r : Spec.Req) : Bytes := r.bytes 3 ++ List.replicate (16 - (r.bytes 3).length) 0xaa

example : process exEp ⟨exBuf (.setEid false 0x1d), 4, 0x0b, 0x51⟩ true
    = .ok ⟨⟨[⟨0x1d, 0x41, 0xff, 5⟩, ⟨0x0b, 0x51, 0xff, 5⟩, ⟨0x30, 0x20, 3, 2⟩], 0x1414, 4⟩, [3, 1, 0, 0, 0x1d, 0], some 0x1d, true⟩ := by decide
example : process exEp ⟨exBuf (.vendor 0), 3, 9, 0x20⟩ true = .ok ⟨exEp, [3, 6, 0, 0xff, 0, 0x14, 0x14, 0, 4], none, false⟩ := by decide
example : process exEp ⟨exBuf .getEid, 2, 9, 0x20⟩ true = .ok ⟨exEp, [3, 2, 0, 8, 1, 0], none, false⟩ := by decide
example : process exEp ⟨exBuf (.version 9), 3, 9, 0x20⟩ true = .ok ⟨exEp, [3, 4, 0x80, 0xaa], none, false⟩ := by decide
example : requestLen 3 = none ∧ requestLen 4 = some 3 ∧ Spec.Req.good (.version 5) = true ∧ Spec.Req.good (.setEid true 0xff) = false := by decide
example : lastEid 8 [⟨.setEid false 0x1d, 0, [], 0, 0⟩, ⟨.setEid true 0, 0, [], 0, 0⟩, ⟨.getEid, 0, [], 0, 0⟩] = 0x1d := by decide
example : parseRouting (Spec.routing 0 0xff [⟨⟨0x20, 2⟩, [1, 2, 3, 4, 5]⟩]) = some ⟨0xff, [⟨0x20, 2⟩]⟩ := by decide

/-! ### What is false -/

/-- A failure is not answered with three bytes: the fourth is a byte of the buffer, behind the request here. -/
theorem counterexample_stale_byte (x : UInt8) (t : Bytes) :
    process exEp ⟨0x80 :: 4 :: 9 :: x :: t, 3, 9, 0x20⟩ true = .ok ⟨exEp, [0, 4, 0x80, x], none, false⟩ := by
  have h := header_request 0 4 (9 :: x :: t) 3 (by decide) (by omega)
  rw [show (0x80 + 0 : UInt8) = 0x80 from rfl] at h
  simp only [process]
  rw [h]
  simp only [Res.bind, if_true, if_neg (show ¬ ((4 : UInt8) = 1) by decide), if_neg (show ¬ ((4 : UInt8) = 2) by decide)]
  simp only [getVersion, ne_eq, not_true_eq_false, if_false, List.getD_cons_succ, List.getD_cons_zero]
  rw [if_neg (by decide), if_neg (by decide), if_neg (by decide), if_neg (by decide), failure_eq]

/-- Not only requests are answered: a message that is a response (to Set EID, successful) is processed as a request, and changes the own EID. -/
theorem counterexample_response_processed :
    process exEp ⟨[3, 1, 0, 0x1d, 0xaa, 0xaa, 0xaa, 0xaa, 0xaa], 4, 0x0b, 0x51⟩ true
      = .ok ⟨⟨[⟨0x1d, 0x41, 0xff, 5⟩, ⟨0x0b, 0x51, 0xff, 5⟩, ⟨0x30, 0x20, 3, 2⟩], 0x1414, 4⟩, [3, 1, 0, 0, 0x1d, 0], some 0x1d, true⟩ := by decide

/-- A Set EID that is answered with an error can have changed the own EID, here because there is no entry for the bridge. -/
theorem counterexample_failed_but_changed :
    process { exEp with devs := [⟨8, 0x41, 0xff, 5⟩] } ⟨exBuf (.setEid false 0x1d), 4, 0x0b, 0x51⟩ true
      = .ok ⟨⟨[⟨0x1d, 0x41, 0xff, 5⟩], 0x1414, 4⟩, [3, 1, 1, 0x1d], some 0x1d, true⟩ := by decide

/-- The observers of Set EID requests are told of refused ones. -/
theorem counterexample_told_refused :
    ∃ o, process exEp ⟨exBuf (.setEid false 0xff), 4, 0x0b, 0x51⟩ true = .ok o ∧ o.ep = exEp ∧ o.told = true := by
  refine ⟨⟨exEp, [3, 1, 2, 0xff], none, true⟩, by decide, rfl, rfl⟩

/-- Reserved EIDs (1 to 7) are accepted. -/
theorem counterexample_reserved_eid :
    ∃ o, process exEp ⟨exBuf (.setEid false 1), 4, 0x0b, 0x51⟩ true = .ok o ∧ o.newEid = some 1 := by
  refine ⟨⟨⟨[⟨1, 0x41, 0xff, 5⟩, ⟨0x0b, 0x51, 0xff, 5⟩, ⟨0x30, 0x20, 3, 2⟩], 0x1414, 4⟩, [3, 1, 0, 0, 1, 0], some 1, true⟩, by decide, rfl⟩

/-- A routing table without entries is refused. -/
theorem counterexample_empty_routing (inst next : UInt8) : parseRouting (Spec.routing inst next []) = none := rfl

end Verif.MctpCtl
