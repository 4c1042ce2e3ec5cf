import Verif.CmdMsg.Spec
/-! Property C53: message descriptors. -/
namespace Verif.CmdMsg

theorem off_le (m : Msg) : m.off ≤ m.maxResponse ∨ getMaxResponse m = 0 := by
  unfold getMaxResponse protocolLength
  split
  · left; assumption
  · right; rfl

theorem max_le (m : Msg) (h : m.maxResponse ≤ m.buf.length) (n : Nat) (hn : n ≤ getMaxResponse m) (hpos : 0 < n) : m.off + n ≤ m.buf.length := by
  unfold getMaxResponse protocolLength at hn
  split at hn <;> omega

/-- C53: every operation keeps payload and response space inside the buffer if it is allowed and, for setting a length, the payload starts inside the
buffer, which `Inside` says; none of them writes outside. -/
theorem inside_step (m : Msg) (op : Op) (h : Inside m) (ha : Allowed m op) :
    ∃ m', step m op = some m' ∧ Inside m' ∧ m'.buf.length = m.buf.length := by
  obtain ⟨h1, h2⟩ := h
  cases op with
  | new => exact ⟨_, rfl, ⟨by simp [newMessage], h2⟩, rfl⟩
  | addData d =>
    simp only [step, addPayloadData]
    by_cases hd : d = []
    · rw [if_pos hd]; exact ⟨m, rfl, ⟨h1, h2⟩, rfl⟩
    · rw [if_neg hd]
      have hlen : 0 < d.length := List.length_pos_iff.2 hd
      have := max_le m h2 (m.payloadLength + d.length) ha (by omega)
      rw [if_neg (by omega)]
      refine ⟨_, rfl, ⟨?_, ?_⟩, ?_⟩
      · simp; omega
      · simpa using h2
      · simp
  | setLength n =>
    refine ⟨_, rfl, ⟨?_, h2⟩, rfl⟩
    simp only [setPayloadLength]
    by_cases hn : n = 0
    · omega
    · exact max_le m h2 n ha (by omega)
  | remove k =>
    refine ⟨_, rfl, ⟨?_, h2⟩, rfl⟩
    simp only [removeHeader]
    split <;> omega
  | add k =>
    refine ⟨_, rfl, ⟨?_, h2⟩, rfl⟩
    simp only [addHeader]
    split <;> omega
  | setMax n =>
    refine ⟨_, rfl, ⟨?_, ?_⟩, ?_⟩
    · unfold setMaxResponse; dsimp only; split <;> exact h1
    · unfold setMaxResponse; dsimp only; split
      · dsimp only; omega
      · exact h2
    · unfold setMaxResponse; dsimp only; split <;> rfl

/-- C53: after any sequence of allowed operations payload and response space are inside the buffer, and the next allowed operation does not write
outside. -/
theorem stays_inside {m m' : Msg} (hr : Run m m') (h : Inside m) :
    Inside m' ∧ m'.buf.length = m.buf.length ∧ ∀ op, Allowed m' op → step m' op ≠ none := by
  have : Inside m' ∧ m'.buf.length = m.buf.length := by
    induction hr with
    | refl => exact ⟨h, rfl⟩
    | next op _ ha hs ih =>
      obtain ⟨m3, h1, h2, h3⟩ := inside_step _ op ih.1 ha
      rw [hs] at h1
      cases h1
      exact ⟨h2, h3.trans ih.2⟩
  refine ⟨this.1, this.2, ?_⟩
  intro op ha hn
  obtain ⟨m3, h1, _⟩ := inside_step _ op this.1 ha
  rw [hn] at h1
  cases h1

example : ∃ m', Run ⟨[1, 2, 3, 4, 5, 6, 7, 8], 6, 8, 0, 6⟩ m' ∧ m' = ⟨[1, 2, 3, 4, 5, 9, 9, 8], 7, 8, 0, 7⟩ ∧ Inside ⟨[1, 2, 3, 4, 5, 6, 7, 8], 6, 8, 0, 6⟩ := by
  refine ⟨_, .next (.add 9) (.next (.addData [9, 9]) (.next (.setLength 3) (.next (.remove 2) .refl trivial rfl) ?_ rfl) ?_ rfl) trivial rfl, ?_, ?_⟩
  · show 3 ≤ _; decide
  · show 3 + 2 ≤ _; decide
  · decide
  · exact ⟨by decide, by decide⟩

/-- C53: the header operations never change the contents of the buffer, and what they move is moved between headers and payload only: headers and
payload together stay the same. -/
theorem headers_payload_kept (m : Msg) (k : Nat) :
    headers (removeHeader m k) ++ payload (removeHeader m k) = headers m ++ payload m ∧
    headers (addHeader m k) ++ payload (addHeader m k) = headers m ++ payload m ∧
    (removeHeader m k).buf = m.buf ∧ (addHeader m k).buf = m.buf := by
  have key : ∀ a b : Nat, m.buf.take a ++ window m.buf a b = m.buf.take (a + b) := by
    intro a b
    rw [window, ← List.take_add]
  refine ⟨?_, ?_, rfl, rfl⟩
  · simp only [headers, payload, removeHeader, key]
    congr 1
    split <;> omega
  · simp only [headers, payload, addHeader, key]
    congr 1
    split <;> omega

/-- C53: adding a header that was removed gives the message back. The message must be no shorter than its payload, and the header no longer than the
payload. -/
theorem remove_add (m : Msg) (k : Nat) (hk : k ≤ m.payloadLength) (hl : m.payloadLength ≤ m.length) : addHeader (removeHeader m k) k = m := by
  obtain ⟨b, l, x, o, p⟩ := m
  simp only [removeHeader, addHeader] at *
  rw [if_neg (show ¬ k > p by omega), if_neg (show ¬ o + k < k by omega)]
  have e1 : o + k - k = o := by omega
  have e2 : p - k + k = p := by omega
  have e3 : (if l = p - k then l + k else l) = l := by split <;> omega
  rw [e1, e2, e3]

example : (4 : Nat) ≤ (Msg.mk [1, 2, 3, 4, 5, 6] 6 6 0 6).payloadLength ∧ removeHeader (Msg.mk [1, 2, 3, 4, 5, 6] 6 6 0 6) 4 = ⟨[1, 2, 3, 4, 5, 6], 6, 6, 4, 2⟩ := by
  decide

theorem addAll_response (l : List Nat) : ∀ m : Msg, m.length = m.payloadLength → l.sum ≤ m.off →
    addAll m l = { m with off := m.off - l.sum, length := m.length + l.sum, payloadLength := m.payloadLength + l.sum } := by
  induction l with
  | nil => intro m _ _; simp [addAll]
  | cons a l ih =>
    intro m hm hs
    simp only [List.sum_cons] at hs
    have e : addHeader m a = { m with off := m.off - a, length := m.length + a, payloadLength := m.payloadLength + a } := by
      simp only [addHeader]
      rw [if_neg (show ¬ m.off < a by omega), if_pos hm]
    show addAll (addHeader m a) l = _
    rw [e, ih _ (by dsimp only; omega) (by dsimp only; omega)]
    simp only [List.sum_cons, Msg.mk.injEq, true_and]
    omega

theorem removeAll_request (l : List Nat) : ∀ m : Msg, l.sum ≤ m.payloadLength →
    removeAll m l = { m with off := m.off + l.sum, payloadLength := m.payloadLength - l.sum } := by
  induction l with
  | nil => intro m _; simp [removeAll]
  | cons a l ih =>
    intro m hs
    simp only [List.sum_cons] at hs
    have e : removeHeader m a = { m with off := m.off + a, payloadLength := m.payloadLength - a } := by
      simp only [removeHeader]
      rw [if_neg (by omega)]
    show removeAll (removeHeader m a) l = _
    rw [e, ih _ (by dsimp only; omega)]
    simp only [List.sum_cons, Msg.mk.injEq, true_and]
    omega

/-- C53: a request passes through any number of layers, each of which removes its header; a response of length `n` is put in the place of the payload;
the layers add their headers again. The result starts at the beginning of the buffer, its length counts the response and all the headers, and it is no
longer than the space for a response. -/
theorem layers (m : Msg) (l : List Nat) (n : Nat) (h0 : m.off = 0) (hl : l.sum ≤ m.payloadLength) (hmax : l.sum ≤ m.maxResponse)
    (hn : n ≤ getMaxResponse (removeAll m l)) :
    let out := addAll (setPayloadLength (removeAll m l) n) l.reverse
    out.off = 0 ∧ out.length = l.sum + n ∧ out.payloadLength = l.sum + n ∧ out.length ≤ m.maxResponse ∧ out.buf = m.buf := by
  rw [removeAll_request l m hl] at hn ⊢
  simp only [getMaxResponse, protocolLength, h0, Nat.zero_add] at hn
  rw [if_pos hmax] at hn
  dsimp only
  rw [addAll_response _ _ rfl (by simp [setPayloadLength])]
  simp only [setPayloadLength, List.sum_reverse, h0]
  exact ⟨by omega, by omega, by omega, by omega, trivial⟩

example : addAll (setPayloadLength (removeAll ⟨List.replicate 32 0, 20, 32, 0, 20⟩ [4, 5]) 10) [5, 4] =
    ⟨List.replicate 32 0, 19, 32, 0, 19⟩ := by decide

theorem getMax_eq (m : Msg) (h : m.off ≤ m.maxResponse) : getMaxResponse m = m.maxResponse - m.off := if_pos h

/-- C53: the space for a response is never raised, and what a caller asked for plus the headers is what it is lowered to. -/
theorem setMax_lowers (m : Msg) (n : Nat) (hn : n + m.off < SZ) (ho : m.off ≤ m.maxResponse) :
    (setMaxResponse m n).maxResponse ≤ m.maxResponse ∧ getMaxResponse (setMaxResponse m n) = min n (getMaxResponse m) := by
  have e : (n + protocolLength m) % SZ = n + m.off := Nat.mod_eq_of_lt hn
  unfold setMaxResponse
  rw [e]
  dsimp only
  by_cases h : n + m.off < m.maxResponse
  · rw [if_pos h]
    rw [getMax_eq _ (show m.off ≤ n + m.off by omega), getMax_eq m ho]
    dsimp only
    omega
  · rw [if_neg h, getMax_eq m ho]
    omega

example : getMaxResponse (setMaxResponse ⟨List.replicate 32 0, 20, 32, 4, 16⟩ 10) = 10 := by decide

end Verif.CmdMsg
