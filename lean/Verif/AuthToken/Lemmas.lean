import Verif.AuthToken.Spec
import Verif.ManifestFlash.Lemmas
namespace Verif.AuthToken
open ManifestFlash (window_prefix window_after window_self)

theorem writeAt_length (b d : Bytes) (p : Nat) (h : p + d.length ≤ b.length) : (writeAt b p d).length = b.length := by
  simp only [writeAt, List.length_append, List.length_take, List.length_drop]; omega

/-- Writing right behind a known prefix. -/
theorem writeAt_prefix (b d a : Bytes) (h : window b 0 a.length = a) (hl : a.length + d.length ≤ b.length) :
    window (writeAt b a.length d) 0 (a.length + d.length) = a ++ d := by
  have e : b.take a.length = a := by simpa [window] using h
  unfold writeAt
  rw [e, List.take_of_length_le (by omega)]
  have := window_prefix (a ++ d) (b.drop (a.length + d.length)) 0 (a.length + d.length) (by simp)
  rw [this, window_self]
  simp

theorem padded_length {c : Cfg} {data : Option Bytes} (h : tooLong c data = false) : (padded c data).length = c.dataLen := by
  cases data with
  | none => simp [padded]
  | some x =>
    simp only [tooLong, decide_eq_false_iff_not] at h
    simp only [padded, List.length_append, List.length_replicate]; omega

/-- What a call of `newToken` does. -/
theorem newToken_ok {c : Cfg} (wf : c.WF) {s s' : St} {e : Env} {data : Option Bytes} {r : Except Err Bytes} (hs : s.buffer.length = c.bufLen)
    (hn : e.rngOut.length = c.nonceLen) (hg : ∀ m x, e.sign m = some x → x.length ≤ c.sigMax) (ht : tooLong c data = false)
    (h : newToken c s e data = (s', r)) :
    s'.buffer.length = c.bufLen ∧
    ((∃ x, r = .error x ∧ s'.tokenLen = 0) ∨
     ∃ sig, e.sign (padded c data ++ e.rngOut) = some sig ∧ r = .ok (padded c data ++ e.rngOut ++ sig) ∧
       s'.tokenLen = (padded c data ++ e.rngOut ++ sig).length ∧ s'.tokenLen ≤ c.bufLen ∧
       window s'.buffer 0 s'.tokenLen = padded c data ++ e.rngOut ++ sig ∧ (c.validity ≠ 0 → s'.expiration = e.now + c.validity)) := by
  have hp := padded_length ht
  have hr := wf.room
  unfold newToken at h
  rw [if_neg (by simp [ht])] at h
  simp only at h
  generalize hb1 : (if c.dataLen ≠ 0 then writeAt s.buffer 0 (padded c data) else s.buffer) = b1 at h
  have l1 : b1.length = c.bufLen := by
    rw [← hb1]; split
    · rw [writeAt_length _ _ _ (by omega)]; exact hs
    · exact hs
  have w1 : window b1 0 (padded c data).length = padded c data := by
    rw [← hb1]; split
    · have := writeAt_prefix s.buffer (padded c data) [] (by simp [window]) (by simp; omega)
      simpa using this
    · rename_i h0
      have : padded c data = [] := List.length_eq_zero_iff.mp (by omega)
      rw [this]; simp [window]
  have w2 := writeAt_prefix b1 e.rngOut (padded c data) w1 (by omega)
  rw [hp] at w2
  have l2 := writeAt_length b1 e.rngOut c.dataLen (by omega)
  generalize writeAt b1 c.dataLen e.rngOut = b2 at h w2 l2
  rw [hn] at w2
  rw [w2] at h
  by_cases hro : e.rngOk = false
  · rw [if_pos hro] at h; cases h; exact ⟨by simp only; omega, .inl ⟨_, rfl, rfl⟩⟩
  rw [if_neg hro] at h
  cases hsg : e.sign (padded c data ++ e.rngOut) with
  | none => simp only [hsg] at h; cases h; exact ⟨by simp only; omega, .inl ⟨_, rfl, rfl⟩⟩
  | some sig =>
    have hsl := hg _ _ hsg
    simp only [hsg] at h
    have hlen : (padded c data ++ e.rngOut).length = c.dataLen + c.nonceLen := by rw [List.length_append, hp, hn]
    have w3 := writeAt_prefix b2 sig (padded c data ++ e.rngOut) (by rw [hlen]; exact w2) (by omega)
    rw [hlen] at w3
    have l3 := writeAt_length b2 sig (c.dataLen + c.nonceLen) (by omega)
    by_cases htm : c.validity ≠ 0 ∧ e.timerFails = true
    · rw [if_pos htm] at h; cases h; exact ⟨by simp only; omega, .inl ⟨_, rfl, rfl⟩⟩
    · rw [if_neg htm] at h
      cases h
      refine ⟨by simp only; omega, .inr ⟨sig, rfl, by rw [w3], by rw [List.length_append, hlen], by simp only; omega, w3, ?_⟩⟩
      intro hv; simp only [if_pos hv]

theorem u16_lt (d : Bytes) (o : Nat) : u16 d o < 65536 := by
  unfold u16
  have h := leNat_lt (window d o 2)
  have : (window d o 2).length ≤ 2 := by simp only [window, List.length_take]; omega
  have : 256 ^ (window d o 2).length ≤ 256 ^ 2 := Nat.pow_le_pow_right (by omega) this
  omega

theorem getHeader_ok {d : Bytes} (h : getHeader d = .ok ()) : 4 + hdrTok d + hdrAad d ≤ d.length := by
  unfold getHeader at h
  split at h
  · cases h
  · split at h
    · cases h
    · omega

theorem tokenOffset_ok {f : Fmt} {d : Bytes} {off : Nat} (h : tokenOffset f d = .ok off) :
    off = tokenPos f ∧ (f = .withAad → getHeader d = .ok () ∧ hdrTok d ≠ 0) := by
  cases f with
  | tokenOnly =>
    simp only [tokenOffset] at h
    split at h
    · cases h
    · cases h; exact ⟨rfl, fun h => nomatch h⟩
  | withAad =>
    simp only [tokenOffset] at h
    split at h
    · cases h
    · rename_i hh
      split at h
      · rename_i h0; cases h; exact ⟨rfl, fun _ => ⟨hh, h0⟩⟩
      · cases h

theorem aadLength_ok {f : Fmt} {d : Bytes} {n : Nat} (h : aadLength f d = .ok n) :
    n < 65536 ∧ (f = .withAad → n = hdrAad d) ∧ (f = .tokenOnly → n = 0) := by
  cases f with
  | tokenOnly =>
    simp only [aadLength] at h
    split at h
    · cases h
    · cases h; exact ⟨by omega, fun h => (nomatch h), fun _ => rfl⟩
  | withAad =>
    simp only [aadLength] at h
    split at h
    · cases h
    · cases h; exact ⟨u16_lt _ _, fun _ => rfl, fun h => nomatch h⟩

/-- What an accepted payload looks like. -/
theorem verifyData_ok {c : Cfg} {s : St} {e : Env} {d : Bytes} {off aad : Nat} (hsz : off + s.tokenLen + aad < SZ)
    (h : verifyData c s e d off aad = .ok ()) :
    s.tokenLen ≠ 0 ∧ off + s.tokenLen + aad < d.length ∧ timerCheck c s e = none ∧ window d off s.tokenLen = window s.buffer 0 s.tokenLen ∧
    c.sigOk c.authHash (window d 0 (off + s.tokenLen + aad)) (window d (off + s.tokenLen + aad) (d.length - (off + s.tokenLen + aad))) = true := by
  unfold verifyData at h
  simp only [Nat.mod_eq_of_lt hsz] at h
  split at h
  · rename_i h1
    split at h
    · cases h
    · rename_i h2
      split at h
      · cases h
      · split at h
        · cases h
        · rename_i h3
          split at h
          · cases h
          · split at h
            · rename_i h4
              exact ⟨h1.1, h1.2.2.2.2, h2, by simpa using h3, h4⟩
            · cases h
  · cases h

theorem timerCheck_none {c : Cfg} {s : St} {e : Env} (h : timerCheck c s e = none) : c.validity ≠ 0 → e.now < s.expiration := by
  intro hv
  unfold timerCheck at h
  rw [if_neg hv] at h
  split at h
  · cases h
  · split at h
    · cases h
    · omega

theorem split3 (d : Bytes) (a b n : Nat) (h : a + b + n ≤ d.length) :
    d = window d 0 a ++ window d a b ++ window d (a + b) n ++ window d (a + b + n) (d.length - (a + b + n)) ∧
    window d 0 (a + b + n) = window d 0 a ++ window d a b ++ window d (a + b) n := by
  have e1 : window d 0 (a + b + n) = window d 0 a ++ window d a b ++ window d (a + b) n := by
    have h1 := window_concat d 0 a b
    have h2 := window_concat d 0 (a + b) n
    simp only [Nat.zero_add] at h1 h2
    rw [← h2, ← h1]
  refine ⟨?_, e1⟩
  have h3 := window_concat d 0 (a + b + n) (d.length - (a + b + n))
  rw [← e1]
  simp only [Nat.zero_add] at h3
  rw [h3]
  simp only [window, List.drop_zero]
  rw [List.take_of_length_le (by omega)]

/-- The token in the state. -/
structure Live (c : Cfg) (s : St) (T : Bytes) (t : Nat) : Prop where
  bytes : window s.buffer 0 s.tokenLen = T
  len : T.length = s.tokenLen
  exp : c.validity ≠ 0 → s.expiration = t + c.validity

theorem respond_cases {c : Cfg} (wf : c.WF) {s s' : St} {e : Env} {d : Bytes} {a : Ans} (hl : s.tokenLen ≤ c.bufLen)
    (h : respond c s e d = (s', a)) :
    (∃ x, a = .refused x ∧ s' = s) ∨
    (a = .granted ∧ s' = invalidate s ∧ ∃ off aad, tokenOffset c.fmt d = .ok off ∧ aadLength c.fmt d = .ok aad ∧ off + s.tokenLen + aad < SZ ∧
      verifyData c s e d off aad = .ok ()) := by
  unfold respond at h
  split at h
  · cases h; exact .inl ⟨_, rfl, rfl⟩
  · rename_i off ho
    split at h
    · cases h; exact .inl ⟨_, rfl, rfl⟩
    · rename_i aad ha
      have h1 := (tokenOffset_ok ho).1
      have h2 := (aadLength_ok ha).1
      have h3 := wf.small
      have h4 : tokenPos c.fmt ≤ 4 := by cases c.fmt <;> decide
      split at h
      · rename_i hv
        cases h
        exact .inr ⟨rfl, rfl, off, aad, ho, ha, by omega, hv⟩
      · cases h; exact .inl ⟨_, rfl, rfl⟩
      · cases h; exact .inl ⟨_, rfl, rfl⟩

theorem accepted_carries {c : Cfg} {s : St} {e : Env} {d T : Bytes} {t off aad : Nat} (hoff : off = tokenPos c.fmt)
    (L : Live c s T t) (hsz : off + s.tokenLen + aad < SZ) (h : verifyData c s e d off aad = .ok ()) :
    Carries c T d ∧ (c.validity ≠ 0 → e.now < t + c.validity) := by
  obtain ⟨h0, h1, h2, h3, h4⟩ := verifyData_ok hsz h
  obtain ⟨e1, e2⟩ := split3 d off s.tokenLen aad (by omega)
  rw [h3, L.bytes] at e1 e2
  refine ⟨⟨_, _, _, e1, ?_, ?_, ?_⟩, ?_⟩
  · rw [window_length]; omega
  · intro hc
    have := congrArg List.length hc
    rw [window_length] at this
    simp at this; omega
  · rw [← e2]; exact h4
  · intro hv
    have := timerCheck_none h2 hv
    rw [L.exp hv] at this; exact this

end Verif.AuthToken
