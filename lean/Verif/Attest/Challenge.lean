import Verif.Attest.Spec
/-! Answers to challenges. -/
namespace Verif.Attest

theorem put_length {b d : Bytes} {off : Nat} (h : off + d.length ≤ b.length) : (put b off d).length = b.length := by
  simp [put]; omega

theorem put_take {b d : Bytes} {off : Nat} (h : off ≤ b.length) : (put b off d).take off = b.take off := by
  rw [put, List.append_assoc, List.take_append_of_le_length (by simp; omega), List.take_take, Nat.min_self]

/-- Nothing is left behind: no active hash, no lock, the same buffer size. -/
def Clean (w w' : Work) : Prop := w'.hash = none ∧ w'.lock = false ∧ w'.keysLock = false ∧ w'.buf.length = w.buf.length

/-- The four stores make up the response. -/
theorem stores (cr : Crypto) (b nonce m : Bytes) (hn : nonce.length = 32) (hb : 40 + m.length < b.length) :
    put (put (put (put b 0 (List.replicate (40 + m.length) 0)) 0 (responseHeader cr 0 (List.replicate 32 0) m.length)) 6 nonce) 40 m =
      response cr.minVersion cr.maxVersion nonce cr.pcrNum m ++ b.drop (40 + m.length) := by
  have e1 : put b 0 (List.replicate (40 + m.length) 0) = List.replicate (40 + m.length) 0 ++ b.drop (40 + m.length) := by simp [put]
  have hl : (responseHeader cr 0 (List.replicate 32 0) m.length).length = 40 := by simp [responseHeader]
  have e2 : put (List.replicate (40 + m.length) 0 ++ b.drop (40 + m.length)) 0 (responseHeader cr 0 (List.replicate 32 0) m.length) =
      responseHeader cr 0 (List.replicate 32 0) m.length ++ (List.replicate m.length 0 ++ b.drop (40 + m.length)) := by
    rw [put, hl, List.take_zero, List.nil_append, Nat.zero_add, List.drop_append_of_le_length (by simp), List.drop_replicate, Nat.add_sub_cancel_left]
  have e3 : put (responseHeader cr 0 (List.replicate 32 0) m.length ++ (List.replicate m.length 0 ++ b.drop (40 + m.length))) 6 nonce =
      responseHeader cr 0 nonce m.length ++ (List.replicate m.length 0 ++ b.drop (40 + m.length)) := by
    rw [put, hn, List.take_append_of_le_length (by rw [hl]; omega), List.drop_append_of_le_length (by rw [hl]; omega)]
    simp [responseHeader]
  have hl' : (responseHeader cr 0 nonce m.length).length = 40 := by simp [responseHeader, hn]
  have e4 : put (responseHeader cr 0 nonce m.length ++ (List.replicate m.length 0 ++ b.drop (40 + m.length))) 40 m =
      responseHeader cr 0 nonce m.length ++ m ++ b.drop (40 + m.length) := by
    rw [put, List.take_append_of_le_length (by rw [hl']; omega), List.take_of_length_le (by rw [hl']; omega), ← hl', List.drop_append, List.drop_of_length_le (by omega), List.nil_append,
      Nat.add_sub_cancel_left, List.drop_append_of_le_length (by simp), List.drop_of_length_le (by simp), List.nil_append]
  rw [e1, e2, e3, e4]
  have : (if cr.pcrNum = 0 then 1 else cr.pcrNum) = max cr.pcrNum 1 := by split <;> omega
  simp [responseHeader, response, this]

theorem response_length {a b : UInt8} {nonce m : Bytes} {n : Nat} (hn : nonce.length = 32) : (response a b nonce n m).length = 40 + m.length := by
  simp [response, hn]; omega

/-- The whole of a challenge. -/
theorem challenge_cases (cr : Crypto) (w : Work) (h1 : w.hash = none) (h2 : w.lock = false) (h3 : w.keysLock = false)
    (hm : ∀ m, cr.pcr = .ok m → m.length ≤ 64) (hn : ∀ n, cr.nonce = .ok n → n.length = 32) (hs : ∀ d room s, cr.sign d room = .ok s → s.length ≤ room) :
    Clean w (challenge cr w).2 ∧
    ∀ len, (challenge cr w).1 = .ok len → 34 ≤ w.buf.length ∧ w.buf.getD 0 0 = 0 ∧ ∃ m nonce sig, cr.pcr = .ok m ∧ cr.nonce = .ok nonce ∧ 40 + m.length < w.buf.length ∧
      cr.sign (cr.sha256 (w.buf.take 34 ++ response cr.minVersion cr.maxVersion nonce cr.pcrNum m)) (w.buf.length - (40 + m.length)) = .ok sig ∧
      len = 40 + m.length + sig.length ∧
      (challenge cr w).2.buf = response cr.minVersion cr.maxVersion nonce cr.pcrNum m ++ sig ++ w.buf.drop len := by
  unfold challenge
  by_cases c1 : w.buf.length < 34
  · rw [if_pos c1]; exact ⟨⟨h1, h2, h3, rfl⟩, fun _ h => (by cases h)⟩
  · rw [if_neg c1]
    by_cases c2 : w.buf.getD 0 0 ≠ 0
    · simp only [if_pos c2]; exact ⟨⟨h1, h2, h3, rfl⟩, fun _ h => (by cases h)⟩
    · have c2' : w.buf.getD 0 0 = 0 := by simpa using c2
      simp only [if_neg c2, c2']
      cases hp : cr.pcr with
      | error e => exact ⟨⟨h1, rfl, h3, rfl⟩, fun _ h => (by cases h)⟩
      | ok m =>
        have hml := hm m hp
        have hlen : (40 + m.length) % 2 ^ 16 = 40 + m.length := Nat.mod_eq_of_lt (by omega)
        simp only [hlen]
        by_cases c3 : w.buf.length ≤ 40 + m.length
        · rw [if_pos c3]; exact ⟨⟨h1, rfl, h3, rfl⟩, fun _ h => (by cases h)⟩
        · rw [if_neg c3]
          cases hst : cr.start with
          | some e => exact ⟨⟨h1, rfl, h3, rfl⟩, fun _ h => (by cases h)⟩
          | none =>
            simp only
            cases hu1 : cr.update1 with
            | some e => exact ⟨⟨rfl, rfl, h3, rfl⟩, fun _ h => (by cases h)⟩
            | none =>
              simp only
              have l1 : (put w.buf 0 (List.replicate (40 + m.length) 0)).length = w.buf.length := put_length (by simp; omega)
              have l2 : (put (put w.buf 0 (List.replicate (40 + m.length) 0)) 0 (responseHeader cr 0 (List.replicate 32 0) m.length)).length = w.buf.length :=
                (put_length (by rw [l1]; simp [responseHeader]; omega)).trans l1
              cases hno : cr.nonce with
              | error e => exact ⟨⟨rfl, rfl, h3, l2⟩, fun _ h => (by cases h)⟩
              | ok nonce =>
                have hnl := hn nonce hno
                simp only [stores cr w.buf nonce m hnl (by omega)]
                have rl := response_length (a := cr.minVersion) (b := cr.maxVersion) (n := cr.pcrNum) (m := m) hnl
                have l3 : (response cr.minVersion cr.maxVersion nonce cr.pcrNum m ++ w.buf.drop (40 + m.length)).length = w.buf.length := by
                  rw [List.length_append, rl, List.length_drop]; omega
                cases hu2 : cr.update2 with
                | some e => exact ⟨⟨rfl, rfl, h3, l3⟩, fun _ h => (by cases h)⟩
                | none =>
                  simp only [signAndFinish, Option.map_some, List.nil_append, List.take_left' rl, l3, Option.getD_some]
                  cases hk : cr.initKey with
                  | some e => exact ⟨⟨rfl, rfl, rfl, l3⟩, fun _ h => (by cases h)⟩
                  | none =>
                    simp only
                    cases hf : cr.finish with
                    | some e => exact ⟨⟨rfl, rfl, rfl, l3⟩, fun _ h => (by cases h)⟩
                    | none =>
                      simp only
                      cases hsg : cr.sign (cr.sha256 (w.buf.take 34 ++ response cr.minVersion cr.maxVersion nonce cr.pcrNum m)) (w.buf.length - (40 + m.length)) with
                      | error e => exact ⟨⟨rfl, rfl, rfl, l3⟩, fun _ h => (by cases h)⟩
                      | ok sig =>
                        have hsl := hs _ _ _ hsg
                        refine ⟨⟨rfl, rfl, rfl, (put_length (by rw [l3]; omega)).trans l3⟩, fun len h => ?_⟩
                        injection h with h
                        subst h
                        refine ⟨by omega, trivial, m, nonce, sig, rfl, rfl, by omega, hsg, rfl, ?_⟩
                        simp only [put, List.take_left' rl]
                        rw [← rl, List.drop_append, List.drop_of_length_le (by omega), List.nil_append, Nat.add_sub_cancel_left, List.drop_drop, rl]
                        rfl

/-- A challenge that is answered: the buffer holds the response, then a signature with the alias key over the hash of exactly the challenge that was received followed by exactly this response, and the rest of the buffer is
unchanged. -/
theorem challenge_signed (cr : Crypto) (w : Work) (h1 : w.hash = none) (h2 : w.lock = false) (h3 : w.keysLock = false)
    (hm : ∀ m, cr.pcr = .ok m → m.length ≤ 64) (hn : ∀ n, cr.nonce = .ok n → n.length = 32) (hs : ∀ d room s, cr.sign d room = .ok s → s.length ≤ room)
    (len : Nat) (h : (challenge cr w).1 = .ok len) :
    34 ≤ w.buf.length ∧ w.buf.getD 0 0 = 0 ∧ ∃ m nonce sig, cr.pcr = .ok m ∧ cr.nonce = .ok nonce ∧ 40 + m.length < w.buf.length ∧
      cr.sign (cr.sha256 (w.buf.take 34 ++ response cr.minVersion cr.maxVersion nonce cr.pcrNum m)) (w.buf.length - (40 + m.length)) = .ok sig ∧
      len = 40 + m.length + sig.length ∧
      (challenge cr w).2.buf = response cr.minVersion cr.maxVersion nonce cr.pcrNum m ++ sig ++ w.buf.drop len :=
  (challenge_cases cr w h1 h2 h3 hm hn hs).2 len h

/-- Whatever fails: no hash stays active, no lock stays held and the buffer keeps its size. -/
theorem challenge_releases (cr : Crypto) (w : Work) (h1 : w.hash = none) (h2 : w.lock = false) (h3 : w.keysLock = false)
    (hm : ∀ m, cr.pcr = .ok m → m.length ≤ 64) (hn : ∀ n, cr.nonce = .ok n → n.length = 32) (hs : ∀ d room s, cr.sign d room = .ok s → s.length ≤ room) :
    (challenge cr w).2.hash = none ∧ (challenge cr w).2.lock = false ∧ (challenge cr w).2.keysLock = false ∧ (challenge cr w).2.buf.length = w.buf.length :=
  (challenge_cases cr w h1 h2 h3 hm hn hs).1

/-- Without failures every challenge for slot 0 in a buffer with room is answered. -/
theorem challenge_answered (cr : Crypto) (w : Work) (m nonce sig : Bytes) (hp : cr.pcr = .ok m) (hml : m.length ≤ 64) (hno : cr.nonce = .ok nonce) (hnl : nonce.length = 32)
    (c1 : 34 ≤ w.buf.length) (c2 : w.buf.getD 0 0 = 0) (c3 : 40 + m.length < w.buf.length) (a1 : cr.start = none) (a2 : cr.update1 = none) (a3 : cr.update2 = none) (a4 : cr.initKey = none)
    (a5 : cr.finish = none)
    (hsg : cr.sign (cr.sha256 (w.buf.take 34 ++ response cr.minVersion cr.maxVersion nonce cr.pcrNum m)) (w.buf.length - (40 + m.length)) = .ok sig) :
    (challenge cr w).1 = .ok (40 + m.length + sig.length) := by
  have hlen : (40 + m.length) % 2 ^ 16 = 40 + m.length := Nat.mod_eq_of_lt (by omega)
  have rl := response_length (a := cr.minVersion) (b := cr.maxVersion) (n := cr.pcrNum) (m := m) hnl
  have l3 : (response cr.minVersion cr.maxVersion nonce cr.pcrNum m ++ w.buf.drop (40 + m.length)).length = w.buf.length := by
    rw [List.length_append, rl, List.length_drop]; omega
  unfold challenge
  rw [if_neg (by omega)]
  simp only [c2, ne_eq, not_true_eq_false, if_false, hp, hlen]
  rw [if_neg (by omega)]
  simp only [a1, a2, hno, stores cr w.buf nonce m hnl c3, a3, signAndFinish, a4, a5, Option.map_some, List.nil_append, List.take_left' rl, l3, Option.getD_some, hsg]

end Verif.Attest
