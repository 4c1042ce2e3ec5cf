import Verif.Spdm.SessionProps
namespace Verif.Spdm
open Verif.CmdMsg (Msg removeHeader addHeader setPayloadLength)
open Verif.Pcisig (get put)
open Verif.Pcisig (get_ok put_ok window_len)

theorem get_some {b : Bytes} {i n : Nat} {x : Bytes} (h : Verif.Pcisig.get b i n = some x) : i + n ≤ b.length ∧ x = window b i n := by
  unfold Verif.Pcisig.get at h
  split at h
  · injection h with h; exact ⟨by assumption, h.symm⟩
  · cases h

/-- What a decryption used and accepted. -/
theorem decrypt_ok {c : SCfg} (hc : c.aead.Correct) {s : Session} {q q' : Msg} {key iv : Bytes} {f : SFault} {r : Except SErr Unit} {u : Option Use}
    (h : decryptMessage c s q key iv f = some (r, q', u)) :
    (u = none ∨ u = some ⟨key.take s.keySize, iv.take s.ivSize⟩) ∧ q'.buf.length = q.buf.length ∧ q'.maxResponse = q.maxResponse ∧
    (r = .ok () → ∃ n plain,
      leNat (window q.buf (q.off + 4) 2) = n + s.tagSize ∧ 6 + n + s.tagSize ≤ q.payloadLength ∧
      c.aead.open_ (key.take s.keySize) (iv.take s.ivSize) (window q.buf q.off 6) (window q.buf (q.off + 6) n) (window q.buf (q.off + 6 + n) s.tagSize) = some plain ∧
      plain.length = n ∧ u = some ⟨key.take s.keySize, iv.take s.ivSize⟩ ∧
      (2 ≤ n → q'.payloadLength = leNat (plain.take 2)) ∧ q'.payloadLength ≤ n ∧ q'.off = q.off + min 8 q.payloadLength ∧
      q'.off + q'.payloadLength ≤ q.off + q.payloadLength + (2 - s.tagSize) ∧
      (2 + q'.payloadLength ≤ n → payloadOf q' = window plain 2 q'.payloadLength)) := by
  unfold decryptMessage at h
  split at h
  · injection h with h; injection h with h1 h; injection h with h2 h3
    subst h1; subst h2; subst h3
    exact ⟨.inl rfl, rfl, rfl, fun h => nomatch h⟩
  · rename_i hlen
    simp only [bind, Option.bind_eq_some_iff] at h
    obtain ⟨x, hx, h⟩ := h
    obtain ⟨hx1, rfl⟩ := get_some hx
    have err : ∀ {e : SErr}, some (Except.error e, q, (none : Option Use)) = some (r, q', u) →
        (u = none ∨ u = some ⟨key.take s.keySize, iv.take s.ivSize⟩) ∧ q'.buf.length = q.buf.length ∧ q'.maxResponse = q.maxResponse ∧ (r = .ok () → False) := by
      intro e h
      injection h with h; injection h with h1 h; injection h with h2 h3
      subst h1; subst h2; subst h3
      exact ⟨.inl rfl, rfl, rfl, fun h => nomatch h⟩
    split at h
    · obtain ⟨a, b, c, d⟩ := err h; exact ⟨a, b, c, fun h => (d h).elim⟩
    split at h
    · obtain ⟨a, b, c, d⟩ := err h; exact ⟨a, b, c, fun h => (d h).elim⟩
    split at h
    · obtain ⟨a, b, c, d⟩ := err h; exact ⟨a, b, c, fun h => (d h).elim⟩
    split at h
    · obtain ⟨a, b, c, d⟩ := err h; exact ⟨a, b, c, fun h => (d h).elim⟩
    rename_i h1 h2 h3 _
    clear err
    generalize hn : leNat (window q.buf (q.off + 4) 2) = len at *
    simp only [Option.bind_eq_some_iff] at h
    obtain ⟨aad, ha, ct, hct, tag, htag, h⟩ := h
    obtain ⟨ha1, rfl⟩ := get_some ha
    obtain ⟨hct1, rfl⟩ := get_some hct
    obtain ⟨htag1, rfl⟩ := get_some htag
    split at h
    · simp only [Option.bind_eq_some_iff] at h
      obtain ⟨b, hb, h⟩ := h
      injection h with h; injection h with h1 h; injection h with h2 h3
      subst h1; subst h2; subst h3
      exact ⟨.inr rfl, Verif.Pcisig.put_length hb, rfl, fun h => nomatch h⟩
    · rename_i plain hpl
      have hop : c.aead.open_ (key.take s.keySize) (iv.take s.ivSize) (window q.buf q.off 6) (window q.buf (q.off + 6) (len - s.tagSize))
          (window q.buf (q.off + 6 + (len - s.tagSize)) s.tagSize) = some plain := by
        split at hpl
        · cases hpl
        · exact hpl
      have hsz : plain.length = len - s.tagSize := by
        rw [hc.sized _ _ _ _ _ _ hop, window_len hct1]
      rw [List.take_of_length_le (by omega)] at h
      simp only [Option.bind_eq_some_iff] at h
      obtain ⟨b, hb, y, hy, h⟩ := h
      obtain ⟨hy1, rfl⟩ := get_some hy
      split at h
      · injection h with h; injection h with h1 h; injection h with h2 h3
        subst h1; subst h2; subst h3
        exact ⟨.inr rfl, Verif.Pcisig.put_length hb, rfl, fun h => nomatch h⟩
      · rename_i happ
        injection h with h; injection h with h1 h; injection h with h2 h3
        subst h1; subst h2; subst h3
        refine ⟨.inr rfl, Verif.Pcisig.put_length hb, rfl, fun _ => ⟨len - s.tagSize, plain, by omega, by omega, hop, hsz, rfl, ?_, ?_, ?_, ?_, ?_⟩⟩
        · intro h2
          have := window_at (b := b) (i := q.off + 6) (x := []) (y := plain.take 2) (z := plain.drop 2 ++ q.buf.drop (q.off + 6 + plain.length)) (by
            rw [put_drop hb, List.nil_append, ← List.append_assoc, List.take_append_drop]) 0 rfl
          rw [show (plain.take 2).length = 2 by rw [List.length_take]; omega] at this
          exact congrArg leNat this
        · simp only []; omega
        · simp only [removeHeader]; split <;> omega
        · simp only [removeHeader]; split <;> omega
        · simp only [removeHeader, payloadOf]
          intro h2
          rw [if_neg (by omega)]
          generalize leNat (window b (q.off + 6) 2) = app at *
          have hsplit : plain = plain.take 2 ++ (window plain 2 app ++ plain.drop (2 + app)) := by
            rw [← Verif.Pcisig.split_window plain 2 app, List.take_append_drop]
          have hwl : (window plain 2 app).length = app := window_len (by omega)
          have := window_at (b := b) (i := q.off + 6) (x := plain.take 2) (y := window plain 2 app) (z := plain.drop (2 + app) ++ q.buf.drop (q.off + 6 + plain.length)) (by
            rw [put_drop hb]
            conv => lhs; lhs; rw [hsplit]
            simp only [List.append_assoc]) 2 (by rw [List.length_take]; omega)
          rw [hwl] at this
          exact this

/-- The effect of a secured request on the sessions. -/
structure DecodeEffect (c : SCfg) (m : Mgr) (q : Msg) (r : Except SErr Unit) (m' : Mgr) (u : Option Use) : Prop where
  cases_ : (r ≠ .ok () ∧ u = none ∧ m' = { m with lastId := 0, lastValid := false }) ∨
    ∃ i k, findSession m (leNat (window q.buf q.off 4)) = some i ∧ (m.at_ i).reqKeys = some k ∧ k.seq < c.maxSeq ∧
      (u = none ∨ ∃ iv, generateIv k.seq k.salt (m.at_ i).ivSize = some iv ∧ u = some ⟨k.key.take (m.at_ i).keySize, iv.take (m.at_ i).ivSize⟩) ∧
      (m' = { (m.set i (m.at_ i).nextReq) with lastId := 0, lastValid := false } ∧ r ≠ .ok () ∨
       m' = { (m.set i (m.at_ i).nextReq) with lastId := (m.at_ i).id, lastValid := true }) ∧ (r = .ok () → u ≠ none)

theorem decode_effect {c : SCfg} (hc : c.aead.Correct) {m m' : Mgr} {q q' : Msg} {f : SFault} {r : Except SErr Unit} {u : Option Use}
    (h : decodeMessage c m q f = some (r, m', q', u)) : DecodeEffect c m q r m' u := by
  constructor
  unfold decodeMessage at h
  simp only [] at h
  split at h
  · injection h with h; injection h with h1 h; injection h with h2 h; injection h with h3 h4
    subst h1; subst h2; subst h4
    exact .inl ⟨fun h => (nomatch h), rfl, rfl⟩
  · simp only [bind, Option.bind_eq_some_iff] at h
    obtain ⟨x, hx, h⟩ := h
    obtain ⟨hx1, rfl⟩ := get_some hx
    split at h
    · injection h with h; injection h with h1 h; injection h with h2 h; injection h with h3 h4
      subst h1; subst h2; subst h4
      exact .inl ⟨fun h => (nomatch h), rfl, rfl⟩
    · rename_i i hi
      split at h
      · injection h with h; injection h with h1 h; injection h with h2 h; injection h with h3 h4
        subst h1; subst h2; subst h4
        exact .inl ⟨fun h => (nomatch h), rfl, rfl⟩
      · rename_i k hk
        split at h
        · injection h with h; injection h with h1 h; injection h with h2 h; injection h with h3 h4
          subst h1; subst h2; subst h4
          exact .inl ⟨fun h => (nomatch h), rfl, rfl⟩
        · rename_i hseq
          simp only [Option.bind_eq_some_iff] at h
          obtain ⟨iv, hiv, h⟩ := h
          refine .inr ⟨i, k, hi, hk, by omega, ?_⟩
          split at h
          · simp only [Option.bind_eq_some_iff] at h
            obtain ⟨⟨r1, q1, u1⟩, h1, h⟩ := h
            injection h with h; injection h with h2 h; injection h with h3 h; injection h with h4 h5
            subst h2; subst h3; subst h4; subst h5
            obtain ⟨g1, _, _, g2⟩ := decrypt_ok hc h1
            refine ⟨?_, .inr rfl, ?_⟩
            · rcases g1 with g1 | g1
              · exact .inl g1
              · exact .inr ⟨iv, hiv, g1⟩
            · intro hr
              obtain ⟨n, plain, _, _, _, _, g3, _⟩ := g2 hr
              rw [g3]; exact fun h => nomatch h
          · injection h with h; injection h with h1 h; injection h with h2 h; injection h with h3 h4
            subst h1; subst h2; subst h4
            exact ⟨.inl rfl, .inl ⟨rfl, fun h => nomatch h⟩, fun h => nomatch h⟩

/-- The answer of a session: what it uses. -/
theorem encrypt_use {c : SCfg} {s : Session} {q q' : Msg} {key iv : Bytes} {f : SFault} {r : Except SErr Unit} {u : Option Use}
    (h : encryptMessage c s q key iv f = some (r, q', u)) :
    (u = none ∨ u = some ⟨key.take s.keySize, iv.take s.ivSize⟩) ∧ (r = .ok () → u ≠ none) := by
  unfold encryptMessage at h
  simp only [] at h
  split at h
  · injection h with h; injection h with h1 h; injection h with h2 h3
    subst h1; subst h3
    exact ⟨.inl rfl, fun h => nomatch h⟩
  · simp only [bind, Option.bind_eq_some_iff] at h
    obtain ⟨b, hb, h⟩ := h
    split at h
    · injection h with h; injection h with h1 h; injection h with h2 h3
      subst h1; subst h3
      exact ⟨.inl rfl, fun h => nomatch h⟩
    · simp only [Option.bind_eq_some_iff] at h
      obtain ⟨aad, ha, pl, hp, h⟩ := h
      split at h
      · injection h with h; injection h with h1 h; injection h with h2 h3
        subst h1; subst h3
        exact ⟨.inr rfl, fun h => nomatch h⟩
      · simp only [Option.bind_eq_some_iff] at h
        obtain ⟨b1, h1, b2, h2, h⟩ := h
        injection h with h; injection h with h3 h; injection h with h4 h5
        subst h3; subst h5
        exact ⟨.inr rfl, fun _ h => nomatch h⟩

/-- The effect of an answer on the sessions. -/
theorem encode_effect {c : SCfg} {m m' : Mgr} {q q' : Msg} {f : SFault} {r : Except SErr Unit} {u : Option Use} {notes : List Note}
    (h : encodeMessage c m q f = some (r, m', q', u, notes)) :
    (r ≠ .ok () ∧ u = none ∧ m' = m ∧ notes = []) ∨
    ∃ i k, m.lastValid = true ∧ findSession m m.lastId = some i ∧ (m.at_ i).rspKeys = some k ∧ k.seq < c.maxSeq ∧
      (u = none ∨ ∃ iv, generateIv k.seq k.salt (m.at_ i).ivSize = some iv ∧ u = some ⟨k.key.take (m.at_ i).keySize, iv.take (m.at_ i).ivSize⟩) ∧
      (r ≠ .ok () ∧ m' = m.set i (m.at_ i).nextRsp ∧ notes = [] ∨
       r = .ok () ∧ u ≠ none ∧ q.off + 2 ≤ q.buf.length ∧
         (m', notes) = afterEncode (m.set i (m.at_ i).nextRsp) (m.at_ i).id (q.buf.getD (q.off + 1) 0)) := by
  unfold encodeMessage at h
  split at h
  · injection h with h; injection h with h1 h; injection h with h2 h; injection h with h3 h; injection h with h4 h5
    subst h1; subst h2; subst h4; subst h5
    exact .inl ⟨fun h => (nomatch h), rfl, rfl, rfl⟩
  · rename_i hv
    split at h
    · injection h with h; injection h with h1 h; injection h with h2 h; injection h with h3 h; injection h with h4 h5
      subst h1; subst h2; subst h4; subst h5
      exact .inl ⟨fun h => (nomatch h), rfl, rfl, rfl⟩
    · rename_i i hi
      simp only [] at h
      split at h
      · injection h with h; injection h with h1 h; injection h with h2 h; injection h with h3 h; injection h with h4 h5
        subst h1; subst h2; subst h4; subst h5
        exact .inl ⟨fun h => (nomatch h), rfl, rfl, rfl⟩
      · rename_i k hk
        split at h
        · injection h with h; injection h with h1 h; injection h with h2 h; injection h with h3 h; injection h with h4 h5
          subst h1; subst h2; subst h4; subst h5
          exact .inl ⟨fun h => (nomatch h), rfl, rfl, rfl⟩
        · rename_i hseq
          simp only [bind, Option.bind_eq_some_iff] at h
          obtain ⟨iv, hiv, code, hcode, h⟩ := h
          obtain ⟨hc1, rfl⟩ := get_some hcode
          refine .inr ⟨i, k, by simpa using hv, hi, hk, by omega, ?_⟩
          split at h
          · simp only [Option.bind_eq_some_iff] at h
            obtain ⟨⟨r1, q1, u1⟩, h1, h⟩ := h
            obtain ⟨g1, g2⟩ := encrypt_use h1
            have g1' : u1 = none ∨ ∃ iv, generateIv k.seq k.salt (m.at_ i).ivSize = some iv ∧ u1 = some ⟨k.key.take (m.at_ i).keySize, iv.take (m.at_ i).ivSize⟩ := by
              rcases g1 with g1 | g1
              · exact .inl g1
              · exact .inr ⟨iv, hiv, g1⟩
            rcases r1 with e | ⟨⟩
            · injection h with h; injection h with h2 h; injection h with h3 h; injection h with h4 h; injection h with h5 h6
              subst h2; subst h3; subst h5; subst h6
              exact ⟨g1', .inl ⟨fun h => (nomatch h), rfl, rfl⟩⟩
            · injection h with h; injection h with h2 h; injection h with h3 h; injection h with h4 h; injection h with h5 h6
              subst h2; subst h3; subst h5; subst h6
              refine ⟨g1', .inr ⟨rfl, g2 rfl, by omega, ?_⟩⟩
              rw [Verif.Pcisig.window_one (show q.off + 1 < q.buf.length by omega)]
              rfl
          · injection h with h; injection h with h2 h; injection h with h3 h; injection h with h4 h; injection h with h5 h6
            subst h2; subst h3; subst h5; subst h6
            exact ⟨.inl rfl, .inl ⟨fun h => (nomatch h), rfl, rfl⟩⟩

/-- A request is accepted only if it opens with the request key of the session it names, under the next number, with its header; and what is handed on is
the data inside, if the data fits the decrypted text. -/
theorem decode_sound (c : SCfg) (hc : c.aead.Correct) (hmax : c.maxSeq ≤ 2 ^ 64) (m m' : Mgr) (q q' : Msg) (f : SFault) (u : Option Use)
    (hm : ∀ s ∈ m.sessions, s.id ≠ 0 → s.Normal)
    (h : decodeMessage c m q f = some (.ok (), m', q', u)) :
    ∃ i k n plain, findSession m (leNat (window q.buf q.off 4)) = some i ∧ (m.at_ i).reqKeys = some k ∧ k.seq < c.maxSeq ∧
      m' = { (m.set i (m.at_ i).nextReq) with lastId := (m.at_ i).id, lastValid := true } ∧
      leNat (window q.buf (q.off + 4) 2) = n + 16 ∧ 22 + n ≤ q.payloadLength ∧
      c.aead.open_ k.key (ivFor k.salt k.seq) (window q.buf q.off 6) (window q.buf (q.off + 6) n) (window q.buf (q.off + 6 + n) 16) = some plain ∧
      u = some ⟨k.key, ivFor k.salt k.seq⟩ ∧ q'.payloadLength ≤ n ∧ q'.off = q.off + 8 ∧ q'.off + q'.payloadLength ≤ q.off + q.payloadLength ∧
      (2 ≤ n → q'.payloadLength = leNat (plain.take 2)) ∧
      (2 + q'.payloadLength ≤ n → payloadOf q' = window plain 2 q'.payloadLength) := by
  unfold decodeMessage at h
  simp only [] at h
  split at h
  · cases h
  · simp only [bind, Option.bind_eq_some_iff] at h
    obtain ⟨x, hx, h⟩ := h
    obtain ⟨hx1, rfl⟩ := get_some hx
    split at h
    · cases h
    · rename_i i hi
      split at h
      · cases h
      · rename_i k hk
        split at h
        · cases h
        · rename_i hseq
          simp only [Option.bind_eq_some_iff] at h
          obtain ⟨iv, hiv, h⟩ := h
          have hf : findSession m (leNat (window q.buf q.off 4)) = some i := hi
          obtain ⟨h0, hlt, hid⟩ := find_some hf
          have hn : (m.at_ i).Normal := by
            apply hm
            · unfold Mgr.at_; rw [List.getD_eq_getElem?_getD, List.getElem?_eq_getElem hlt]; exact List.getElem_mem hlt
            · rw [hid]; exact h0
          have hk' : (m.at_ i).reqKeys = some k := hk
          have hsz := reqKeys_sized hn hk'
          have hiv' : generateIv k.seq k.salt (m.at_ i).ivSize = some iv := hiv
          rw [hn.iv, generateIv_eq hsz.2 (by omega)] at hiv'
          injection hiv' with hiv'
          split at h
          · simp only [Option.bind_eq_some_iff] at h
            obtain ⟨⟨r1, q1, u1⟩, h1, h⟩ := h
            injection h with h; injection h with h2 h; injection h with h3 h; injection h with h4 h5
            subst h2; subst h3; subst h4; subst h5
            obtain ⟨_, _, _, g2⟩ := decrypt_ok hc h1
            obtain ⟨n, plain, a1, a2, a3, a4, a5, a6, a7, a8, a9, a10⟩ := g2 rfl
            have hs1 : ({ m with lastId := 0, lastValid := false } : Mgr).at_ i = m.at_ i := rfl
            rw [hs1, hn.tag] at a1 a2 a9
            rw [hs1, hn.tag, hn.key, hn.iv, List.take_of_length_le (by rw [hsz.1]; omega), List.take_of_length_le (by rw [← hiv', ivFor_length hsz.2]; omega), ← hiv'] at a3
            rw [hs1, hn.key, hn.iv, List.take_of_length_le (by rw [hsz.1]; omega), List.take_of_length_le (by rw [← hiv', ivFor_length hsz.2]; omega), ← hiv'] at a5
            have hb8 : 8 ≤ q.payloadLength := by omega
            rw [Nat.min_eq_left hb8] at a8
            exact ⟨i, k, n, plain, hf, hk', by omega, rfl, a1, by omega, a3, a5, a7, a8, by simpa using a9, a6, a10⟩
          · cases h

/-- Whatever arrives, no other session changes. -/
theorem decode_touches_named (c : SCfg) (hc : c.aead.Correct) (m m' : Mgr) (q q' : Msg) (f : SFault) (r : Except SErr Unit) (u : Option Use)
    (h : decodeMessage c m q f = some (r, m', q', u)) (j : Nat) (hj : (m.at_ j).id ≠ leNat (window q.buf q.off 4)) : m'.at_ j = m.at_ j := by
  rcases (decode_effect hc h).cases_ with ⟨_, _, rfl⟩ | ⟨i, k, hi, _, _, _, hm, _⟩
  · rfl
  · have hne : j ≠ i := by rintro rfl; exact hj (find_some hi).2.2
    rcases hm with ⟨rfl, _⟩ | rfl <;> exact at_set_ne m i j _ hne

end Verif.Spdm
