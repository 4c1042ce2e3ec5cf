import Verif.Spdm.SessionSpec
import Verif.Pcisig.Lemmas
namespace Verif.Spdm
open Verif.CmdMsg (Msg removeHeader addHeader setPayloadLength)
open Verif.Pcisig (get put)
open Verif.Pcisig (get_ok put_ok window_len)

theorem toLE_split (a b n : Nat) (h : n < 256 ^ a) : toLE (a + b) n = toLE a n ++ List.replicate b 0 := by
  have h1 : leNat (toLE a n ++ List.replicate b 0) = n := by
    rw [leNat_append, leNat_toLE, Nat.mod_eq_of_lt h]
    have : leNat (List.replicate b 0) = 0 := by
      clear h
      induction b with
      | zero => rfl
      | succ b ih => rw [List.replicate_succ]; simp only [leNat, ih]; rfl
    rw [this]; omega
  have h2 := toLE_leNat (toLE a n ++ List.replicate b 0)
  rw [h1] at h2
  rw [List.length_append, toLE_length, List.length_replicate] at h2
  exact h2

theorem zip_zero (l : Bytes) : List.zipWith (· ^^^ ·) l (List.replicate l.length 0) = l := by
  induction l with
  | nil => rfl
  | cons a l ih =>
    rw [List.length_cons, List.replicate_succ, List.zipWith_cons_cons, ih, UInt8.xor_zero]

theorem generateIv_eq {seq : Nat} {salt : Bytes} (hs : salt.length = 12) (h : seq < 2 ^ 64) : generateIv seq salt 12 = some (ivFor salt seq) := by
  unfold generateIv ivFor
  rw [if_neg (by omega)]
  simp only []
  rw [List.take_of_length_le (show salt.length ≤ 12 by omega), show 12 - 12 = 0 from rfl, List.replicate_zero, List.append_nil,
    show toLE 12 seq = toLE 8 seq ++ List.replicate 4 0 from toLE_split 8 4 seq (by simpa using h)]
  congr 1
  have e : salt = salt.take 8 ++ salt.drop 8 := (List.take_append_drop 8 salt).symm
  have h4 : (salt.drop 8).length = 4 := by rw [List.length_drop]; omega
  conv => rhs; rw [e]
  rw [List.zipWith_append (by rw [List.length_take, toLE_length]; omega)]
  congr 1
  have := zip_zero (salt.drop 8)
  rw [h4] at this
  exact this.symm

theorem ivFor_length {salt : Bytes} {seq : Nat} (hs : salt.length = 12) : (ivFor salt seq).length = 12 := by
  unfold ivFor
  rw [List.length_zipWith, toLE_length]; omega

theorem zip_xor_inj : ∀ {s a b : Bytes}, a.length ≤ s.length → b.length ≤ s.length →
    List.zipWith (· ^^^ ·) s a = List.zipWith (· ^^^ ·) s b → a.length = b.length → a = b
  | _, [], [], _, _, _, _ => rfl
  | _, [], _ :: _, _, _, _, hl => by simp at hl
  | _, _ :: _, [], _, _, _, hl => by simp at hl
  | [], _ :: _, _ :: _, h, _, _, _ => by simp at h
  | x :: s, y :: a, z :: b, h1, h2, h, hl => by
    rw [List.zipWith_cons_cons, List.zipWith_cons_cons] at h
    injection h with h3 h4
    have h5 : y = z := by
      have := congrArg (x ^^^ ·) h3
      simpa [← UInt8.xor_assoc] using this
    rw [h5, zip_xor_inj (by simpa using h1) (by simpa using h2) h4 (by simpa using hl)]

/-- Different numbers give different IVs. -/
theorem ivFor_inj {salt : Bytes} {m n : Nat} (hs : salt.length = 12) (hm : m < 2 ^ 64) (hn : n < 2 ^ 64) (h : ivFor salt m = ivFor salt n) : m = n := by
  have := zip_xor_inj (by simp [hs]) (by simp [hs]) h (by simp)
  have h2 := congrArg leNat this
  rw [leNat_toLE, leNat_toLE, Nat.mod_eq_of_lt (by omega), Nat.mod_eq_of_lt (by omega)] at h2
  exact h2

theorem reqKeys_sized {s : Session} (h : s.Normal) {k : Keys} (hk : s.reqKeys = some k) : k.Sized := by
  unfold Session.reqKeys at hk
  split at hk <;> cases hk
  · exact h.sized.1
  · exact h.sized.2.2.1

theorem rspKeys_sized {s : Session} (h : s.Normal) {k : Keys} (hk : s.rspKeys = some k) : k.Sized := by
  unfold Session.rspKeys at hk
  split at hk <;> cases hk
  · exact h.sized.2.1
  · exact h.sized.2.2.2

theorem window_at {b x y z : Bytes} {i : Nat} (hb : b.drop i = x ++ (y ++ z)) (n : Nat) (hn : n = x.length) : window b (i + n) y.length = y := by
  unfold window
  rw [← List.drop_drop, hb, hn, List.drop_left, List.take_left]

theorem put_drop {b d b' : Bytes} {i : Nat} (h : put b i d = some b') : b'.drop i = d ++ b.drop (i + d.length) := by
  unfold put at h
  split at h
  · injection h with h
    rw [← h, List.append_assoc, List.drop_left' (by rw [List.length_take]; omega)]
  · cases h

theorem put_some {b d : Bytes} {i : Nat} (h : i + d.length ≤ b.length) : ∃ b', put b i d = some b' := ⟨_, put_ok h⟩

theorem payload_drop {q : Msg} {x : Bytes} (h : payloadOf q = x) (hl : q.off + q.payloadLength ≤ q.buf.length) :
    q.buf.drop q.off = x ++ q.buf.drop (q.off + q.payloadLength) ∧ x.length = q.payloadLength := by
  subst h
  unfold payloadOf
  exact ⟨by rw [Verif.Pcisig.split_window q.buf q.off q.payloadLength], window_len hl⟩

/-- The decryption of a sealed message. -/
theorem decrypt_sealed {c : SCfg} (hc : c.aead.Correct) {s : Session} (hs : s.Normal) {q : Msg} {app key iv : Bytes}
    (hkey : key.length = 32) (hiv : iv.length = 12) (hq : payloadOf q = sealedMessage c.aead s.id key iv app)
    (hl : q.off + q.payloadLength ≤ q.buf.length) (hn : app.length + 18 < 65536) :
    ∃ q', decryptMessage c s q key iv .none = some (.ok (), q', some ⟨key, iv⟩) ∧ payloadOf q' = app ∧ q'.off = q.off + 8 ∧
      q'.buf.length = q.buf.length ∧ q'.maxResponse = q.maxResponse := by
  obtain ⟨hd, hlen⟩ := payload_drop hq hl
  unfold sealedMessage at hd hlen
  simp only [] at hd hlen
  generalize hpl : toLE 2 app.length ++ app = plain at hd hlen
  have hpll : plain.length = 2 + app.length := by rw [← hpl, List.length_append, toLE_length]
  generalize hh : toLE 4 s.id ++ toLE 2 (plain.length + 16) = header at hd hlen
  have hhl : header.length = 6 := by rw [← hh]; simp
  generalize hct : (c.aead.seal_ key iv header plain).1 = ct at hd hlen
  generalize htag : (c.aead.seal_ key iv header plain).2 = tag at hd hlen
  have hctl : ct.length = plain.length := by rw [← hct]; exact hc.cipher ..
  have htl : tag.length = 16 := by rw [← htag]; exact hc.tag ..
  have hop : c.aead.open_ key iv header ct tag = some plain := by rw [← hct, ← htag]; exact hc.opens ..
  rw [List.length_append, List.length_append] at hlen
  generalize hrest : q.buf.drop (q.off + q.payloadLength) = rest at hd
  have w1 : window q.buf (q.off + 4) 2 = toLE 2 (plain.length + 16) := by
    have := window_at (b := q.buf) (i := q.off) (x := toLE 4 s.id) (y := toLE 2 (plain.length + 16)) (z := ct ++ tag ++ rest) (by
      rw [hd, ← hh]; simp only [List.append_assoc]) 4 (by simp)
    rw [toLE_length] at this
    exact this
  have w2 : window q.buf q.off 6 = header := by
    have := window_at (b := q.buf) (i := q.off) (x := []) (y := header) (z := ct ++ tag ++ rest) (by
      rw [hd]; simp only [List.append_assoc, List.nil_append]) 0 rfl
    rw [hhl] at this
    exact this
  have w3 : window q.buf (q.off + 6) plain.length = ct := by
    have := window_at (b := q.buf) (i := q.off) (x := header) (y := ct) (z := tag ++ rest) (by
      rw [hd]; simp only [List.append_assoc]) 6 hhl.symm
    rw [hctl] at this
    exact this
  have w4 : window q.buf (q.off + 6 + plain.length) 16 = tag := by
    have := window_at (b := q.buf) (i := q.off) (x := header ++ ct) (y := tag) (z := rest) (by
      rw [hd]; simp only [List.append_assoc]) (6 + plain.length) (by rw [List.length_append]; omega)
    rw [htl] at this
    rw [Nat.add_assoc]
    exact this
  have hle : leNat (toLE 2 (plain.length + 16)) = plain.length + 16 := by
    rw [leNat_toLE]; exact Nat.mod_eq_of_lt (by omega)
  obtain ⟨b', hb'⟩ := put_some (b := q.buf) (d := plain) (i := q.off + 6) (by omega)
  have hb'l := Verif.Pcisig.put_length hb'
  have hb'd := put_drop hb'
  have w5 : window b' (q.off + 6) 2 = toLE 2 app.length := by
    have := window_at (b := b') (i := q.off + 6) (x := []) (y := toLE 2 app.length) (z := app ++ q.buf.drop (q.off + 6 + plain.length)) (by
      rw [hb'd, ← hpl]; simp only [List.append_assoc, List.nil_append]) 0 rfl
    rw [toLE_length] at this
    exact this
  have w6 : window b' (q.off + 8) app.length = app := by
    have := window_at (b := b') (i := q.off + 6) (x := toLE 2 app.length) (y := app) (z := q.buf.drop (q.off + 6 + plain.length)) (by
      rw [hb'd, ← hpl]; simp only [List.append_assoc]) 2 (by simp)
    exact this
  have hla : leNat (toLE 2 app.length) = app.length := by
    rw [leNat_toLE]; exact Nat.mod_eq_of_lt (by omega)
  refine ⟨{ (removeHeader { q with buf := b' } 8) with payloadLength := app.length }, ?_, ?_, ?_, hb'l, rfl⟩
  · unfold decryptMessage
    rw [hs.tag, if_neg (by omega)]
    simp only [get_ok (show q.off + 4 + 2 ≤ q.buf.length by omega), w1, hle, Option.bind_eq_bind, Option.bind_some, bind, hs.key, hs.iv]
    rw [if_neg (by omega), if_neg (by omega)]
    rw [show plain.length + 16 - 16 = plain.length by omega]
    rw [if_neg (by omega)]
    simp only [SFault.none, Bool.false_eq_true, if_false, Option.bind_some, get_ok (show q.off + 6 ≤ q.buf.length by omega), w2,
      get_ok (show q.off + 6 + plain.length ≤ q.buf.length by omega), w3, get_ok (show q.off + 6 + plain.length + 16 ≤ q.buf.length by omega), w4,
      List.take_of_length_le (show key.length ≤ 32 by omega), List.take_of_length_le (show iv.length ≤ 12 by omega), hop,
      List.take_of_length_le (Nat.le_refl plain.length), hb', get_ok (show q.off + 6 + 2 ≤ b'.length by omega), w5, hla]
    rw [if_neg (by omega)]
    rfl
  · unfold payloadOf removeHeader
    simp only []
    rw [if_neg (by omega)]
    exact w6
  · unfold removeHeader
    simp only []
    rw [if_neg (by omega)]

theorem at_set (m : Mgr) (i : Nat) (s : Session) (h : i < m.sessions.length) : (m.set i s).at_ i = s := by
  unfold Mgr.set Mgr.at_
  simp [List.getD, h]

theorem at_set_ne (m : Mgr) (i j : Nat) (s : Session) (h : j ≠ i) : (m.set i s).at_ j = m.at_ j := by
  unfold Mgr.set Mgr.at_
  simp only [List.getD, List.getElem?_set]
  rw [if_neg (fun x => h x.symm)]

theorem find_some {m : Mgr} {id i : Nat} (h : findSession m id = some i) : id ≠ 0 ∧ i < m.sessions.length ∧ (m.at_ i).id = id := by
  unfold findSession at h
  split at h
  · cases h
  · rename_i hid
    rw [List.findIdx?_eq_some_iff_getElem] at h
    obtain ⟨h1, h2, _⟩ := h
    refine ⟨hid, h1, ?_⟩
    unfold Mgr.at_
    rw [List.getD_eq_getElem?_getD, List.getElem?_eq_getElem h1]
    exact of_decide_eq_true h2

/-- What the peer sealed with the current key and the next number is accepted, and exactly its data is handed on. -/
theorem decode_sealed (c : SCfg) (hc : c.aead.Correct) (hmax : c.maxSeq ≤ 2 ^ 64) (m : Mgr) (i : Nat) (k : Keys) (q : Msg) (app : Bytes)
    (hi : findSession m (m.at_ i).id = some i) (hs : (m.at_ i).Normal) (hid : (m.at_ i).id < 2 ^ 32) (hk : (m.at_ i).reqKeys = some k)
    (hseq : k.seq < c.maxSeq)
    (hq : payloadOf q = sealedMessage c.aead (m.at_ i).id k.key (ivFor k.salt k.seq) app) (hl : q.off + q.payloadLength ≤ q.buf.length)
    (hn : app.length + 18 < 65536) :
    ∃ q', decodeMessage c m q .none = some (.ok (), { (m.set i (m.at_ i).nextReq) with lastId := (m.at_ i).id, lastValid := true }, q',
        some ⟨k.key, ivFor k.salt k.seq⟩) ∧ payloadOf q' = app ∧ q'.off = q.off + 8 ∧ q'.buf.length = q.buf.length ∧ q'.maxResponse = q.maxResponse := by
  have hsz := reqKeys_sized hs hk
  obtain ⟨q', h1, h2⟩ := decrypt_sealed hc hs hsz.1 (ivFor_length hsz.2) hq hl hn
  refine ⟨q', ?_, h2⟩
  obtain ⟨hd, hlen⟩ := payload_drop hq hl
  have hlen4 : 4 ≤ q.payloadLength := by
    rw [← hlen]; unfold sealedMessage; simp only [List.length_append, toLE_length]; omega
  have w0 : window q.buf q.off 4 = toLE 4 (m.at_ i).id := by
    unfold sealedMessage at hd
    simp only [] at hd
    have := window_at (b := q.buf) (i := q.off) (x := []) (y := toLE 4 (m.at_ i).id) (by
      rw [hd]; simp only [List.append_assoc, List.nil_append]; rfl) 0 rfl
    rw [toLE_length] at this
    exact this
  have hle : leNat (toLE 4 (m.at_ i).id) = (m.at_ i).id := by
    rw [leNat_toLE]; exact Nat.mod_eq_of_lt (by omega)
  have hf : findSession { m with lastId := 0, lastValid := false } (m.at_ i).id = some i := hi
  have ha : ({ m with lastId := 0, lastValid := false } : Mgr).at_ i = m.at_ i := rfl
  unfold decodeMessage
  simp only []
  rw [if_neg (by omega)]
  simp only [get_ok (show q.off + 4 ≤ q.buf.length by omega), w0, hle, bind, Option.bind_some, hf, ha, hk]
  rw [if_neg (by omega), hs.iv, generateIv_eq hsz.2 (by omega)]
  simp only [Option.bind_some, hs.type, h1]
  rfl

/-- The sealing of an answer. -/
theorem encrypt_sealed {c : SCfg} (hc : c.aead.Correct) {s : Session} (hs : s.Normal) {q : Msg} {app key iv : Bytes}
    (hkey : key.length = 32) (hiv : iv.length = 12) (hq : payloadOf q = app) (hl : q.off + q.payloadLength ≤ q.buf.length) (hoff : 8 ≤ q.off)
    (hroom : q.payloadLength + 24 ≤ q.maxResponse) (hbuf : q.off + q.payloadLength + 16 ≤ q.buf.length) :
    ∃ q', encryptMessage c s q key iv .none = some (.ok (), q', some ⟨key, iv⟩) ∧ payloadOf q' = sealedMessage c.aead s.id key iv app ∧
      q'.off = q.off - 8 ∧ q'.length = q'.payloadLength := by
  obtain ⟨hd, hlen⟩ := payload_drop hq hl
  unfold sealedMessage
  simp only []
  have hpll : (toLE 2 app.length ++ app).length = 2 + app.length := by rw [List.length_append, toLE_length]
  rw [hpll]
  have hah : addHeader q 8 = { q with off := q.off - 8, length := if q.length = q.payloadLength then q.length + 8 else q.length, payloadLength := q.payloadLength + 8 } := by
    unfold addHeader
    simp only [show ¬ q.off < 8 by omega, if_false]
  generalize hh : toLE 4 s.id ++ toLE 2 (2 + app.length + 16) = header
  have hhl : header.length = 6 := by rw [← hh]; simp
  obtain ⟨b1, hb1⟩ := put_some (b := q.buf) (d := header ++ toLE 2 app.length) (i := q.off - 8) (by rw [List.length_append, hhl, toLE_length]; omega)
  have hb1l := Verif.Pcisig.put_length hb1
  have hb1d := put_drop hb1
  rw [show q.off - 8 + (header ++ toLE 2 app.length).length = q.off by rw [List.length_append, hhl, toLE_length]; omega, hd] at hb1d
  generalize q.buf.drop (q.off + q.payloadLength) = rest at hd hb1d
  have w1 : window b1 (q.off - 8) 6 = header := by
    have := window_at (b := b1) (i := q.off - 8) (x := []) (y := header) (by rw [hb1d]; simp only [List.append_assoc, List.nil_append]; rfl) 0 rfl
    rw [hhl] at this
    exact this
  have w2 : window b1 (q.off - 8 + 6) (2 + q.payloadLength) = toLE 2 app.length ++ app := by
    have := window_at (b := b1) (i := q.off - 8) (x := header) (y := toLE 2 app.length ++ app) (z := rest) (by
      rw [hb1d]; simp only [List.append_assoc]) 6 hhl.symm
    rw [hpll, show 2 + app.length = 2 + q.payloadLength by omega] at this
    exact this
  generalize hpl : toLE 2 app.length ++ app = plain at hpll w2 ⊢
  generalize hct : (c.aead.seal_ key iv header plain).1 = ct
  generalize htag : (c.aead.seal_ key iv header plain).2 = tag
  have hctl : ct.length = plain.length := by rw [← hct]; exact hc.cipher ..
  have htl : tag.length = 16 := by rw [← htag]; exact hc.tag ..
  obtain ⟨b2, hb2⟩ := put_some (b := b1) (d := ct) (i := q.off - 8 + 6) (by omega)
  have hb2l := Verif.Pcisig.put_length hb2
  obtain ⟨b3, hb3⟩ := put_some (b := b2) (d := tag) (i := q.off - 8 + 6 + (2 + q.payloadLength)) (by omega)
  have hb3l := Verif.Pcisig.put_length hb3
  have e1 : b1.take (q.off - 8 + 6) = b1.take (q.off - 8) ++ header := by
    rw [List.take_add]
    congr 1
  have e2 : b2 = b1.take (q.off - 8 + 6) ++ ct ++ b1.drop (q.off - 8 + 6 + ct.length) := by
    have := hb2; rw [put_ok (by omega)] at this; injection this with this; exact this.symm
  have e3 : b3 = b2.take (q.off - 8 + 6 + (2 + q.payloadLength)) ++ tag ++ b2.drop (q.off - 8 + 6 + (2 + q.payloadLength) + tag.length) := by
    have := hb3; rw [put_ok (by omega)] at this; injection this with this; exact this.symm
  have e4 : b2.take (q.off - 8 + 6 + (2 + q.payloadLength)) = b1.take (q.off - 8) ++ header ++ ct := by
    rw [e2, List.take_append_of_le_length (by rw [List.length_append, List.length_take]; omega), List.take_of_length_le (by
      rw [List.length_append, List.length_take]; omega), e1]
  have e5 : b3.drop (q.off - 8) = (header ++ ct ++ tag) ++ b2.drop (q.off - 8 + 6 + (2 + q.payloadLength) + tag.length) := by
    rw [e3, e4]
    simp only [List.append_assoc]
    rw [List.drop_left' (by rw [List.length_take]; omega)]
  refine ⟨setPayloadLength { (addHeader q 8) with buf := b3 } (6 + (2 + q.payloadLength) + 16), ?_, ?_, ?_, rfl⟩
  · unfold encryptMessage
    simp only [hs.tag]
    rw [if_neg (by omega)]
    simp only [hah]
    rw [show toLE 4 s.id ++ toLE 2 (2 + q.payloadLength + 16) ++ toLE 2 q.payloadLength = header ++ toLE 2 app.length by rw [← hh, hlen]]
    simp only [hb1, bind, Option.bind_some, SFault.none, Bool.false_eq_true, if_false, get_ok (show q.off - 8 + 6 ≤ b1.length by omega), w1,
      get_ok (show q.off - 8 + 6 + (2 + q.payloadLength) ≤ b1.length by omega), w2, hs.key, hs.iv,
      List.take_of_length_le (show key.length ≤ 32 by omega), List.take_of_length_le (show iv.length ≤ 12 by omega)]
    simp only [hct, htag, List.take_of_length_le (show ct.length ≤ 2 + q.payloadLength by omega), List.take_of_length_le (show tag.length ≤ 16 by omega), hb2,
      Option.bind_some, hb3]
    rfl
  · unfold payloadOf setPayloadLength
    simp only [hah]
    have := window_at (b := b3) (i := q.off - 8) (x := []) (y := header ++ ct ++ tag) (by rw [e5, List.nil_append]) 0 rfl
    rw [show (header ++ ct ++ tag).length = 6 + (2 + q.payloadLength) + 16 by simp only [List.length_append]; omega] at this
    exact this
  · simp only [setPayloadLength, hah]

/-- An answer leaves sealed with the current response key under the next number. -/
theorem encode_sealed (c : SCfg) (hc : c.aead.Correct) (hmax : c.maxSeq ≤ 2 ^ 64) (m : Mgr) (i : Nat) (k : Keys) (q : Msg)
    (hv : m.lastValid = true) (hi : findSession m m.lastId = some i) (hs : (m.at_ i).Normal) (hk : (m.at_ i).rspKeys = some k)
    (hseq : k.seq < c.maxSeq) (hn : 2 ≤ q.payloadLength) (hl : q.off + q.payloadLength ≤ q.buf.length) (hoff : 8 ≤ q.off)
    (hroom : q.payloadLength + 24 ≤ q.maxResponse) (hbuf : q.off + q.payloadLength + 16 ≤ q.buf.length) :
    ∃ q', encodeMessage c m q .none = some (.ok (), (afterEncode (m.set i (m.at_ i).nextRsp) (m.at_ i).id ((payloadOf q).getD 1 0)).1, q',
        some ⟨k.key, ivFor k.salt k.seq⟩, (afterEncode (m.set i (m.at_ i).nextRsp) (m.at_ i).id ((payloadOf q).getD 1 0)).2) ∧
      payloadOf q' = sealedMessage c.aead (m.at_ i).id k.key (ivFor k.salt k.seq) (payloadOf q) ∧ q'.off = q.off - 8 ∧ q'.length = q'.payloadLength := by
  have hsz := rspKeys_sized hs hk
  obtain ⟨q', h1, h2⟩ := encrypt_sealed hc hs hsz.1 (ivFor_length hsz.2) rfl hl hoff hroom hbuf
  refine ⟨q', ?_, h2⟩
  unfold encodeMessage
  rw [if_neg (by rw [hv]; exact fun h => nomatch h)]
  simp only [hi, hk]
  rw [if_neg (by omega), hs.iv, generateIv_eq hsz.2 (by omega)]
  have hcode : (window q.buf (q.off + 1) 1).getD 0 0 = (payloadOf q).getD 1 0 := by
    rw [Verif.Pcisig.window_one (show q.off + 1 < q.buf.length by omega)]
    unfold payloadOf window
    simp [List.getD, show 1 < q.payloadLength by omega]
  simp only [bind, Option.bind_some, get_ok (show q.off + 1 + 1 ≤ q.buf.length by omega), hs.type, h1, hcode]
  rfl

/-- A sealed answer, with its header and its tag, never exceeds the length the transport allows an answer; an answer that would is refused. -/
theorem encode_fits (c : SCfg) (m m' : Mgr) (q q' : Msg) (f : SFault) (u : Option Use) (notes : List Note)
    (h : encodeMessage c m q f = some (.ok (), m', q', u, notes)) : q'.payloadLength ≤ q.maxResponse := by
  unfold encodeMessage at h
  split at h
  · cases h
  · split at h
    · cases h
    · rename_i i hi
      simp only [] at h
      split at h
      · cases h
      · split at h
        · cases h
        · simp only [bind, Option.bind_eq_some_iff] at h
          obtain ⟨iv, hiv, code, hcode, h⟩ := h
          split at h
          · simp only [Option.bind_eq_some_iff] at h
            obtain ⟨⟨r, q1, u1⟩, he, h⟩ := h
            cases r with
            | error e => cases h
            | ok _ =>
              simp only [pure, Option.some.injEq, Prod.mk.injEq] at h
              obtain ⟨-, -, rfl, -, -⟩ := h
              unfold encryptMessage at he
              simp only [] at he
              split at he
              · cases he
              · rename_i hroom
                simp only [bind, Option.bind_eq_some_iff] at he
                obtain ⟨b, hb, he⟩ := he
                split at he
                · cases he
                · simp only [Option.bind_eq_some_iff] at he
                  obtain ⟨aad, ha, pl, hp, he⟩ := he
                  split at he
                  · cases he
                  · simp only [Option.bind_eq_some_iff] at he
                    obtain ⟨b1, h1, b2, h2, he⟩ := he
                    simp only [pure, Option.some.injEq, Prod.mk.injEq] at he
                    obtain ⟨-, rfl, -⟩ := he
                    simp only [setPayloadLength]
                    omega
          · cases h

end Verif.Spdm
