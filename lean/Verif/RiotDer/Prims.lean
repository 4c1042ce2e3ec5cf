import Verif.RiotDer.Lemmas
/-! Helper lemmas: what each builder function for a single value adds. -/
namespace Verif.RiotDer
open Verif

theorem tlv_small (tag : UInt8) (b : Bytes) (h : b.length < 128) :
    Spec.tlv tag b = [tag, UInt8.ofNat b.length] ++ b := by
  simp [Spec.tlv, lenOctets_small h]

/-- Two stores in a row. -/
theorem put_put {a b : Bytes} {c c1 c2 : Ctx} (hp : c.pos ≤ c.buf.length) (hl : c.buf.length < 65536)
    (h1 : put a c = .ok c1) (h2 : put b c1 = .ok c2) : Grew c (a ++ b) c2 := by
  have g := put_exact a c c1 hp hl h1
  exact g.trans (put_exact b c1 c2 g.inb (by rw [g.len]; exact hl) h2)

theorem put_put_fits {a b : Bytes} {c : Ctx} (h : c.pos + (a ++ b).length ≤ c.buf.length) :
    ∃ c1 c2, put a c = .ok c1 ∧ put b c1 = .ok c2 := by
  rw [List.length_append] at h
  refine ⟨_, _, put_ok.2 ⟨by omega, rfl⟩, put_ok.2 ⟨?_, rfl⟩⟩
  show c.pos + a.length + b.length ≤ (writeAt _ _ _).length
  rw [writeAt_length]; omega

theorem addString_exact (tag : UInt8) (s : Bytes) : Exact (addString tag s) (Spec.tlv tag s) := by
  intro c c' hp hl h
  unfold addString at h
  simp only [Res.bind_eq_ok, asrt_ok, chk2_ok, decide_eq_true_eq] at h
  obtain ⟨_, ⟨rfl, h1⟩, _, ⟨rfl, _⟩, c1, h3, h4⟩ := h
  rw [tlv_small _ _ (by omega)]
  exact put_put hp hl h3 h4

theorem addString_fits (tag : UInt8) (s : Bytes) (hs : s.length < 127) :
    Fits 0 (addString tag s) (Spec.tlv tag s) := by
  intro c hp hl _
  rw [tlv_small _ _ (by omega)] at hp
  obtain ⟨c1, c2, h1, h2⟩ := put_put_fits (c := c) (a := [tag, UInt8.ofNat s.length]) (b := s) (by omega)
  refine ⟨c2, ?_⟩
  unfold addString
  simp only [Res.bind_eq_ok, asrt_ok, chk2_ok, decide_eq_true_eq]
  exact ⟨_, ⟨rfl, hs⟩, _, ⟨rfl, by omega⟩, c1, h1, h2⟩

theorem addEncodedOID_eq (s : Bytes) (c : Ctx) : addEncodedOID s c = addString 0x06 s c := rfl

theorem addEncodedOID_exact (s : Bytes) : Exact (addEncodedOID s) (Spec.tlv 0x06 s) :=
  addString_exact 0x06 s
theorem addEncodedOID_fits (s : Bytes) (hs : s.length < 127) :
    Fits 0 (addEncodedOID s) (Spec.tlv 0x06 s) := addString_fits 0x06 s hs

theorem addUTF8String_exact (s : Bytes) : Exact (addUTF8String s) (Spec.utf8 s) := addString_exact 0x0c s
theorem addUTF8String_fits (s : Bytes) (hs : s.length < 127) : Fits 0 (addUTF8String s) (Spec.utf8 s) :=
  addString_fits 0x0c s hs

/-- UTCTime (13 characters) or GeneralizedTime (15). -/
def timeTag (s : Bytes) : UInt8 := if s.length = 13 then 0x17 else 0x18

theorem addTime_exact (s : Bytes) : Exact (addTime s) (Spec.tlv (timeTag s) s) := by
  intro c c' hp hl h
  unfold addTime at h
  simp only [Res.bind_eq_ok, asrt_ok, chk_ok, decide_eq_true_eq] at h
  obtain ⟨_, ⟨rfl, h1⟩, _, ⟨rfl, _⟩, c1, h3, h4⟩ := h
  rw [tlv_small _ _ (by omega)]
  exact put_put hp hl h3 h4

theorem addTime_fits (s : Bytes) (hs : s.length = 13 ∨ s.length = 15) :
    Fits 0 (addTime s) (Spec.tlv (timeTag s) s) := by
  intro c hp hl _
  rw [tlv_small _ _ (by omega)] at hp
  obtain ⟨c1, c2, h1, h2⟩ := put_put_fits (c := c) (a := [timeTag s, UInt8.ofNat s.length]) (b := s) (by omega)
  refine ⟨c2, ?_⟩
  unfold addTime
  simp only [Res.bind_eq_ok, asrt_ok, chk_ok, decide_eq_true_eq]
  exact ⟨_, ⟨rfl, hs⟩, _, ⟨rfl, by omega⟩, c1, h1, h2⟩

theorem addBoolean_exact (b : Bool) : Exact (addBoolean b) (Spec.bool b) := by
  intro c c' hp hl h
  unfold addBoolean at h
  simp only [Res.bind_eq_ok, chk_ok] at h
  obtain ⟨_, ⟨rfl, _⟩, h3⟩ := h
  exact put_exact _ _ c' hp hl h3

theorem addBoolean_fits (b : Bool) : Fits 0 (addBoolean b) (Spec.bool b) := by
  intro c hp hl _
  obtain ⟨c', h⟩ := put_fits (c := c) (bs := Spec.bool b) (by omega)
  refine ⟨c', ?_⟩
  unfold addBoolean
  simp only [Res.bind_eq_ok, chk_ok]
  exact ⟨_, ⟨rfl, by omega⟩, h⟩

theorem addNull_exact : Exact addNull (Spec.tlv 0x05 []) := by
  intro c c' hp hl h
  unfold addNull at h
  simp only [Res.bind_eq_ok, chk_ok] at h
  obtain ⟨_, ⟨rfl, _⟩, h3⟩ := h
  exact put_exact _ _ c' hp hl h3

theorem addNull_fits : Fits 0 addNull (Spec.tlv 0x05 []) := by
  intro c hp hl _
  obtain ⟨c', h⟩ := put_fits (c := c) (bs := Spec.tlv 0x05 []) (by omega)
  refine ⟨c', ?_⟩
  unfold addNull
  simp only [Res.bind_eq_ok, chk_ok]
  exact ⟨_, ⟨rfl, by omega⟩, h⟩

theorem addDER_exact (b : Bytes) : Exact (addDER b) b := by
  intro c c' hp hl h
  unfold addDER at h
  simp only [Res.bind_eq_ok, chk2_ok] at h
  obtain ⟨_, ⟨rfl, _⟩, h3⟩ := h
  exact put_exact _ _ c' hp hl h3

theorem addDER_fits (b : Bytes) : Fits 0 (addDER b) b := by
  intro c hp hl _
  obtain ⟨c', h⟩ := put_fits (c := c) (bs := b) (by omega)
  refine ⟨c', ?_⟩
  unfold addDER
  simp only [Res.bind_eq_ok, chk2_ok]
  exact ⟨_, ⟨rfl, by omega⟩, h⟩

theorem putLen_len {n : Nat} {c c' : Ctx} (h : putLen n c = .ok c') : c'.buf.length = c.buf.length := by
  unfold putLen at h
  split at h
  · obtain ⟨_, rfl⟩ := put_ok.1 h; exact writeAt_length ..
  · cases h; rfl

theorem addData_exact (tag : UInt8) (b : Bytes) : Exact (addData tag b) (Spec.tlv tag b) := by
  intro c c' hp hl h
  unfold addData at h
  simp only [Res.bind_eq_ok, chk2_ok] at h
  obtain ⟨_, ⟨rfl, _⟩, c1, h1, c2, h2, h3⟩ := h
  have g1 := put_exact _ _ c1 hp hl h1
  have hb : b.length < 65536 := by
    have := (put_ok.1 h3).1
    rw [putLen_len h2, g1.len] at this
    omega
  rw [putLen_eq hb] at h2
  have g2 := g1.trans (put_exact _ c1 c2 g1.inb (by rw [g1.len]; exact hl) h2)
  have g3 := g2.trans (put_exact _ c2 c' g2.inb (by rw [g2.len]; exact hl) h3)
  simpa [Spec.tlv] using g3

theorem addData_fits (tag : UInt8) (b : Bytes) : Fits 0 (addData tag b) (Spec.tlv tag b) := by
  intro c hp hl _
  rw [tlv_length] at hp
  unfold addData
  simp only [Res.bind_eq_ok, chk2_ok]
  obtain ⟨c1, h1⟩ := put_fits (c := c) (bs := [tag]) (by simp; omega)
  have g1 := put_exact _ c c1 (by omega) hl h1
  have p1 : c1.pos = c.pos + 1 := g1.pos
  obtain ⟨c2, h2⟩ := put_fits (c := c1) (bs := Spec.lenOctets b.length) (by rw [g1.len]; omega)
  have g2 := put_exact _ c1 c2 g1.inb (by rw [g1.len]; exact hl) h2
  obtain ⟨c3, h3⟩ := put_fits (c := c2) (bs := b) (by rw [g2.len, g2.pos, g1.len]; omega)
  exact ⟨c3, _, ⟨rfl, by omega⟩, c1, h1, c2, by rw [putLen_eq (by omega)]; exact h2, h3⟩

theorem addOctetString_exact (b : Bytes) : Exact (addOctetString b) (Spec.octets b) := addData_exact 0x04 b
theorem addOctetString_fits (b : Bytes) : Fits 0 (addOctetString b) (Spec.octets b) := addData_fits 0x04 b
theorem addAuthKeyBitString_exact (b : Bytes) : Exact (addAuthKeyBitString b) (Spec.tlv 0x80 b) :=
  addData_exact 0x80 b
theorem addAuthKeyBitString_fits (b : Bytes) : Fits 0 (addAuthKeyBitString b) (Spec.tlv 0x80 b) :=
  addData_fits 0x80 b

theorem addNamedBitString_exact (b : Bytes) (n : Nat) :
    Exact (addNamedBitString b n) (Spec.bits (UInt8.ofNat (b.length * 8 - n)) b) := by
  intro c c' hp hl h
  unfold addNamedBitString at h
  simp only [Res.bind_eq_ok, chk2_ok, asrt_ok] at h
  obtain ⟨_, ⟨rfl, _⟩, _, ⟨rfl, _⟩, c1, h1, c2, h2, c3, h3, h4⟩ := h
  have g1 := put_exact _ _ c1 hp hl h1
  have hb : b.length + 1 < 65536 := by
    have l2 := putLen_len h2
    obtain ⟨x, rfl⟩ := put_ok.1 h3
    obtain ⟨y, _⟩ := put_ok.1 h4
    have y' : c2.pos + 1 + b.length ≤ (writeAt c2.buf c2.pos [UInt8.ofNat (b.length * 8 - n)]).length := y
    rw [writeAt_length, l2, g1.len] at y'
    omega
  rw [putLen_eq hb] at h2
  have g2 := g1.trans (put_exact _ c1 c2 g1.inb (by rw [g1.len]; exact hl) h2)
  have g3 := g2.trans (put_exact _ c2 c3 g2.inb (by rw [g2.len]; exact hl) h3)
  have g4 := g3.trans (put_exact _ c3 c' g3.inb (by rw [g3.len]; exact hl) h4)
  simpa [Spec.tlv, Spec.bits] using g4

theorem addNamedBitString_fits (b : Bytes) (n : Nat) (h1 : n ≤ b.length * 8) (h2 : b.length * 8 - n ≤ 7) :
    Fits 0 (addNamedBitString b n) (Spec.bits (UInt8.ofNat (b.length * 8 - n)) b) := by
  intro c hp hl _
  rw [Spec.bits, tlv_length, List.length_cons] at hp
  unfold addNamedBitString
  simp only [Res.bind_eq_ok, chk2_ok, asrt_ok, decide_eq_true_eq]
  obtain ⟨c1, k1⟩ := put_fits (c := c) (bs := [0x03]) (by simp; omega)
  have g1 := put_exact _ c c1 (by omega) hl k1
  have p1 : c1.pos = c.pos + 1 := g1.pos
  obtain ⟨c2, k2⟩ := put_fits (c := c1) (bs := Spec.lenOctets (b.length + 1)) (by rw [g1.len]; omega)
  have g2 := put_exact _ c1 c2 g1.inb (by rw [g1.len]; exact hl) k2
  have p2 := g2.pos
  have l2 : c2.buf.length = c.buf.length := by rw [g2.len, g1.len]
  obtain ⟨c3, k3⟩ := put_fits (c := c2) (bs := [UInt8.ofNat (b.length * 8 - n)]) (by simp; omega)
  have g3 := put_exact _ c2 c3 g2.inb (by omega) k3
  have p3 : c3.pos = c2.pos + 1 := g3.pos
  obtain ⟨c4, k4⟩ := put_fits (c := c3) (bs := b) (by rw [g3.len]; omega)
  exact ⟨c4, _, ⟨rfl, h1, h2⟩, _, ⟨rfl, by omega⟩, c1, k1, c2, by rw [putLen_eq (by omega)]; exact k2,
    c3, k3, k4⟩

theorem addBitString_exact (b : Bytes) : Exact (addBitString b) (Spec.bits 0 b) := by
  have := addNamedBitString_exact b (b.length * 8)
  rw [Nat.sub_self] at this; exact this
theorem addBitString_fits (b : Bytes) : Fits 0 (addBitString b) (Spec.bits 0 b) := by
  have := addNamedBitString_fits b (b.length * 8) (by omega) (by omega)
  rw [Nat.sub_self] at this; exact this

/-! ### Integers -/

theorem natBytes_snoc (n : Nat) (b : UInt8) (h : n * 256 + b.toNat ≠ 0) :
    Spec.natBytes (n * 256 + b.toNat) = Spec.natBytes n ++ [b] := by
  have hb := b.toNat_lt
  rw [Spec.natBytes, if_neg h, show (n * 256 + b.toNat) / 256 = n by omega,
    show (n * 256 + b.toNat) % 256 = b.toNat by omega]
  simp

theorem stripZeros_snoc (l : Bytes) (b : UInt8) :
    stripZeros (l ++ [b]) =
      if stripZeros l = [] then (if b = 0 then [] else [b]) else stripZeros l ++ [b] := by
  induction l with
  | nil => simp [stripZeros]
  | cons x xs ih =>
    simp only [List.cons_append, stripZeros]
    split
    · exact ih
    · simp

theorem stripZeros_nil {l : Bytes} : stripZeros l = [] ↔ beNat l = 0 := by
  induction l with
  | nil => simp [stripZeros]
  | cons x xs ih =>
    simp only [stripZeros, beNat_cons]
    split
    · rename_i h; subst h; rw [ih]; simp
    · rename_i h
      have h0 : x.toNat ≠ 0 := fun e => h (UInt8.toNat_inj.1 (by simpa using e))
      have : 0 < x.toNat * 256 ^ xs.length := Nat.mul_pos (by omega) (Nat.pow_pos (by omega))
      simp; omega

theorem natBytes_beNat (l : Bytes) : Spec.natBytes (beNat l) = stripZeros l := by
  induction hn : l.length generalizing l with
  | zero => rw [List.length_eq_zero_iff.1 hn]; exact natBytes_zero
  | succ n ih =>
    have hne : l ≠ [] := by intro e; rw [e] at hn; simp at hn
    obtain ⟨xs, x, rfl⟩ : ∃ xs x, l = xs ++ [x] :=
      ⟨l.dropLast, l.getLast hne, (List.dropLast_concat_getLast hne).symm⟩
    have hx : xs.length = n := by simpa using hn
    rw [beNat_append_singleton, stripZeros_snoc]
    by_cases h : beNat xs * 256 + x.toNat = 0
    · have h1 : beNat xs = 0 := by omega
      have h2 : x = 0 := UInt8.toNat_inj.1 (by simp; omega)
      rw [h, natBytes_zero, if_pos (stripZeros_nil.2 h1), if_pos h2]
    · rw [natBytes_snoc _ _ h, ih xs hx]
      by_cases h1 : beNat xs = 0
      · have h3 := stripZeros_nil.2 h1
        have h2 : x ≠ 0 := by intro e; subst e; simp [h1] at h
        rw [h3, if_pos rfl, if_neg h2]; rfl
      · rw [if_neg (fun e => h1 (stripZeros_nil.1 e))]

/-- What is stored after the tag is a one-byte length and the contents octets of the standard. -/
theorem intBytes_eq (v : Bytes) :
    intBytes v = UInt8.ofNat (Spec.intContent (beNat v)).length :: Spec.intContent (beNat v) := by
  unfold intBytes Spec.intContent
  rw [natBytes_beNat]
  cases h : stripZeros v with
  | nil => rw [if_pos (stripZeros_nil.1 h)]; rfl
  | cons b bs =>
    rw [if_neg (fun e => by rw [stripZeros_nil.2 e] at h; cases h)]
    by_cases hb : b < 128
    · simp only [if_pos hb]; rw [if_neg (by simpa using hb)]
    · simp only [if_neg hb]; rw [if_pos (by simpa using hb)]; rfl

theorem stripZeros_length (v : Bytes) : (stripZeros v).length ≤ v.length := by
  induction v with
  | nil => simp [stripZeros]
  | cons b bs ih => simp only [stripZeros]; split <;> simp <;> omega

theorem intContent_length (v : Bytes) : (Spec.intContent (beNat v)).length ≤ v.length + 1 := by
  have := stripZeros_length v
  unfold Spec.intContent
  rw [natBytes_beNat]
  split
  · simp
  · split
    · simp
    · rename_i h; rw [h] at this; simp at this
      split <;> simp <;> omega

theorem addInt_exact (v : Bytes) (tag : UInt8) (hc : (Spec.intContent (beNat v)).length < 128) :
    Exact (addTaggedIntegerFromArray v tag) (Spec.tlv tag (Spec.intContent (beNat v))) := by
  intro c c' hp hl h
  unfold addTaggedIntegerFromArray at h
  simp only [Res.bind_eq_ok, asrt_ok, chk2_ok, decide_eq_true_eq] at h
  obtain ⟨_, ⟨rfl, h1⟩, _, ⟨rfl, _⟩, c1, h3, h4⟩ := h
  have := put_put hp hl h3 h4
  rw [intBytes_eq] at this
  rw [tlv_small _ _ hc]
  exact this

theorem addInt_fits (v : Bytes) (tag : UInt8) (hv : v.length < 128)
    (hc : (Spec.intContent (beNat v)).length < 128) :
    Fits 0 (addTaggedIntegerFromArray v tag) (Spec.tlv tag (Spec.intContent (beNat v))) := by
  intro c hp hl _
  rw [tlv_small _ _ hc] at hp
  obtain ⟨c1, c2, h1, h2⟩ := put_put_fits (a := [tag])
    (b := UInt8.ofNat (Spec.intContent (beNat v)).length :: Spec.intContent (beNat v))
    (show c.pos + _ ≤ _ by simp at hp ⊢; omega)
  refine ⟨c2, ?_⟩
  unfold addTaggedIntegerFromArray
  simp only [Res.bind_eq_ok, asrt_ok, chk2_ok, decide_eq_true_eq]
  exact ⟨_, ⟨rfl, hv⟩, _, ⟨rfl, by omega⟩, c1, h1, by rw [intBytes_eq]; exact h2⟩

theorem beNat_toBE4 (v : UInt32) : beNat (toBE 4 v.toNat) = v.toNat := by
  have h := v.toNat_lt
  simp only [toBE, List.nil_append, List.cons_append, beNat_cons, beNat_nil, List.length_cons,
    List.length_nil, UInt8.toNat_ofNat']
  omega

theorem toBE4_length (n : Nat) : (toBE 4 n).length = 4 := rfl

theorem intContent32 (v : UInt32) : (Spec.intContent v.toNat).length < 128 := by
  have := intContent_length (toBE 4 v.toNat)
  rw [beNat_toBE4, toBE4_length] at this; omega

theorem addTaggedInteger_exact (v : UInt32) (tag : UInt8) :
    Exact (addTaggedInteger v tag) (Spec.tlv tag (Spec.intContent v.toNat)) := by
  have := addInt_exact (toBE 4 v.toNat) tag (by rw [beNat_toBE4]; exact intContent32 v)
  rwa [beNat_toBE4] at this

theorem addTaggedInteger_fits (v : UInt32) (tag : UInt8) :
    Fits 0 (addTaggedInteger v tag) (Spec.tlv tag (Spec.intContent v.toNat)) := by
  have := addInt_fits (toBE 4 v.toNat) tag (by rw [toBE4_length]; omega)
    (by rw [beNat_toBE4]; exact intContent32 v)
  rwa [beNat_toBE4] at this

theorem addInteger_exact (v : UInt32) : Exact (addInteger v) (Spec.int v.toNat) :=
  addTaggedInteger_exact v 0x02
theorem addInteger_fits (v : UInt32) : Fits 0 (addInteger v) (Spec.int v.toNat) :=
  addTaggedInteger_fits v 0x02

theorem short_int {v : UInt32} (h : v < 127) : Spec.int v.toNat = [0x02, 1, UInt8.ofNat v.toNat] := by
  have hv : v.toNat < 127 := h
  unfold Spec.int Spec.intContent
  by_cases h0 : v.toNat = 0
  · rw [if_pos h0, h0]; rfl
  · rw [if_neg h0, natBytes_byte h0 (by omega)]
    have : UInt8.ofNat v.toNat < 128 := by
      rw [UInt8.lt_iff_toNat_lt]; simp; omega
    simp only [if_pos this]; rfl

theorem addShort_exact (v : UInt32) :
    Exact (addShortExplicitInteger v) (Spec.explicit 0 [Spec.int v.toNat]) := by
  intro c c' hp hl h
  unfold addShortExplicitInteger at h
  simp only [Res.bind_eq_ok, asrt_ok, decide_eq_true_eq] at h
  obtain ⟨_, ⟨rfl, h1⟩, c1, h3, h4⟩ := h
  have g1 := put_exact _ _ c1 hp hl h3
  have g2 := addInteger_exact v c1 c' g1.inb (by rw [g1.len]; exact hl) h4
  have g := g1.trans g2
  rw [short_int h1] at g ⊢
  exact g

theorem addShort_fits (v : UInt32) (h : v < 127) :
    Fits 0 (addShortExplicitInteger v) (Spec.explicit 0 [Spec.int v.toNat]) := by
  intro c hp hl hd
  have e : (Spec.explicit 0 [Spec.int v.toNat]).length = 5 := by rw [short_int h]; rfl
  rw [e] at hp
  obtain ⟨c1, h1⟩ := put_fits (c := c) (bs := [0xa0, 3]) (by simp; omega)
  have g1 := put_exact _ c c1 (by omega) hl h1
  have p1 : c1.pos = c.pos + 2 := g1.pos
  obtain ⟨c2, h2⟩ := addInteger_fits v c1
    (by rw [short_int h, g1.len]; simp only [List.length_cons, List.length_nil]; omega)
    (by rw [g1.len]; exact hl) (by rw [g1.stack]; exact hd)
  refine ⟨c2, ?_⟩
  unfold addShortExplicitInteger
  simp only [Res.bind_eq_ok, asrt_ok, decide_eq_true_eq]
  exact ⟨_, ⟨rfl, h⟩, c1, h1, h2⟩

end Verif.RiotDer
