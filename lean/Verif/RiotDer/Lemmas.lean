import Verif.RiotDer.Spec
import Verif.RiotDer.Model
/-! Helper lemmas: what one builder function adds to the encoding, and how that composes. -/
namespace Verif.RiotDer
open Verif

/-- Calls made one after the other, stopping at the first that fails: `DER_CHK_ENCODE`,
x509_cert_build.c:31. -/
def calls : List (Ctx → Out) → Ctx → Out
  | [], c => .ok c
  | f :: fs, c => f c >>= calls fs

/-- `c'` is `c` with `b` appended to the encoding. -/
structure Grew (c : Ctx) (b : Bytes) (c' : Ctx) : Prop where
  out : c'.out = c.out ++ b
  pos : c'.pos = c.pos + b.length
  stack : c'.stack = c.stack
  len : c'.buf.length = c.buf.length
  inb : c'.pos ≤ c'.buf.length

/-- In a buffer of less than 64 KiB, `f` appends `b` whenever it succeeds. -/
def Exact (f : Ctx → Out) (b : Bytes) : Prop :=
  ∀ c c', c.pos ≤ c.buf.length → c.buf.length < 65536 → f c = .ok c' → Grew c b c'

/-- `f`, which appends `b` and nests `d` collections, succeeds if 32 bytes are left after it. -/
def Fits (d : Nat) (f : Ctx → Out) (b : Bytes) : Prop :=
  ∀ c, c.pos + b.length + 32 ≤ c.buf.length → c.buf.length < 65536 → c.stack.length + d ≤ maxNested →
    ∃ c', f c = .ok c'

theorem Grew.refl {c : Ctx} (h : c.pos ≤ c.buf.length) : Grew c [] c :=
  ⟨by simp, by simp, rfl, rfl, h⟩

theorem Grew.trans {c c' c'' : Ctx} {a b : Bytes} (h : Grew c a c') (h' : Grew c' b c'') :
    Grew c (a ++ b) c'' :=
  ⟨by rw [h'.out, h.out, List.append_assoc], by rw [h'.pos, h.pos, List.length_append]; omega,
   by rw [h'.stack, h.stack], by rw [h'.len, h.len], h'.inb⟩

theorem take_writeAt' (b d : Bytes) (p : Nat) (h : p + d.length ≤ b.length) :
    (writeAt b p d).take (p + d.length) = b.take p ++ d := by
  simp only [writeAt]
  rw [List.take_of_length_le (by omega : d.length ≤ b.length - p)]
  rw [List.take_append_of_le_length (by simp; omega)]
  apply List.take_of_length_le; simp; omega

theorem chk_ok {c c' : Ctx} : chk c = .ok c' ↔ c' = c ∧ 32 ≤ c.buf.length - c.pos := by
  unfold chk; split <;> simp <;> grind
theorem chk2_ok {c c' : Ctx} {n : Nat} :
    chk2 c n = .ok c' ↔ c' = c ∧ 32 ≤ (c.buf.length - c.pos) + n := by
  unfold chk2; split <;> simp <;> grind
theorem asrt_ok {c c' : Ctx} {p : Bool} : asrt p c = .ok c' ↔ c' = c ∧ p = true := by
  unfold asrt; split <;> simp <;> grind
theorem put_ok {c c' : Ctx} {bs : Bytes} :
    put bs c = .ok c' ↔ c.pos + bs.length ≤ c.buf.length ∧
      c' = { c with buf := writeAt c.buf c.pos bs, pos := c.pos + bs.length } := by
  unfold put; split <;> simp <;> grind

theorem put_exact (bs : Bytes) : Exact (put bs) bs := by
  intro c c' hp _ h
  obtain ⟨hl, rfl⟩ := put_ok.1 h
  exact ⟨take_writeAt' _ _ _ hl, rfl, rfl, writeAt_length .., by simpa using hl⟩

theorem put_fits {c : Ctx} {bs : Bytes} (h : c.pos + bs.length ≤ c.buf.length) :
    ∃ c', put bs c = .ok c' := ⟨_, put_ok.2 ⟨h, rfl⟩⟩

/-- The length octets agree with the standard below 64 KiB. -/
theorem natBytes_zero : Spec.natBytes 0 = [] := by rw [Spec.natBytes]; simp
theorem natBytes_byte {n : Nat} (h0 : n ≠ 0) (h : n < 256) : Spec.natBytes n = [UInt8.ofNat n] := by
  rw [Spec.natBytes, if_neg h0, show n / 256 = 0 by omega, natBytes_zero,
    show n % 256 = n by omega]; rfl

theorem encInt_len {n : Nat} (h : n < 65536) : encInt n = some (Spec.lenOctets n) := by
  unfold encInt Spec.lenOctets
  rw [if_pos (by omega)]
  split
  · rfl
  · split
    · rename_i h1 h2
      rw [natBytes_byte (by omega) h2]; rfl
    · rename_i h1 h2
      rw [Spec.natBytes, if_neg (by omega), natBytes_byte (by omega) (by omega)]
      rfl

theorem lenOctets_pos (n : Nat) : 1 ≤ (Spec.lenOctets n).length := by
  unfold Spec.lenOctets; split <;> simp

theorem lenOctets_small {n : Nat} (h : n < 128) : Spec.lenOctets n = [UInt8.ofNat n] := by
  unfold Spec.lenOctets; rw [if_pos h]

theorem lenOctets_le {n : Nat} (h : n < 65536) : (Spec.lenOctets n).length ≤ 3 := by
  have := encInt_len h
  unfold encInt at this
  grind

theorem tlv_length (t : UInt8) (b : Bytes) :
    (Spec.tlv t b).length = 1 + (Spec.lenOctets b.length).length + b.length := by
  simp [Spec.tlv]; omega

theorem putLen_eq {n : Nat} (h : n < 65536) (c : Ctx) : putLen n c = put (Spec.lenOctets n) c := by
  unfold putLen; rw [encInt_len h]

/-! ### Composition -/

theorem exact_nil : Exact (calls []) [] := by
  intro c c' hp _ h; simp only [calls, Res.ok.injEq] at h; subst h; exact Grew.refl hp

theorem exact_cons {f : Ctx → Out} {fs : List (Ctx → Out)} {a b : Bytes} (hf : Exact f a)
    (hs : Exact (calls fs) b) : Exact (calls (f :: fs)) (a ++ b) := by
  intro c c' hp hl h
  obtain ⟨c1, h1, h2⟩ := Res.bind_eq_ok.1 h
  have g := hf c c1 hp hl h1
  exact g.trans (hs c1 c' g.inb (by rw [g.len]; exact hl) h2)

theorem calls_append (fs gs : List (Ctx → Out)) (c : Ctx) :
    calls (fs ++ gs) c = calls fs c >>= calls gs := by
  induction fs generalizing c with
  | nil => rfl
  | cons f fs ih =>
    simp only [List.cons_append, calls]
    cases h : f c with
    | ok a => simp [ih]
    | err e => rfl
    | oob => rfl

theorem exact_append {fs gs : List (Ctx → Out)} {a b : Bytes} (hf : Exact (calls fs) a)
    (hg : Exact (calls gs) b) : Exact (calls (fs ++ gs)) (a ++ b) := by
  intro c c' hp hl h
  rw [calls_append] at h
  obtain ⟨c1, h1, h2⟩ := Res.bind_eq_ok.1 h
  have g := hf c c1 hp hl h1
  exact g.trans (hg c1 c' g.inb (by rw [g.len]; exact hl) h2)

theorem fits_nil (d : Nat) : Fits d (calls []) [] := fun c _ _ _ => ⟨c, rfl⟩

theorem fits_cons {f : Ctx → Out} {fs : List (Ctx → Out)} {a b : Bytes} {d : Nat} (ef : Exact f a)
    (hf : Fits d f a) (hs : Fits d (calls fs) b) : Fits d (calls (f :: fs)) (a ++ b) := by
  intro c hp hl hd
  rw [List.length_append] at hp
  obtain ⟨c1, h1⟩ := hf c (by omega) hl hd
  have g := ef c c1 (by omega) hl h1
  obtain ⟨c2, h2⟩ := hs c1 (by rw [g.pos, g.len]; omega) (by rw [g.len]; exact hl)
    (by rw [g.stack]; exact hd)
  exact ⟨c2, Res.bind_eq_ok.2 ⟨c1, h1, h2⟩⟩

theorem fits_append {fs gs : List (Ctx → Out)} {a b : Bytes} {d : Nat} (ef : Exact (calls fs) a)
    (hf : Fits d (calls fs) a) (hs : Fits d (calls gs) b) : Fits d (calls (fs ++ gs)) (a ++ b) := by
  intro c hp hl hd
  rw [List.length_append] at hp
  obtain ⟨c1, h1⟩ := hf c (by omega) hl hd
  have g := ef c c1 (by omega) hl h1
  obtain ⟨c2, h2⟩ := hs c1 (by rw [g.pos, g.len]; omega) (by rw [g.len]; exact hl)
    (by rw [g.stack]; exact hd)
  exact ⟨c2, by rw [calls_append]; exact Res.bind_eq_ok.2 ⟨c1, h1, h2⟩⟩

theorem Fits.mono {f : Ctx → Out} {b : Bytes} {d e : Nat} (h : Fits d f b) (hd : d ≤ e) : Fits e f b :=
  fun c hp hl hs => h c hp hl (by omega)

theorem start_ok {tag : UInt8} {c c' : Ctx} :
    startConstructed tag c = .ok c' ↔ 32 ≤ c.buf.length - c.pos ∧ c.stack.length < maxNested ∧
      c' = ⟨writeAt c.buf c.pos [tag], c.pos + 1, (c.pos + 1) :: c.stack⟩ := by
  unfold startConstructed
  simp only [Res.bind_eq_ok, chk_ok, asrt_ok, put_ok, push, Res.ok.injEq, decide_eq_true_eq]
  constructor
  · rintro ⟨_, ⟨rfl, h1⟩, _, ⟨rfl, h2⟩, _, ⟨h3, rfl⟩, rfl⟩
    exact ⟨h1, h2, rfl⟩
  · rintro ⟨h1, h2, rfl⟩
    exact ⟨_, ⟨rfl, h1⟩, _, ⟨rfl, h2⟩, _, ⟨by simp; omega, rfl⟩, rfl⟩

theorem insert_out (c : Ctx) (s : Nat) (l : Bytes) (hs : s ≤ c.pos)
    (hl : s + l.length + (c.pos - s) ≤ c.buf.length) :
    (writeAt (writeAt c.buf (s + l.length) (window c.buf s (c.pos - s))) s l).take (c.pos + l.length) =
      c.buf.take s ++ l ++ window c.buf s (c.pos - s) := by
  have hw : (window c.buf s (c.pos - s)).length = c.pos - s := by
    simp [window]; omega
  have h1 := take_writeAt' c.buf (window c.buf s (c.pos - s)) (s + l.length) (by rw [hw]; exact hl)
  rw [hw] at h1
  have e : s + l.length + (c.pos - s) = c.pos + l.length := by omega
  rw [e] at h1
  generalize hX : writeAt c.buf (s + l.length) (window c.buf s (c.pos - s)) = X at *
  have hXl : X.length = c.buf.length := by rw [← hX, writeAt_length]
  simp only [writeAt]
  rw [List.take_of_length_le (by omega : l.length ≤ X.length - s)]
  rw [List.take_append, List.take_of_length_le (by simp; omega)]
  have hlen2 : (X.take s ++ l).length = s + l.length := by simp; omega
  rw [hlen2, show c.pos + l.length - (s + l.length) = c.pos - s by omega]
  have hs1 : X.take s = c.buf.take s := by
    have := congrArg (List.take s) h1
    rw [List.take_take, List.take_append_of_le_length (by simp; omega), List.take_take] at this
    rw [show min s (c.pos + l.length) = s by omega, show min s (s + l.length) = s by omega] at this
    exact this
  have hs2 : (X.drop (s + l.length)).take (c.pos - s) = window c.buf s (c.pos - s) := by
    have := congrArg (List.drop (s + l.length)) h1
    rw [List.drop_take, show c.pos + l.length - (s + l.length) = c.pos - s by omega,
      List.drop_left' (by rw [List.length_take]; omega)] at this
    exact this
  rw [hs1, hs2]

/-- The outcome of closing a collection that starts at `s` and holds `b`. -/
theorem pop_grew {c : Ctx} {s : Nat} {rest : List Nat} {pre b : Bytes} (hs : c.stack = s :: rest)
    (hin : c.pos ≤ c.buf.length) (hout : c.out = pre ++ b) (hpre : pre.length = s)
    (hlen : c.buf.length < 65536) (hroom : 32 ≤ c.buf.length - c.pos) :
    ∃ c', popNesting c = .ok c' ∧ c'.out = pre ++ (Spec.lenOctets b.length ++ b) ∧
      c'.pos = c.pos + (Spec.lenOctets b.length).length ∧ c'.stack = rest ∧
      c'.buf.length = c.buf.length ∧ c'.pos ≤ c'.buf.length := by
  have hpos : c.pos = s + b.length := by
    have := congrArg List.length hout
    simp [Ctx.out] at this; omega
  have hn : c.pos - s = b.length := by omega
  have hw : window c.buf s b.length = b := by
    have := congrArg (List.drop s) hout
    rw [Ctx.out, List.drop_take, List.drop_left' hpre, hn] at this
    exact this
  have htk : c.buf.take s = pre := by
    have := congrArg (List.take s) hout
    rw [Ctx.out, List.take_take, List.take_left' hpre, show min s c.pos = s by omega] at this
    exact this
  have h3 := lenOctets_le (n := b.length) (by omega)
  refine ⟨⟨writeAt (writeAt c.buf (s + (Spec.lenOctets b.length).length) (window c.buf s (c.pos - s)))
      s (Spec.lenOctets b.length), c.pos + (Spec.lenOctets b.length).length, rest⟩, ?_, ?_, rfl, rfl,
      ?_, ?_⟩
  · unfold popNesting
    rw [chk_ok.2 ⟨rfl, hroom⟩]
    simp only [Res.ok_bind, hs]
    unfold insertLen
    simp only [hn, encInt_len (show b.length < 65536 by omega)]
    rw [if_pos (by omega)]
  · show (writeAt _ _ _).take _ = _
    rw [insert_out c s _ (by omega) (by omega), htk, hn, hw, List.append_assoc]
  · show (writeAt _ _ _).length = _
    rw [writeAt_length, writeAt_length]
  · show _ ≤ (writeAt _ _ _).length
    rw [writeAt_length, writeAt_length]
    show c.pos + _ ≤ _
    omega

theorem pop_room {c c' : Ctx} (h : popNesting c = .ok c') : 32 ≤ c.buf.length - c.pos := by
  unfold popNesting at h
  obtain ⟨c1, h1, _⟩ := Res.bind_eq_ok.1 h
  exact (chk_ok.1 h1).2

theorem start_state {tag : UInt8} {c : Ctx} (h : c.pos + 1 ≤ c.buf.length) :
    (⟨writeAt c.buf c.pos [tag], c.pos + 1, (c.pos + 1) :: c.stack⟩ : Ctx).out = c.out ++ [tag] := by
  have := take_writeAt' c.buf [tag] c.pos (by simpa using h)
  simpa [Ctx.out] using this

/-- A collection: a tag, what the calls inside add, and the length inserted at the end. -/
theorem exact_bracket {tag : UInt8} {start : Ctx → Out} {fs : List (Ctx → Out)} {b : Bytes}
    (hst : start = startConstructed tag) (hf : Exact (calls fs) b) :
    Exact (calls (start :: (fs ++ [popNesting]))) (Spec.tlv tag b) := by
  subst hst
  intro c c' hp hl h
  obtain ⟨c1, h1, h2⟩ := Res.bind_eq_ok.1 h
  obtain ⟨hr, hd, rfl⟩ := start_ok.1 h1
  rw [calls_append] at h2
  obtain ⟨c2, h5, h6⟩ := Res.bind_eq_ok.1 h2
  obtain ⟨c3, h3, h4⟩ := Res.bind_eq_ok.1 h6
  simp only [calls, Res.ok.injEq] at h4
  subst h4
  have hso := start_state (tag := tag) (c := c) (by omega)
  have g := hf _ c2 (by simp only [writeAt_length]; omega) (by simpa using hl) h5
  have ho := g.out
  rw [hso, List.append_assoc] at ho
  have glen : c2.buf.length = c.buf.length := by rw [g.len]; exact writeAt_length ..
  have ho' : c2.out = (c.out ++ [tag]) ++ b := by rw [ho, List.append_assoc]
  obtain ⟨c4, e1, e2, e3, e4, e5, e6⟩ := pop_grew (s := c.pos + 1) (rest := c.stack) (pre := c.out ++ [tag])
    (by rw [g.stack]) g.inb ho' (by simp [Ctx.out]; omega) (by omega) (pop_room h3)
  rw [e1] at h3
  simp only [Res.ok.injEq] at h3
  subst h3
  refine ⟨by rw [e2]; simp [Spec.tlv], ?_, e4, by rw [e5, glen], e6⟩
  rw [e3, g.pos, tlv_length]
  show c.pos + 1 + b.length + _ = _
  omega

theorem fits_bracket {tag : UInt8} {start : Ctx → Out} {fs : List (Ctx → Out)} {b : Bytes} {d : Nat}
    (hst : start = startConstructed tag) (ef : Exact (calls fs) b) (hf : Fits d (calls fs) b) :
    Fits (d + 1) (calls (start :: (fs ++ [popNesting]))) (Spec.tlv tag b) := by
  subst hst
  intro c hp hl hd
  rw [tlv_length] at hp
  have h1 : startConstructed tag c = .ok _ := start_ok.2 ⟨by omega, by unfold maxNested at *; omega, rfl⟩
  have hpos := lenOctets_pos b.length
  obtain ⟨c2, h2⟩ := hf ⟨writeAt c.buf c.pos [tag], c.pos + 1, (c.pos + 1) :: c.stack⟩
    (by simp only [writeAt_length]; omega) (by simpa using hl) (by simp only [List.length_cons]; omega)
  have hso := start_state (tag := tag) (c := c) (by omega)
  have g := ef _ c2 (by simp only [writeAt_length]; omega) (by simpa using hl) h2
  have glen : c2.buf.length = c.buf.length := by rw [g.len]; exact writeAt_length ..
  have gpos : c2.pos = c.pos + 1 + b.length := g.pos
  have ho' : c2.out = (c.out ++ [tag]) ++ b := by rw [g.out, hso]
  obtain ⟨c4, e1, _⟩ := pop_grew (s := c.pos + 1) (rest := c.stack) (pre := c.out ++ [tag])
    (by rw [g.stack]) g.inb ho' (by simp [Ctx.out]; omega) (by omega) (by omega)
  refine ⟨c4, ?_⟩
  show startConstructed tag c >>= calls (fs ++ [popNesting]) = _
  rw [h1, Res.ok_bind, calls_append, h2, Res.ok_bind]
  show popNesting c2 >>= _ = _
  rw [e1]; rfl

end Verif.RiotDer
