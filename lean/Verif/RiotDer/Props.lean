import Verif.RiotDer.Oid
/-!
C129: the DER builder.

What is built is described by a `Doc`, a forest of values and collections, whose encoding `Doc.der`
follows X.690 alone. A builder program for a `Doc` makes one call per value and, around the contents
of a collection, a start call and `DERPopNesting`.
-/
namespace Verif.RiotDer
open Verif

/-- A single value given to the builder. -/
inductive Item where
  | oid (arcs : List Nat)
  | encodedOid (content : Bytes)
  | str (tag : UInt8) (s : Bytes)
  | time (s : Bytes)
  | int (tag : UInt8) (bigEndian : Bytes)
  | int32 (tag : UInt8) (v : UInt32)
  | bool (b : Bool)
  | namedBits (b : Bytes) (n : Nat)
  | octets (b : Bytes)
  | keyId (b : Bytes)
  | null
  | raw (b : Bytes)

/-- The encoding of a value. Only `Spec` and arithmetic. -/
def Item.der : Item → Bytes
  | .oid arcs => Spec.oid arcs
  | .encodedOid b => Spec.tlv 0x06 b
  | .str t s => Spec.tlv t s
  | .time s => Spec.tlv (if s.length = 13 then 0x17 else 0x18) s
  | .int t v => Spec.tlv t (Spec.intContent (beNat v))
  | .int32 t v => Spec.tlv t (Spec.intContent v.toNat)
  | .bool b => Spec.bool b
  | .namedBits b n => Spec.bits (UInt8.ofNat (b.length * 8 - n)) b
  | .octets b => Spec.octets b
  | .keyId b => Spec.tlv 0x80 b
  | .null => Spec.tlv 0x05 []
  | .raw b => b

/-- The call made for a value. -/
def Item.call : Item → Ctx → Out
  | .oid arcs => addOID arcs
  | .encodedOid b => addEncodedOID b
  | .str t s => addString t s
  | .time s => addTime s
  | .int t v => addTaggedIntegerFromArray v t
  | .int32 t v => addTaggedInteger v t
  | .bool b => addBoolean b
  | .namedBits b n => addNamedBitString b n
  | .octets b => addOctetString b
  | .keyId b => addAuthKeyBitString b
  | .null => addNull
  | .raw b => addDER b

/-- Values the builder encodes correctly: an OID whose first two arcs share one octet, an INTEGER of
at most 127 contents octets. -/
def Item.Good : Item → Prop
  | .oid arcs => GoodOid arcs
  | .int _ v => (Spec.intContent (beNat v)).length < 128
  | _ => True

/-- Values the builder accepts. -/
def Item.Accepted : Item → Prop
  | .encodedOid b => b.length < 127
  | .str _ s => s.length < 127
  | .time s => s.length = 13 ∨ s.length = 15
  | .int _ v => v.length < 128
  | .namedBits b n => n ≤ b.length * 8 ∧ b.length * 8 - n ≤ 7
  | _ => True

/-- A forest of values, collections with a tag, and BIT STRINGs around other values. -/
inductive Doc where
  | nil
  | item (i : Item) (next : Doc)
  | node (tag : UInt8) (kids : Doc) (next : Doc)
  | bitNode (kids : Doc) (next : Doc)

/-- The encoding of a document. Only `Spec`. -/
def Doc.der : Doc → Bytes
  | .nil => []
  | .item i next => i.der ++ next.der
  | .node tag kids next => Spec.tlv tag kids.der ++ next.der
  | .bitNode kids next => Spec.bits 0 kids.der ++ next.der

/-- The builder program for a document. -/
def Doc.program : Doc → List (Ctx → Out)
  | .nil => []
  | .item i next => i.call :: next.program
  | .node tag kids next => startConstructed tag :: (kids.program ++ [popNesting]) ++ next.program
  | .bitNode kids next => startEnvelopingBitString :: (kids.program ++ [popNesting]) ++ next.program

/-- How deeply collections are nested. -/
def Doc.depth : Doc → Nat
  | .nil => 0
  | .item _ next => next.depth
  | .node _ kids next => max (kids.depth + 1) next.depth
  | .bitNode kids next => max (kids.depth + 1) next.depth

/-- All values satisfy `P`. -/
def Doc.All (P : Item → Prop) : Doc → Prop
  | .nil => True
  | .item i next => P i ∧ next.All P
  | .node _ kids next => kids.All P ∧ next.All P
  | .bitNode kids next => kids.All P ∧ next.All P

theorem Item.exact (i : Item) (h : i.Good) : Exact i.call i.der := by
  cases i with
  | oid arcs => exact addOID_exact h
  | encodedOid b => exact addEncodedOID_exact b
  | str t s => exact addString_exact t s
  | time s => exact addTime_exact s
  | int t v => exact addInt_exact v t h
  | int32 t v => exact addTaggedInteger_exact v t
  | bool b => exact addBoolean_exact b
  | namedBits b n => exact addNamedBitString_exact b n
  | octets b => exact addOctetString_exact b
  | keyId b => exact addAuthKeyBitString_exact b
  | null => exact addNull_exact
  | raw b => exact addDER_exact b

theorem Item.fits (i : Item) (h : i.Good) (ha : i.Accepted) : Fits 0 i.call i.der := by
  cases i with
  | oid arcs => exact addOID_fits h
  | encodedOid b => exact addEncodedOID_fits b ha
  | str t s => exact addString_fits t s ha
  | time s => exact addTime_fits s ha
  | int t v => exact addInt_fits v t ha h
  | int32 t v => exact addTaggedInteger_fits v t
  | bool b => exact addBoolean_fits b
  | namedBits b n => exact addNamedBitString_fits b n ha.1 ha.2
  | octets b => exact addOctetString_fits b
  | keyId b => exact addAuthKeyBitString_fits b
  | null => exact addNull_fits
  | raw b => exact addDER_fits b

theorem bit_calls (fs : List (Ctx → Out)) (c : Ctx) :
    calls (startEnvelopingBitString :: fs) c = calls (startConstructed 0x03 :: put [0] :: fs) c := by
  simp only [calls, startEnvelopingBitString]
  cases startConstructed 0x03 c <;> rfl

theorem put0_fits : Fits 0 (put [0]) [0] := fun c hp _ _ => put_fits (by omega)

theorem Doc.exact (d : Doc) (h : d.All Item.Good) : Exact (calls d.program) d.der := by
  induction d with
  | nil => exact exact_nil
  | item i next ih => exact exact_cons (Item.exact i h.1) (ih h.2)
  | node tag kids next ihk ihn => exact exact_append (exact_bracket rfl (ihk h.1)) (ihn h.2)
  | bitNode kids next ihk ihn =>
    refine exact_append ?_ (ihn h.2)
    have e := exact_bracket (tag := 0x03) rfl (exact_cons (put_exact [0]) (ihk h.1))
    intro c c' hp hl hc
    rw [bit_calls] at hc
    exact e c c' hp hl hc

theorem Doc.fits (d : Doc) (h : d.All Item.Good) (ha : d.All Item.Accepted) :
    Fits d.depth (calls d.program) d.der := by
  induction d with
  | nil => exact fits_nil 0
  | item i next ih =>
    exact fits_cons (Item.exact i h.1) ((Item.fits i h.1 ha.1).mono (by omega)) (ih h.2 ha.2)
  | node tag kids next ihk ihn =>
    exact fits_append (exact_bracket rfl (Doc.exact kids h.1))
      ((fits_bracket rfl (Doc.exact kids h.1) (ihk h.1 ha.1)).mono (by simp only [Doc.depth]; omega))
      ((ihn h.2 ha.2).mono (by simp only [Doc.depth]; omega))
  | bitNode kids next ihk ihn =>
    have e := exact_cons (put_exact [0]) (Doc.exact kids h.1)
    have e2 := exact_bracket (tag := 0x03) rfl e
    have f := fits_bracket (tag := 0x03) rfl e
      (fits_cons (put_exact [0]) (put0_fits.mono (by omega)) (ihk h.1 ha.1))
    refine fits_append (a := Spec.bits 0 kids.der) ?_ (Fits.mono (d := kids.depth + 1) ?_ (by simp only [Doc.depth]; omega))
      ((ihn h.2 ha.2).mono (by simp only [Doc.depth]; omega))
    · intro c c' hp hl hc
      rw [bit_calls] at hc
      exact e2 c c' hp hl hc
    · intro c hp hl hd
      obtain ⟨c', hc⟩ := f c hp hl hd
      exact ⟨c', by rw [bit_calls]; exact hc⟩

/-- C129 (part). In a buffer below 64 KiB, a builder program that succeeds has produced exactly the
DER encoding of the document, with every collection closed. Missing: values that are not `Good`. -/
theorem builder_exact_partial (d : Doc) (size : Nat) (hsize : size < 65536) (h : d.All Item.Good)
    (c : Ctx) (hc : calls d.program (init size) = .ok c) :
    c.out = d.der ∧ c.pos = d.der.length ∧ c.stack = [] ∧ c.buf.length = size ∧ c.pos ≤ size := by
  have g := Doc.exact d h (init size) c (by simp [init]) (by simpa [init] using hsize) hc
  have ho := g.out; have hp := g.pos; have hl := g.len; have hi := g.inb
  simp [init, Ctx.out] at ho hp hl
  exact ⟨ho, hp, g.stack, hl, by omega⟩

/-- C129 (part). With 32 bytes to spare, at most 16 nested collections, and values the builder
accepts, the program succeeds, so it does not write outside the buffer either. Missing: memory safety
when the space is not there, which is false (`overflow`). -/
theorem builder_total_partial (d : Doc) (size : Nat) (hsize : size < 65536) (h : d.All Item.Good)
    (ha : d.All Item.Accepted) (hd : d.depth ≤ 16) (hfit : d.der.length + 32 ≤ size) :
    ∃ c, calls d.program (init size) = .ok c ∧ c.out = d.der := by
  obtain ⟨c, hc⟩ := Doc.fits d h ha (init size) (by simpa [init] using hfit) (by simpa [init] using hsize)
    (by simpa [init, maxNested] using hd)
  exact ⟨c, hc, (builder_exact_partial d size hsize h c hc).1⟩

/-- A name inside a sequence, an integer and a key inside a bit string. -/
def sample : Doc :=
  .node 0x30 (.node 0x31 (.node 0x30 (.item (.oid [2, 5, 4, 3]) (.item (.str 0x0c [65, 66]) .nil)) .nil)
    (.item (.int 0x02 [0, 0, 200]) (.bitNode (.item (.octets [1, 2, 3]) .nil) .nil))) .nil

/-- Its encoding. -/
theorem sample_der : sample.der =
    [0x30, 25, 0x31, 11, 0x30, 9, 6, 3, 0x55, 4, 3, 0x0c, 2, 65, 66, 2, 2, 0, 200, 3, 6, 0, 4, 3, 1, 2, 3] := by
  have e : sample.der = Spec.seq [Spec.set [Spec.seq [Spec.oid [2, 5, 4, 3], Spec.utf8 [65, 66]]],
      Spec.int 200, Spec.bits 0 (Spec.octets [1, 2, 3])] := by
    simp [sample, Doc.der, Item.der, Spec.seq, Spec.set, Spec.utf8, Spec.int, beNat]
  rw [e]
  have h1 : Spec.oid [2, 5, 4, 3] = [6, 3, 0x55, 4, 3] := by
    simp [Spec.oid, Spec.oidContent, Spec.tlv, subId_small, Spec.lenOctets]
  have h2 : Spec.int 200 = [2, 2, 0, 200] := by
    unfold Spec.int Spec.intContent; rw [natBytes_byte (by decide) (by decide)]; decide
  rw [h1, h2]
  decide

example : sample.All Item.Good ∧ sample.All Item.Accepted ∧ sample.depth ≤ 16 ∧
    sample.der.length + 32 ≤ 100 := by
  refine ⟨?_, ?_, by decide, by rw [sample_der]; decide⟩
  · have h : GoodOid [2, 5, 4, 3] := by decide
    have h2 : (Spec.intContent (beNat [0, 0, 200])).length < 128 := by
      have := intContent_length [0, 0, 200]; simp only [List.length_cons, List.length_nil] at this; omega
    simp only [sample, Doc.All, Item.Good, and_true, true_and]
    exact ⟨h, h2⟩
  · simp [sample, Doc.All, Item.Accepted]

/-- The length octets of the standard, for the sizes used here, decode to the length. -/
theorem lenOctets_decodes (n : Nat) (h : n < 65536) :
    Spec.lenOctets n = if n < 128 then [UInt8.ofNat n] else
      if n < 256 then [0x81, UInt8.ofNat n] else [0x82, UInt8.ofNat (n / 256), UInt8.ofNat (n % 256)] := by
  have := encInt_len h
  unfold encInt at this
  rw [if_pos (by omega)] at this
  grind

/-! ### What fails -/

/-- Data of 32 bytes or more is never refused for lack of space: `CHECK_SPACE2` adds the length to
the free space instead of comparing it with the free space. -/
theorem never_refused (tag : UInt8) (b : Bytes) (c : Ctx) (hb : 32 ≤ b.length) (e : Err) :
    addData tag b c ≠ .err e ∧ addDER b c ≠ .err e := by
  constructor
  · unfold addData chk2
    rw [if_neg (by omega)]
    simp only [Res.ok_bind]
    unfold put putLen
    split
    · simp only [Res.ok_bind]
      split
      · unfold put; split <;> simp <;> split <;> simp
      · simp; split <;> simp
    · simp
  · unfold addDER chk2 put
    rw [if_neg (by omega)]
    simp only [Res.ok_bind]
    split <;> simp

/-- C129 is false of the code: for every size of the buffer there is data whose addition writes
outside it. -/
theorem overflow (size : Nat) (b : Bytes) (hb : size + 32 ≤ b.length) :
    addOctetString b (init size) = .oob ∧ addDER b (init size) = .oob := by
  constructor
  · unfold addOctetString addData chk2
    rw [if_neg (by omega)]
    simp only [Res.ok_bind]
    unfold put
    split
    · simp only [Res.ok_bind]
      unfold putLen
      split
      · unfold put
        split
        · simp only [Res.ok_bind]; rw [if_neg (by simp [init]; omega)]
        · rfl
      · simp only [Res.ok_bind]; rw [if_neg (by simp [init]; omega)]
    · rfl
  · unfold addDER chk2 put
    rw [if_neg (by omega)]
    simp only [Res.ok_bind]
    rw [if_neg (by simp [init]; omega)]

/-- A key identifier of 20 bytes overruns a buffer with 16 bytes left: the checks pass and 22 bytes
are written. -/
theorem overflow_small : addOctetString (List.replicate 20 7) (init 16) = .oob := by decide_cbv

/-- An integer of 127 bytes with the top bit set gets the length byte 0x80, which announces the
indefinite form, forbidden in DER. -/
theorem int_indefinite (b : UInt8) (bs : Bytes) (hb : 128 ≤ b) (hl : bs.length = 126) (size : Nat)
    (hs : 300 ≤ size) :
    ∃ c, addIntegerFromArray (b :: bs) (init size) = .ok c ∧ c.out = 0x02 :: 0x80 :: 0 :: b :: bs := by
  have hst : stripZeros (b :: bs) = b :: bs := by
    unfold stripZeros
    rw [if_neg (by rintro rfl; simp at hb)]
  have hib : intBytes (b :: bs) = 0x80 :: 0 :: b :: bs := by
    unfold intBytes
    rw [hst]
    simp only [ge_iff_le, if_pos hb, List.length_cons, hl]
    rfl
  obtain ⟨c1, c2, h1, h2⟩ := put_put_fits (c := init size) (a := [0x02]) (b := 0x80 :: 0 :: b :: bs)
    (by simp [init, hl]; omega)
  refine ⟨c2, ?_, ?_⟩
  · unfold addIntegerFromArray addTaggedIntegerFromArray
    simp only [Res.bind_eq_ok, asrt_ok, chk2_ok, decide_eq_true_eq]
    exact ⟨_, ⟨rfl, by simp [hl]⟩, _, ⟨rfl, by simp [init]; omega⟩, c1, h1, by rw [hib]; exact h2⟩
  · obtain ⟨k1, rfl⟩ := put_ok.1 h1
    obtain ⟨k2, rfl⟩ := put_ok.1 h2
    have t1 := take_writeAt' (init size).buf [0x02] 0 (by simp [init]; omega)
    have t2 := take_writeAt' (writeAt (init size).buf 0 [0x02]) (0x80 :: 0 :: b :: bs) 1
      (by rw [writeAt_length]; simp [init, hl]; omega)
    rw [show (1 : Nat) = 0 + ([0x02] : Bytes).length from rfl] at t2
    rw [t1] at t2
    exact t2

/-- From 65536 bytes on the announced length is wrong: 65536 bytes are announced as none. -/
theorem long_length_wrong :
    encInt 65536 = some [0x82, 0, 0] ∧ Spec.lenOctets 65536 = [0x83, 1, 0, 0] := by
  constructor
  · decide
  · unfold Spec.lenOctets
    have h : Spec.natBytes 65536 = [1, 0, 0] := by
      rw [Spec.natBytes, if_neg (by decide), Spec.natBytes, if_neg (by decide), natBytes_byte (by decide) (by decide)]
      decide
    rw [h]; decide

/-- From 166536 bytes on no length is written at all and the position moves back by one, over the
tag. -/
theorem no_length (n : Nat) (c : Ctx) (h : 166536 ≤ n) : putLen n c = .ok { c with pos := c.pos - 1 } := by
  unfold putLen encInt
  rw [if_neg (by omega)]

/-- The first two arcs are stored in one octet whatever their value: 2.100.3 needs two. -/
theorem oid_first_wrong :
    (∃ c, addOID [2, 100, 3] (init 64) = .ok c ∧ c.out = [6, 2, 0xb4, 3]) ∧
    Spec.oid [2, 100, 3] = [6, 3, 0x81, 0x34, 3] := by
  constructor
  · refine ⟨⟨[6, 2, 0xb4, 3] ++ List.replicate 60 0, 4, []⟩, ?_, ?_⟩
    · decide +kernel
    · decide
  · have h : Spec.subId 180 = [0x81, 0x34] := by
      unfold Spec.subId
      rw [Spec.subIdHigh, if_neg (by decide), show 180 / 128 / 128 = 0 from rfl, subIdHigh_zero]; decide
    unfold Spec.oid Spec.oidContent
    simp only [List.map_cons, List.map_nil, h, subId_small (show 3 < 128 by decide)]
    decide

end Verif.RiotDer
