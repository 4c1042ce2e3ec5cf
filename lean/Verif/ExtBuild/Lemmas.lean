import Verif.ExtBuild.Spec
import Verif.ExtBuild.Model
import Verif.CertBuild.Sign
/-! Helper lemmas for the extension builders. -/
namespace Verif.ExtBuild
open Verif
open Verif.RiotDer Verif.CertBuild

/-- The hash an algorithm stands for. -/
def Alg.spec : Alg → Option (List Nat × Nat)
  | .sha1 => some Spec.sha1
  | .sha256 => some (Spec.sha2 1 256)
  | .sha384 => some (Spec.sha2 2 384)
  | .sha512 => some (Spec.sha2 3 512)
  | .other => none

theorem params_spec (a : Alg) : a.spec = a.params := by cases a <;> rfl

/-- The digest a firmware identifier stands for. -/
def Fwid.spec (f : Fwid) : Spec.Digest :=
  match f.alg.spec with
  | some (oid, n) => ⟨oid, (f.digest.getD []).take n⟩
  | none => ⟨[], []⟩

/-- There is a digest of a known algorithm, long enough for it. -/
def Fwid.Valid (f : Fwid) : Prop :=
  ∃ d oid n, f.digest = some d ∧ f.alg.params = some (oid, n) ∧ n ≤ d.length

/-- The register it stands for. -/
def Ir.spec (r : Ir) : Spec.Register :=
  ⟨r.name, r.number.map UInt32.toNat, r.digests.map Fwid.spec⟩

/-- It has a name or a number, and digests. -/
def Ir.Valid (r : Ir) : Prop :=
  (r.name ≠ none ∨ r.number ≠ none) ∧ r.digests ≠ [] ∧ ∀ f ∈ r.digests, f.Valid

/-- The TCB information it stands for. -/
def Tcb.spec (t : Tcb) : Spec.TcbInfo :=
  ⟨t.vendor, t.model, t.version.getD [], beNat t.svn, t.layer.toNat, t.fwids.map Fwid.spec, t.irs.map Ir.spec⟩

/-- The mandatory parts are there. -/
def Tcb.Valid (t : Tcb) : Prop :=
  t.version ≠ none ∧ t.svn ≠ [] ∧ t.fwids ≠ [] ∧ (∀ f ∈ t.fwids, f.Valid) ∧ ∀ r ∈ t.irs, r.Valid

/-- Strings the encoder takes. -/
def Tcb.Short (t : Tcb) : Prop :=
  (∀ s, t.vendor = some s → s.length < 127) ∧ (∀ s, t.model = some s → s.length < 127) ∧
  (∀ s, t.version = some s → s.length < 127) ∧ t.svn.length < 127 ∧
  ∀ r ∈ t.irs, ∀ s, r.name = some s → s.length < 127

theorem params_good {a : Alg} {oid : List Nat} {n : Nat} (h : a.params = some (oid, n)) : GoodOid oid ∧ n ≤ 64 := by
  cases a <;> simp [Alg.params] at h <;> obtain ⟨rfl, rfl⟩ := h <;> exact ⟨by decide, by decide⟩

theorem addFwid_ok {f : Fwid} {c c' : Ctx} (h : addFwid f c = .ok c') : f.Valid := by
  unfold addFwid at h
  cases hd : f.digest with
  | none => simp [hd] at h
  | some d =>
    simp only [hd] at h
    cases hp : f.alg.params with
    | none => simp [hp] at h
    | some x =>
      obtain ⟨oid, n⟩ := x
      simp only [hp] at h
      by_cases hl : d.length < n
      · rw [if_pos hl] at h; simp at h
      · exact ⟨d, oid, n, hd, hp, by omega⟩

theorem addFwid_eq {f : Fwid} (h : f.Valid) : ∃ oid n d, f.alg.params = some (oid, n) ∧ f.digest = some d ∧
    addFwid f = calls [startSequenceOrSet true, addOID oid, addOctetString (d.take n), popNesting] ∧
    f.spec = ⟨oid, d.take n⟩ := by
  obtain ⟨d, oid, n, h1, h2, h3⟩ := h
  refine ⟨oid, n, d, h2, h1, ?_, ?_⟩
  · funext c
    unfold addFwid
    simp only [h1, h2]
    rw [if_neg (by omega)]
  · unfold Fwid.spec
    rw [params_spec]
    simp [h1, h2]

theorem ef_fwid {P : Prop} {d : Nat} (f : Fwid) (h : P → f.Valid) : EF P (d + 1) (addFwid f) f.spec.der := by
  have key : f.Valid → EF True (d + 1) (addFwid f) f.spec.der := by
    intro hv
    obtain ⟨oid, n, dg, h1, h2, h3, h4⟩ := addFwid_eq hv
    rw [h3, h4]
    exact ef_last (fs := [addOID oid, addOctetString (dg.take n)]) seq_start
      (ef_cons (ef_oid (params_good h1).1) (ef_cons (ef_octets _) ef_nil))
  exact ⟨fun c c' hp hl hc => (key (addFwid_ok hc)).1 c c' hp hl hc, fun p => (key (h p)).2 trivial⟩

theorem ef_map {α : Type} {P : Prop} {d : Nat} (g : α → Ctx → Out) (b : α → Bytes) (l : List α)
    (h : ∀ x ∈ l, EF P d (g x) (b x)) : EF P d (calls (l.map g)) (l.map b).flatten := by
  induction l with
  | nil => exact ef_nil
  | cons x l ih => exact ef_cons (h x (by simp)) (ih fun y hy => h y (by simp [hy]))

theorem ef_fwids {P : Prop} {d : Nat} (l : List Fwid) (h : P → ∀ f ∈ l, f.Valid) :
    EF P (d + 1) (calls (l.map addFwid)) ((l.map Fwid.spec).map Spec.Digest.der).flatten := by
  have := ef_map (P := P) (d := d + 1) addFwid (fun f => f.spec.der) l fun f hf => ef_fwid f fun p => h p f hf
  simpa [List.map_map, Function.comp_def] using this

theorem map_ok {α : Type} {g : α → Ctx → Out} {l : List α} {gs : List (Ctx → Out)} {c c' : Ctx}
    (h : calls (l.map g ++ gs) c = .ok c') : ∀ x ∈ l, ∃ c1 c2, g x c1 = .ok c2 := by
  induction l generalizing c with
  | nil => intro x hx; simp at hx
  | cons y l ih =>
    intro x hx
    obtain ⟨c1, h1, h2⟩ := Res.bind_eq_ok.1 h
    simp only [List.mem_cons] at hx
    rcases hx with rfl | hx
    · exact ⟨c, c1, h1⟩
    · exact ih h2 x hx

theorem ef_opt {P : Prop} {d : Nat} (tag : UInt8) (s : Option Bytes) (h : P → ∀ x, s = some x → x.length < 127) :
    EF P d (calls (optString tag s)) ((s.map (RiotDer.Spec.tlv tag)).toList).flatten := by
  cases s with
  | none => exact ef_nil
  | some x => exact ef_cons (ef_leaf (addString_exact tag x) fun p => addString_fits tag x (h p x rfl)) ef_nil

theorem addIr_ok {r : Ir} {c c' : Ctx} (h : addIr r c = .ok c') : r.Valid := by
  unfold addIr at h
  by_cases h1 : r.name = none ∧ r.number = none
  · rw [if_pos h1] at h; simp at h
  · rw [if_neg h1] at h
    by_cases h2 : r.digests = []
    · rw [if_pos h2] at h; simp at h
    · rw [if_neg h2] at h
      refine ⟨by
        by_cases hn : r.name = none
        · exact .inr fun hm => h1 ⟨hn, hm⟩
        · exact .inl hn, h2, ?_⟩
      obtain ⟨_, _, h⟩ := Res.bind_eq_ok.1 h
      obtain ⟨c1, h⟩ := calls_drop h
      obtain ⟨c2, h⟩ := calls_drop h
      obtain ⟨_, _, h⟩ := Res.bind_eq_ok.1 h
      intro f hf
      obtain ⟨c3, c4, h5⟩ := map_ok h f hf
      exact addFwid_ok h5

theorem ef_ir {P : Prop} {d : Nat} (r : Ir) (h : P → r.Valid) (hs : P → ∀ s, r.name = some s → s.length < 127) :
    EF P (d + 3) (addIr r) r.spec.der := by
  have hnum : ∀ Q : Prop, EF Q (d + 2) (calls (r.number.map fun n => addTaggedInteger n 0x81).toList)
      ((r.number.map UInt32.toNat).map fun n => RiotDer.Spec.tlv 0x81 (RiotDer.Spec.intContent n)).toList.flatten := by
    intro Q
    cases r.number with
    | none => exact ef_nil
    | some n => exact ef_cons (ef_leaf (addTaggedInteger_exact n 0x81) fun _ => addTaggedInteger_fits n 0x81) ef_nil
  have key : r.Valid → ∀ Q : Prop, (Q → ∀ s, r.name = some s → s.length < 127) →
      EF Q (d + 3) (addIr r) r.spec.der := by
    intro hv Q hs
    have e : addIr r = calls (startSequenceOrSet true :: ((optString 0x80 r.name ++
        ((r.number.map fun n => addTaggedInteger n 0x81).toList ++
          (startConstructed 0xa2 :: (r.digests.map addFwid ++ popNesting :: [])))) ++ [popNesting])) := by
      funext c
      unfold addIr
      rw [if_neg (by rintro ⟨a, b⟩; rcases hv.1 with h | h <;> contradiction), if_neg hv.2.1]
      simp
    rw [e]
    have hh := ef_last (P := Q) (d := d + 2) (tag := 0x30) seq_start (ef_append (ef_opt 0x80 r.name hs)
      (ef_append (hnum Q) (ef_block (tag := 0xa2) rfl (ef_fwids (d := d) r.digests fun _ => hv.2.2) ef_nil)))
    have e2 : r.spec.der = RiotDer.Spec.tlv 0x30 ((r.name.map (RiotDer.Spec.tlv 0x80)).toList.flatten ++
        (((r.number.map UInt32.toNat).map fun n => RiotDer.Spec.tlv 0x81 (RiotDer.Spec.intContent n)).toList.flatten ++
          (RiotDer.Spec.tlv 0xa2 ((r.digests.map Fwid.spec).map Spec.Digest.der).flatten ++ []))) := by
      simp [Spec.Register.der, Ir.spec, RiotDer.Spec.seq]
    rw [e2]
    exact hh
  exact ⟨fun c c' hp hl hc => (key (addIr_ok hc) True fun _ s hn => by
    -- a name that was encoded is short
    unfold addIr at hc
    have hv := addIr_ok (c := c) (c' := c') (by unfold addIr; exact hc)
    rw [if_neg (by rintro ⟨a, b⟩; rcases hv.1 with h | h <;> contradiction), if_neg hv.2.1] at hc
    obtain ⟨_, _, hc⟩ := Res.bind_eq_ok.1 hc
    rw [hn] at hc
    obtain ⟨_, hc, _⟩ := Res.bind_eq_ok.1 hc
    unfold addString at hc
    obtain ⟨_, hc, _⟩ := Res.bind_eq_ok.1 hc
    simpa using (asrt_ok.1 hc).2).1 c c' hp hl hc, fun p => (key (h p) P hs).2 p⟩

theorem ef_irs {P : Prop} {d : Nat} (l : List Ir) (h : P → ∀ r ∈ l, r.Valid)
    (hs : P → ∀ r ∈ l, ∀ s, r.name = some s → s.length < 127) :
    EF P (d + 3) (calls (l.map addIr)) ((l.map Ir.spec).map Spec.Register.der).flatten := by
  have := ef_map (P := P) (d := d + 3) addIr (fun r => r.spec.der) l fun r hr =>
    ef_ir r (fun p => h p r hr) fun p => hs p r hr
  simpa [List.map_map, Function.comp_def] using this

theorem create_ok {oid : Bytes} {critical : Bool} {size : Nat} {prog : List (Ctx → Out)} {e : Ext}
    (h : create oid critical size prog = .ok e) : ∃ c, calls prog (init size) = .ok c ∧ e = ⟨critical, oid, c.out⟩ := by
  unfold create at h
  match hc : calls prog (init size), h with
  | .ok c, h => exact ⟨c, rfl, (Res.ok.inj h).symm⟩
  | .err .der, h => exact nomatch h
  | .err (.code _), h => exact nomatch h
  | .oob, h => exact nomatch h

theorem create_exact {oid : Bytes} {critical : Bool} {size d : Nat} {P : Prop} {prog : List (Ctx → Out)} {b : Bytes} {e : Ext}
    (hs : size < 65536) (hf : EF P d (calls prog) b) (h : create oid critical size prog = .ok e) :
    e = ⟨critical, oid, b⟩ ∧ b.length ≤ size := by
  obtain ⟨c, h1, rfl⟩ := create_ok h
  have g := hf.1 _ c (by simp [init]) (by rw [init_len]; exact hs) h1
  have go : c.out = b := by rw [g.out]; simp [init, Ctx.out]
  have gi := g.inb
  have gl := g.len
  have gp := g.pos
  rw [init_len] at gl
  have : (init size).pos = 0 := rfl
  exact ⟨by rw [go], by omega⟩

theorem create_of {oid : Bytes} {critical : Bool} {size d : Nat} {P : Prop} {prog : List (Ctx → Out)} {b : Bytes} {c : Ctx}
    (hs : size < 65536) (hf : EF P d (calls prog) b) (h : calls prog (init size) = .ok c) :
    create oid critical size prog = .ok ⟨critical, oid, b⟩ := by
  have hc : create oid critical size prog = .ok ⟨critical, oid, c.out⟩ := by unfold create; rw [h]
  rw [hc, (create_exact hs hf hc).1]

theorem create_fits {oid : Bytes} {critical : Bool} {size d : Nat} {P : Prop} {prog : List (Ctx → Out)} {b : Bytes}
    (hs : size < 65536) (hf : EF P d (calls prog) b) (hP : P) (hd : d ≤ 16) (hroom : b.length + 32 ≤ size) :
    create oid critical size prog = .ok ⟨critical, oid, b⟩ := by
  obtain ⟨c, hc⟩ := hf.2 hP (init size) (by rw [init_len]; show 0 + _ + _ ≤ _; omega) (by rw [init_len]; exact hs)
    (by show 0 + d ≤ 16; omega)
  exact create_of hs hf hc

/-- One sequence at the top: 33 bytes around its contents are enough. -/
theorem create_top {oid : Bytes} {critical : Bool} {size d : Nat} {P : Prop} {fs : List (Ctx → Out)} {b : Bytes}
    (hs : size < 65536) (hf : EF P d (calls fs) b) (hP : P) (hd : d ≤ 15) (hroom : b.length + 33 ≤ size) :
    create oid critical size (startSequenceOrSet true :: (fs ++ [popNesting])) = .ok ⟨critical, oid, RiotDer.Spec.tlv 0x30 b⟩ := by
  have hst : startConstructed 0x30 (init size) = .ok _ :=
    start_ok.2 ⟨by rw [init_len]; show _ ≤ _ - 0; omega, by show 0 < 16; omega, rfl⟩
  have hpos : (init size).pos = 0 := rfl
  have hbl := init_len size
  obtain ⟨c2, h2⟩ := hf.2 hP ⟨writeAt (init size).buf (init size).pos [0x30], (init size).pos + 1,
    ((init size).pos + 1) :: (init size).stack⟩ (by simp only [writeAt_length]; omega)
    (by simp only [writeAt_length]; omega) (by show 1 + d ≤ 16; omega)
  have g := hf.1 _ c2 (by simp only [writeAt_length]; omega) (by simp only [writeAt_length]; omega) h2
  have hso := start_state (tag := 0x30) (c := init size) (by omega)
  have glen : c2.buf.length = size := by rw [g.len]; simp only [writeAt_length]; exact hbl
  have gpos : c2.pos = 0 + 1 + b.length := g.pos
  have ho' : c2.out = ((init size).out ++ [0x30]) ++ b := by rw [g.out, hso]
  obtain ⟨c4, e1, _⟩ := pop_grew (s := 1) (rest := []) (pre := (init size).out ++ [0x30])
    (by rw [g.stack]; rfl) g.inb ho' (by simp [Ctx.out, init]) (by omega) (by omega)
  refine create_of (c := c4) hs (ef_last (tag := 0x30) seq_start hf) ?_
  show startConstructed 0x30 (init size) >>= calls (fs ++ [popNesting]) = _
  rw [hst, Res.ok_bind, calls_append, h2, Res.ok_bind]
  show popNesting c2 >>= _ = _
  rw [e1]; rfl

theorem retag_exact {tag t0 : UInt8} {f : Ctx → Out} {b : Bytes} (h : Exact f (t0 :: b)) : Exact (retag tag f) (tag :: b) := by
  intro c c' hp hl hc
  unfold retag at hc
  obtain ⟨c1, h1, h2⟩ := Res.bind_eq_ok.1 hc
  have g := h c c1 hp hl h1
  have e := (Res.ok.inj h2).symm
  have gp := g.pos; have gl := g.len; have gi := g.inb; have go := g.out
  rw [List.length_cons] at gp
  have hol : c.out.length = c.pos := by simp [Ctx.out]; omega
  have e1 : c1.buf.take c.pos = c.out := by
    have := congrArg (List.take c.pos) go
    rw [Ctx.out, List.take_take, show min c.pos c1.pos = c.pos by omega, List.take_left' hol] at this
    exact this
  have e2 : (c1.buf.take c1.pos).drop (c.pos + 1) = b := by
    have : c1.buf.take c1.pos = (c.out ++ [t0]) ++ b := by rw [show c1.buf.take c1.pos = c1.out from rfl, go]; simp
    rw [this, List.drop_left' (by simp; exact hol)]
  refine ⟨?_, ?_, ?_, ?_, ?_⟩
  · rw [e]
    show (writeAt c1.buf c.pos [tag]).take c1.pos = _
    rw [take_poke _ _ _ _ (by omega) gi, e1, e2]; simp
  · rw [e]; show c1.pos = _; rw [List.length_cons]; exact gp
  · rw [e]; exact g.stack
  · rw [e]; show (writeAt _ _ _).length = _; rw [writeAt_length]; exact gl
  · rw [e]; show c1.pos ≤ (writeAt _ _ _).length; rw [writeAt_length]; exact gi

theorem ef_retag {P : Prop} {d : Nat} {tag t0 : UInt8} {f : Ctx → Out} {b : Bytes} (h : EF P d f (t0 :: b)) :
    EF P d (retag tag f) (tag :: b) :=
  ⟨retag_exact h.1, fun p c hp hl hd => by
    obtain ⟨c1, h1⟩ := h.2 p c hp hl hd
    exact ⟨_, by unfold retag; rw [h1]; rfl⟩⟩

/-! ### Lengths -/

theorem lenOctets_cases (n : Nat) (h : n < 65536) :
    (n < 128 ∧ (RiotDer.Spec.lenOctets n).length = 1) ∨
    (128 ≤ n ∧ n < 256 ∧ (RiotDer.Spec.lenOctets n).length = 2) ∨
    (256 ≤ n ∧ (RiotDer.Spec.lenOctets n).length = 3) := by
  have := encInt_len h
  unfold encInt at this
  rw [if_pos (by omega)] at this
  grind

theorem oid_length {a : Alg} {oid : List Nat} {n : Nat} (h : a.params = some (oid, n)) :
    (RiotDer.Spec.oid oid).length ≤ 11 := by
  have h840 : (RiotDer.Spec.subId 840).length = 2 := by
    unfold RiotDer.Spec.subId
    rw [show 840 / 128 = 6 from rfl, RiotDer.Spec.subIdHigh, if_neg (by decide), show 6 / 128 = 0 from rfl, subIdHigh_zero]
    rfl
  have hc : (RiotDer.Spec.oidContent oid).length ≤ 9 := by
    cases a <;> simp [Alg.params] at h <;> obtain ⟨rfl, rfl⟩ := h <;>
      simp only [RiotDer.Spec.oidContent, List.map_cons, List.map_nil, List.flatten_cons, List.flatten_nil,
        List.length_append, h840, subId_small (show 14 < 128 by decide), subId_small (show 3 < 128 by decide),
        subId_small (show 2 < 128 by decide), subId_small (show 26 < 128 by decide), subId_small (show 1 < 128 by decide),
        subId_small (show 101 < 128 by decide), subId_small (show 4 < 128 by decide),
        subId_small (show 40 * 1 + 3 < 128 by decide), subId_small (show 40 * 2 + 16 < 128 by decide), List.length_cons,
        List.length_nil] <;> omega
  unfold RiotDer.Spec.oid
  rw [tlv_length]
  have := lenOctets_cases (RiotDer.Spec.oidContent oid).length (by omega)
  omega

theorem fwid_length {f : Fwid} (h : f.Valid) : f.spec.der.length ≤ 79 := by
  obtain ⟨oid, n, d, h1, h2, h3, h4⟩ := addFwid_eq h
  rw [h4]
  unfold Spec.Digest.der RiotDer.Spec.seq RiotDer.Spec.octets
  have h5 := oid_length h1
  have h6 := (params_good h1).2
  have h7 : (d.take n).length ≤ 64 := by rw [List.length_take]; omega
  rw [tlv_length]
  simp only [List.flatten_cons, List.flatten_nil, List.append_nil, List.length_append]
  rw [tlv_length]
  have := lenOctets_cases (d.take n).length (by omega)
  have := lenOctets_cases ((RiotDer.Spec.oid oid).length + (1 + (RiotDer.Spec.lenOctets (d.take n).length).length + (d.take n).length)) (by omega)
  omega

theorem fwids_length {l : List Fwid} (h : ∀ f ∈ l, f.Valid) :
    ((l.map Fwid.spec).map Spec.Digest.der).flatten.length ≤ 79 * l.length := by
  induction l with
  | nil => simp
  | cons f l ih =>
    have := ih fun x hx => h x (by simp [hx])
    have := fwid_length (h f (by simp))
    simp only [List.map_cons, List.flatten_cons, List.length_append, List.length_cons]
    omega

theorem int32_length (v : UInt32) : (RiotDer.Spec.intContent v.toNat).length ≤ 5 := by
  have := intContent_length (toBE 4 v.toNat)
  rw [beNat_toBE4, toBE4_length] at this; omega

theorem opt_length {tag : UInt8} {s : Option Bytes} (h : ∀ x, s = some x → x.length < 127) :
    ((s.map (RiotDer.Spec.tlv tag)).toList).flatten.length + (if s.isSome then 1 else 0) = optLength s ∧
    optLength s ≤ 129 := by
  cases s with
  | none => exact ⟨rfl, by show 0 ≤ 129; omega⟩
  | some x =>
    have := h x rfl
    simp only [Option.map_some, Option.toList_some, List.flatten_cons, List.flatten_nil, List.append_nil, tlv_length,
      optLength, Option.isSome_some, if_true]
    rw [lenOctets_small (by omega)]
    simp only [List.length_cons, List.length_nil]
    omega

/-- The space counted for a register covers it, although the header of its sequence is not counted. -/
theorem ir_length {r : Ir} (hv : r.Valid) (hs : ∀ s, r.name = some s → s.length < 127) (hb : irLength r < 65536) :
    r.spec.der.length ≤ irLength r := by
  have e2 : r.spec.der = RiotDer.Spec.tlv 0x30 ((r.name.map (RiotDer.Spec.tlv 0x80)).toList.flatten ++
      (((r.number.map UInt32.toNat).map fun n => RiotDer.Spec.tlv 0x81 (RiotDer.Spec.intContent n)).toList.flatten ++
        (RiotDer.Spec.tlv 0xa2 ((r.digests.map Fwid.spec).map Spec.Digest.der).flatten))) := by
    simp [Spec.Register.der, Ir.spec, RiotDer.Spec.seq]
  rw [e2, tlv_length]
  have h1 := opt_length (tag := 0x80) hs
  have h2 := fwids_length hv.2.2
  have h3 : 1 ≤ r.digests.length := by
    have := hv.2.1
    cases h : r.digests with
    | nil => exact absurd h this
    | cons a l => simp
  have h4 : (((r.number.map UInt32.toNat).map fun n => RiotDer.Spec.tlv 0x81 (RiotDer.Spec.intContent n)).toList.flatten).length
      + (if r.number.isSome then 4 else 0) ≤ (if r.number.isSome then 11 else 0) := by
    cases hn : r.number with
    | none => simp
    | some v =>
      have := int32_length v
      simp only [Option.map_some, Option.toList_some, List.flatten_cons, List.flatten_nil, List.append_nil, tlv_length,
        Option.isSome_some, if_true]
      rw [lenOctets_small (by omega)]
      simp only [List.length_cons, List.length_nil]
      omega
  have h5 : 1 ≤ (if r.name.isSome then 1 else 0) + (if r.number.isSome then 4 else 0) := by
    rcases hv.1 with h | h
    · cases hn : r.name with
      | none => exact absurd hn h
      | some x => simp
    · cases hn : r.number with
      | none => exact absurd hn h
      | some x => simp
  unfold irLength fwidLength at *
  simp only [List.length_append, tlv_length]
  generalize (((r.digests.map Fwid.spec).map Spec.Digest.der).flatten).length = X at *
  generalize ((((r.number.map UInt32.toNat).map fun n => RiotDer.Spec.tlv 0x81 (RiotDer.Spec.intContent n)).toList.flatten)).length = N at *
  generalize ((r.name.map (RiotDer.Spec.tlv 0x80)).toList.flatten).length = S at *
  have h6 := lenOctets_cases X (by omega)
  generalize (RiotDer.Spec.lenOctets X).length = lx at *
  have h7 := lenOctets_cases (S + (N + (1 + lx + X))) (by split at h4 <;> omega)
  generalize (RiotDer.Spec.lenOctets (S + (N + (1 + lx + X)))).length = ly at *
  generalize r.digests.length = k at *
  generalize optLength r.name = o at *
  by_cases hn : r.number.isSome = true <;> by_cases hm : r.name.isSome = true <;> simp only [hn, hm, Bool.false_eq_true, if_true, if_false] at * <;>
    rcases h6 with h6 | h6 | h6 <;> rcases h7 with h7 | h7 | h7 <;> omega

theorem irs_length {l : List Ir} (hv : ∀ r ∈ l, r.Valid) (hs : ∀ r ∈ l, ∀ s, r.name = some s → s.length < 127)
    (hb : (l.map irLength).sum < 65536) :
    ((l.map Ir.spec).map Spec.Register.der).flatten.length ≤ (l.map irLength).sum := by
  induction l with
  | nil => simp
  | cons r l ih =>
    simp only [List.map_cons, List.sum_cons] at hb
    have := ih (fun x hx => hv x (by simp [hx])) (fun x hx => hs x (by simp [hx])) (by omega)
    have := ir_length (hv r (by simp)) (hs r (by simp)) (by omega)
    simp only [List.map_cons, List.flatten_cons, List.length_append, List.sum_cons]
    omega

end Verif.ExtBuild
