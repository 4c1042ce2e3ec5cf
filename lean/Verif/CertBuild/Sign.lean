import Verif.CertBuild.Lemmas
/-! Helper lemmas: the request, and the envelope with the signature. -/
namespace Verif.CertBuild
open Verif
open Verif.RiotDer

/-- What the encoder needs of the inputs of a request to succeed. -/
structure CsrInputs (subject : Bytes) (eku : Option Bytes) (extra : List Builder) : Prop where
  subject : subject.length < 127
  eku : ∀ p, eku = some p → p.length < 127
  extra : Builders extra

theorem ef_csrTbs (subject key : Bytes) (type : Nat) (eku : Option Bytes) (extra : List Builder) :
    EF (CsrInputs subject eku extra) 8 (csrTbs subject key type eku extra)
      (Spec.requestInfo subject key (role type) eku (built extra)) := by
  have e : csrTbs subject key type eku extra = calls
      (startSequenceOrSet true :: ((addInteger 0 :: addName subject :: addDER key ::
        (startExplicit 0 :: ((startSequenceOrSet true :: ((addOID [1, 2, 840, 113549, 1, 9, 14] ::
          (startSequenceOrSet false :: ((startSequenceOrSet true :: ((addKeyUsage type ::
            ((eku.map addEku).toList ++ (addConstraints type :: extra.map addCustom))) ++ popNesting :: [])) ++
          popNesting :: []))) ++ popNesting :: [])) ++ popNesting :: []))) ++ [popNesting])) := by
    unfold csrTbs; simp
  rw [e]
  have hk : EF (CsrInputs subject eku extra) 3 (calls (eku.map addEku).toList)
      (eku.map Spec.extendedKeyUsage).toList.flatten := by
    cases he : eku with
    | none => exact ef_nil
    | some p => exact ef_cons (ef_eku p fun q => q.eku p rfl) ef_nil
  have h0 : EF (CsrInputs subject eku extra) 7 (addInteger 0) (Spec.int 0) :=
    ef_leaf (addInteger_exact 0) fun _ => addInteger_fits 0
  have h := ef_last (P := CsrInputs subject eku extra) (d := 7) (tag := 0x30) seq_start
    (ef_cons h0 (ef_cons (ef_name subject fun p => p.subject) (ef_cons (ef_der key)
    (ef_block (tag := 0xa0) (start := startExplicit 0) (by rfl)
      (ef_block (tag := 0x30) seq_start (ef_cons (ef_oid (arcs := [1, 2, 840, 113549, 1, 9, 14]) (by decide))
        (ef_block (tag := 0x31) set_start
          (ef_block (tag := 0x30) seq_start (ef_cons (ef_usage type) (ef_append hk
            (ef_cons (ef_constraints type) (ef_custom extra fun p => p.extra)))) ef_nil) ef_nil)) ef_nil) ef_nil))))
  have e2 : Spec.requestInfo subject key (role type) eku (built extra) =
    Spec.tlv 0x30 (Spec.int 0 ++ (Spec.name subject ++ (key ++ (Spec.tlv 0xa0 (Spec.tlv 0x30
      (Spec.oid [1, 2, 840, 113549, 1, 9, 14] ++ (Spec.tlv 0x31 (Spec.tlv 0x30
        (Spec.keyUsage (role type).isCa ++ ((eku.map Spec.extendedKeyUsage).toList.flatten ++
          ((role type).constraints.flatten ++ ((built extra).map Spec.Extra.der).flatten))) ++ []) ++ [])) ++ []) ++ [])))) := by
    simp [Spec.requestInfo, Spec.seq, Spec.set, Spec.explicit]
  rw [e2]
  exact h

theorem envelope_fits {fs : List (Ctx → Out)} {b : Bytes} {c : Ctx} {d : Nat} (hs : c.stack = [])
    (hroom : (Spec.tlv 0x30 (c.out ++ b)).length + 32 ≤ c.buf.length) (hp : c.pos ≤ c.buf.length)
    (hl : c.buf.length < 65536) (hf : Exact (calls fs) b) (ff : Fits d (calls fs) b) (hd : d ≤ 15) :
    ∃ c', calls (tbsToCert :: (fs ++ [popNesting])) c = .ok c' := by
  have hol : c.out.length = c.pos := by simp [Ctx.out]; omega
  rw [tlv_length, List.length_append, hol] at hroom
  have hpos := lenOctets_pos (c.pos + b.length)
  let c1 : Ctx := ⟨writeAt (writeAt c.buf 1 (c.buf.take c.pos)) 0 [0x30], c.pos + 1, [1]⟩
  have h1 : tbsToCert c = .ok c1 := by
    unfold tbsToCert
    rw [asrt_ok.2 ⟨rfl, by rw [hs]; rfl⟩, Res.ok_bind, chk_ok.2 ⟨rfl, by omega⟩, Res.ok_bind]
  have hl1 : c1.buf.length = c.buf.length := by simp [c1, writeAt_length]
  have ho1 : c1.out = [0x30] ++ c.out := by
    show (writeAt (writeAt c.buf 1 (c.buf.take c.pos)) 0 [0x30]).take (c.pos + 1) = _
    have hlen : (c.buf.take c.pos).length = c.pos := by simp; omega
    rw [take_poke _ _ _ _ (by omega) (by rw [writeAt_length]; omega)]
    have := take_writeAt' c.buf (c.buf.take c.pos) 1 (by omega)
    rw [hlen, Nat.add_comm 1] at this
    rw [this, List.drop_left' (by simp; omega)]
    rfl
  have hp1 : c1.pos = c.pos + 1 := rfl
  obtain ⟨c2, h2⟩ := ff c1 (by omega) (by omega) (by simp only [c1, List.length_cons, List.length_nil, maxNested]; omega)
  have g := hf c1 c2 (by omega) (by omega) h2
  have gl := g.len; have gp := g.pos
  have ho : c2.out = [0x30] ++ (c.out ++ b) := by rw [g.out, ho1]; simp
  obtain ⟨c4, e1, _⟩ := pop_grew (s := 1) (rest := []) (pre := [0x30]) (b := c.out ++ b)
    (by rw [g.stack]) g.inb ho rfl (by omega) (by omega)
  refine ⟨c4, ?_⟩
  show tbsToCert c >>= calls (fs ++ [popNesting]) = _
  rw [h1, Res.ok_bind, calls_append, h2, Res.ok_bind]
  show popNesting c2 >>= _ = _
  rw [e1]; rfl

/-- The algorithm and the signature. -/
theorem ef_sig {P : Prop} {d : Nat} {sigOid : List Nat} (ho : GoodOid sigOid) (sig : Bytes) :
    EF P (d + 1) (calls [startSequenceOrSet true, addOID sigOid, popNesting, addBitString sig])
      (Spec.algorithm sigOid ++ (Spec.bits 0 sig ++ [])) :=
  ef_block (fs := [addOID sigOid]) (rest := [addBitString sig]) seq_start (ef_cons (ef_oid ho) ef_nil)
    (ef_cons (ef_leaf (addBitString_exact sig) fun _ => addBitString_fits sig) ef_nil)

theorem oid_good {h : SigHash} {o : List Nat} (e : h.oid = some o) : GoodOid o := by
  cases h <;> simp [SigHash.oid] at e <;> subst e <;> decide

theorem init_len (n : Nat) : (init n).buf.length = n := by simp [init]

/-- Building and signing: the signature covers the part to be signed, exactly. -/
theorem buildAndSign_ok {P : Prop} {e : Engine} {hash : SigHash} {priv tbs : Bytes} {sigOid : List Nat} {d : Nat}
    {f : Ctx → Out} {c : Ctx} (hmax : e.maxCert < 65536) (ho : GoodOid sigOid) (hf : EF P d f tbs)
    (h : buildAndSign e hash priv sigOid f = .ok c) :
    ∃ sig, e.sign hash priv tbs = .ok sig ∧ c.out = Spec.signed tbs sigOid sig ∧ c.stack = [] ∧
      c.pos = c.out.length ∧ c.out.length ≤ e.maxCert ∧ ∃ c1, f (init e.maxCert) = .ok c1 := by
  unfold buildAndSign at h
  have h : (f (init e.maxCert) >>= signCertificate (e.sign hash priv) sigOid) = .ok c := by
    revert h
    generalize (f (init e.maxCert) >>= signCertificate (e.sign hash priv) sigOid) = r
    intro h
    match r, h with
    | .ok _, h => exact h
    | .err .der, h => exact nomatch h
    | .err (.code _), h => exact nomatch h
    | .oob, h => exact nomatch h
  obtain ⟨c1, h1, h2⟩ := Res.bind_eq_ok.1 h
  have g := hf.1 _ c1 (by simp [init]) (by rw [init_len]; exact hmax) h1
  have go : c1.out = tbs := by rw [g.out]; simp [init, Ctx.out]
  have gl : c1.buf.length = e.maxCert := by rw [g.len, init_len]
  unfold signCertificate at h2
  rw [go] at h2
  cases hs : e.sign hash priv tbs with
  | error s => rw [hs] at h2; simp at h2
  | ok sig =>
    rw [hs] at h2
    simp only at h2
    have := envelope (fs := [startSequenceOrSet true, addOID sigOid, popNesting, addBitString sig]) g.inb
      (by omega) (ef_sig (P := True) (d := 0) ho sig).1 h2
    obtain ⟨_, a2, a3, a4, a5⟩ := this
    have hol : c.out.length = c.pos := by simp [Ctx.out]; omega
    refine ⟨sig, rfl, ?_, a3, hol.symm, by omega, c1, h1⟩
    rw [a2, go]; rfl

theorem buildAndSign_fits {P : Prop} {e : Engine} {hash : SigHash} {priv tbs sig : Bytes} {sigOid : List Nat} {d : Nat}
    {f : Ctx → Out} (hmax : e.maxCert < 65536) (ho : GoodOid sigOid) (hf : EF P d f tbs) (hd : d ≤ 16) (hP : P)
    (hsig : e.sign hash priv tbs = .ok sig) (hroom : (Spec.signed tbs sigOid sig).length + 32 ≤ e.maxCert) :
    ∃ c, buildAndSign e hash priv sigOid f = .ok c := by
  have hlen : tbs.length ≤ (Spec.signed tbs sigOid sig).length := by
    unfold Spec.signed Spec.seq; rw [tlv_length]; simp; omega
  obtain ⟨c1, h1⟩ := hf.2 hP (init e.maxCert) (by rw [init_len]; show 0 + _ + _ ≤ _; omega)
    (by rw [init_len]; exact hmax) (by show 0 + d ≤ 16; omega)
  have g := hf.1 _ c1 (by simp [init]) (by rw [init_len]; exact hmax) h1
  have go : c1.out = tbs := by rw [g.out]; simp [init, Ctx.out]
  have gl : c1.buf.length = e.maxCert := by rw [g.len, init_len]
  have hs := ef_sig (P := True) (d := 0) ho sig
  obtain ⟨c, h2⟩ := envelope_fits (c := c1) (d := 1)
    (fs := [startSequenceOrSet true, addOID sigOid, popNesting, addBitString sig]) (by rw [g.stack]; rfl)
    (by rw [go, gl]; exact hroom) g.inb (by omega) hs.1 (hs.2 trivial) (by omega)
  refine ⟨c, ?_⟩
  unfold buildAndSign
  rw [h1, Res.ok_bind]
  unfold signCertificate
  rw [go, hsig]
  have h3 : wrapSigned sigOid sig c1 = .ok c := h2
  simp only [h3]
  rfl

theorem custom_ok {bs : List Builder} {gs : List (Ctx → Out)} {c c' : Ctx}
    (h : calls (bs.map addCustom ++ gs) c = .ok c') : ∀ r, some r ∈ bs → ∃ e, r = .ok e := by
  induction bs generalizing c with
  | nil => intro r hr; simp at hr
  | cons b bs ih =>
    intro r hr
    obtain ⟨c1, h1, h2⟩ := Res.bind_eq_ok.1 h
    simp only [List.mem_cons] at hr
    rcases hr with rfl | hr
    · obtain ⟨x, hx, _⟩ := Res.bind_eq_ok.1 h1
      exact ⟨x, hx⟩
    · exact ih h2 r hr

theorem calls_drop {fs gs : List (Ctx → Out)} {c c' : Ctx} (h : calls (fs ++ gs) c = .ok c') :
    ∃ c1, calls gs c1 = .ok c' := by
  rw [calls_append] at h
  obtain ⟨c1, _, h2⟩ := Res.bind_eq_ok.1 h
  exact ⟨c1, h2⟩

/-- If the part to be signed was built, no builder failed. -/
theorem certTbs_builders {issuer authId subject subjId serial key : Bytes} {sigOid : List Nat} {type : Nat}
    {extra : List Builder} {c c' : Ctx}
    (h : certTbs issuer authId subject subjId serial key sigOid type extra c = .ok c') :
    ∀ r, some r ∈ extra → ∃ e, r = .ok e := by
  obtain ⟨c1, h1⟩ := calls_drop (fs := [startSequenceOrSet true, addShortExplicitInteger 2, addIntegerFromArray serial,
    startSequenceOrSet true, addOID sigOid, popNesting, addName issuer, startSequenceOrSet true, addTime validFrom,
    addTime validTo, popNesting, addName subject, addDER key, startExplicit 3, startSequenceOrSet true, addSki subjId,
    addAki authId, addKeyUsage type, addConstraints type])
    (gs := extra.map addCustom ++ [popNesting, popNesting, popNesting]) h
  exact custom_ok h1

theorem csrTbs_builders {subject key : Bytes} {type : Nat} {eku : Option Bytes} {extra : List Builder} {c c' : Ctx}
    (h : csrTbs subject key type eku extra c = .ok c') : ∀ r, some r ∈ extra → ∃ e, r = .ok e := by
  obtain ⟨c1, h1⟩ := calls_drop (fs := [startSequenceOrSet true, addInteger 0, addName subject, addDER key,
    startExplicit 0, startSequenceOrSet true, addOID [1, 2, 840, 113549, 1, 9, 14], startSequenceOrSet false,
    startSequenceOrSet true, addKeyUsage type])
    (gs := (eku.map addEku).toList ++ (addConstraints type :: (extra.map addCustom ++
        [popNesting, popNesting, popNesting, popNesting, popNesting]))) h
  obtain ⟨c2, h2⟩ := calls_drop h1
  obtain ⟨c3, h3⟩ := calls_drop (fs := [addConstraints type]) h2
  exact custom_ok h3

theorem serialOk_iff (serial : Bytes) : serialOk serial = true ↔ beNat serial ≠ 0 := by
  rw [ne_eq, ← stripZeros_nil]
  unfold serialOk
  induction serial with
  | nil => simp [stripZeros]
  | cons b bs ih =>
    simp only [List.any_cons, stripZeros]
    by_cases hb : b = 0
    · subst hb; simpa using ih
    · simp [hb]

end Verif.CertBuild
