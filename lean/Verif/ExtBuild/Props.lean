import Verif.ExtBuild.Lemmas
/-!
# C132: certificate extensions
-/
namespace Verif.ExtBuild
open Verif
open Verif.RiotDer Verif.CertBuild

/-! ### Extended key usage -/

theorem ef_oids {P : Prop} {d : Nat} (oids : List Bytes) (h : P → ∀ o ∈ oids, o.length < 127) :
    EF P d (calls (oids.map addEncodedOID)) (oids.map (RiotDer.Spec.tlv 0x06)).flatten :=
  ef_map addEncodedOID _ oids fun o ho => ef_leaf (addEncodedOID_exact o) fun p => addEncodedOID_fits o (h p o ho)

/-- **C132, key usage.** An extension that is built holds exactly the given purposes, in order, and is
critical if and only if that was asked for. -/
theorem eku_exact_partial (critical : Bool) (oids : List Bytes) (size : Nat) (hs : size < 65536) (e : Ext)
    (h : ekuCreate critical oids size = .ok e) :
    oids ≠ [] ∧ e = ⟨critical, RiotDer.Spec.oidContent [2, 5, 29, 37], Spec.eku oids⟩ ∧ e.data.length ≤ size := by
  unfold ekuCreate at h
  by_cases h0 : oids = []
  · rw [if_pos h0] at h; exact nomatch h
  · rw [if_neg h0] at h
    have g := create_exact (P := False) hs (ef_last (tag := 0x30) (d := 0) seq_start (ef_oids oids nofun)) h
    have ho : RiotDer.Spec.oidContent [2, 5, 29, 37] = ekuOid := by
      simp [RiotDer.Spec.oidContent, subId_small, ekuOid]
    rw [ho]
    exact ⟨h0, g.1, by rw [g.1]; exact g.2⟩

theorem oids_length {oids : List Bytes} (h : ∀ o ∈ oids, o.length < 127) :
    (oids.map (RiotDer.Spec.tlv 0x06)).flatten.length + 3 = ekuLength oids := by
  unfold ekuLength
  induction oids with
  | nil => rfl
  | cons o l ih =>
    have := ih fun x hx => h x (by simp [hx])
    have ho := h o (by simp)
    simp only [List.map_cons, List.flatten_cons, List.length_append, List.sum_cons, tlv_length]
    rw [lenOctets_small (by omega)]
    simp only [List.length_cons, List.length_nil]
    omega

/-- **C132, key usage, space.** The buffer allocated is always large enough. -/
theorem eku_dynamic_partial (malloc : Nat → Bool) (critical : Bool) (oids : List Bytes) (h0 : oids ≠ [])
    (h : ∀ o ∈ oids, o.length < 127) (hl : ekuLength oids + 32 < 65536) (hm : malloc (ekuLength oids + 32) = true) :
    ekuDynamic malloc critical oids = .ok ⟨critical, ekuOid, Spec.eku oids⟩ := by
  unfold ekuDynamic dynamic ekuCreate
  rw [if_pos hm, if_neg h0]
  exact create_top (P := True) (d := 0) hl (ef_oids oids fun _ => h) trivial (by omega) (by have := oids_length h; omega)

/-! ### Unique device identifier -/

theorem ef_ueid {P : Prop} (id : Bytes) :
    EF P 1 (calls [startSequenceOrSet true, addOctetString id, popNesting]) (Spec.ueid id) :=
  ef_last (fs := [addOctetString id]) seq_start (ef_cons (ef_octets id) ef_nil)

/-- **C132, identifier.** An extension that is built holds exactly the given identifier. -/
theorem ueid_exact_partial (id : Bytes) (size : Nat) (hs : size < 65536) (e : Ext) (h : ueidCreate id size = .ok e) :
    id ≠ [] ∧ e = ⟨false, RiotDer.Spec.oidContent [2, 23, 133, 5, 4, 4], Spec.ueid id⟩ ∧ e.data.length ≤ size := by
  unfold ueidCreate at h
  by_cases h0 : id = []
  · rw [if_pos h0] at h; exact nomatch h
  · rw [if_neg h0] at h
    have g := create_exact (P := False) hs (ef_ueid id) h
    have ho : RiotDer.Spec.oidContent [2, 23, 133, 5, 4, 4] = ueidOid := by
      have h133 : RiotDer.Spec.subId 133 = [0x81, 0x05] := by
        unfold RiotDer.Spec.subId
        rw [show 133 / 128 = 1 from rfl, RiotDer.Spec.subIdHigh, if_neg (by decide), show 1 / 128 = 0 from rfl, subIdHigh_zero]
        rfl
      simp [RiotDer.Spec.oidContent, subId_small, h133, ueidOid]
    rw [ho]
    exact ⟨h0, g.1, by rw [g.1]; exact g.2⟩

/-- **C132, identifier, space.** An identifier below 256 bytes fits the buffer allocated for it, and
any buffer of that size or more. -/
theorem ueid_dynamic_partial (malloc : Nat → Bool) (id : Bytes) (h0 : id ≠ []) (h : id.length < 256)
    (hm : malloc (ueidLength id) = true) :
    ueidDynamic malloc id = .ok ⟨false, ueidOid, Spec.ueid id⟩ ∧
    ∀ size, ueidLength id ≤ size → size < 65536 → ueidStatic id size = .ok ⟨false, ueidOid, Spec.ueid id⟩ := by
  have hl : (RiotDer.Spec.octets id).length ≤ id.length + 3 := by
    unfold RiotDer.Spec.octets
    rw [tlv_length]
    have := lenOctets_cases id.length (by omega)
    omega
  have key : ∀ size, ueidLength id ≤ size → size < 65536 → ueidCreate id size = .ok ⟨false, ueidOid, Spec.ueid id⟩ := by
    intro size h1 h2
    unfold ueidLength at h1
    unfold ueidCreate
    rw [if_neg h0]
    exact create_top (P := True) (d := 0) (fs := [addOctetString id]) h2 (ef_cons (ef_octets id) ef_nil) trivial (by omega)
      (by show (RiotDer.Spec.octets id ++ []).length + 33 ≤ size; rw [List.append_nil]; omega)
  constructor
  · unfold ueidDynamic dynamic
    rw [if_pos hm]
    exact key _ (Nat.le_refl _) (by unfold ueidLength; omega)
  · intro size h1 h2
    unfold ueidStatic
    rw [if_neg h0, if_neg (by omega)]
    exact key size h1 h2

/-! ### TCB information -/

/-- What is between the headers of the sequence. -/
def tcbBody (t : Tcb) (version : Bytes) : List (Ctx → Out) :=
  optString 0x80 t.vendor ++ (optString 0x81 t.model ++
    (addString 0x82 version :: addTaggedIntegerFromArray t.svn 0x83 :: addTaggedInteger t.layer 0x84 ::
      startConstructed 0xa6 :: (t.fwids.map addFwid ++ (popNesting :: irList t.irs))))

/-- The encoding between the headers. -/
def tcbBytes (t : Tcb) (version : Bytes) : Bytes :=
  (t.vendor.map (RiotDer.Spec.tlv 0x80)).toList.flatten ++ ((t.model.map (RiotDer.Spec.tlv 0x81)).toList.flatten ++
    (RiotDer.Spec.tlv 0x82 version ++ (RiotDer.Spec.tlv 0x83 (RiotDer.Spec.intContent (beNat t.svn)) ++
      (RiotDer.Spec.tlv 0x84 (RiotDer.Spec.intContent t.layer.toNat) ++
        (RiotDer.Spec.tlv 0xa6 ((t.fwids.map Fwid.spec).map Spec.Digest.der).flatten ++
          (if t.irs = [] then [] else RiotDer.Spec.tlv 0xaa ((t.irs.map Ir.spec).map Spec.Register.der).flatten))))))

theorem tcb_der {t : Tcb} {version : Bytes} (h : t.version = some version) :
    t.spec.der = RiotDer.Spec.tlv 0x30 (tcbBytes t version) := by
  unfold Spec.TcbInfo.der Tcb.spec tcbBytes RiotDer.Spec.seq
  by_cases hi : t.irs = []
  · simp [h, hi]
  · simp [h, hi]

theorem ef_irList {P : Prop} {d : Nat} (irs : List Ir) (h : P → ∀ r ∈ irs, r.Valid)
    (hs : P → ∀ r ∈ irs, ∀ s, r.name = some s → s.length < 127) :
    EF P (d + 4) (calls (irList irs))
      (if irs = [] then [] else RiotDer.Spec.tlv 0xaa ((irs.map Ir.spec).map Spec.Register.der).flatten) := by
  unfold irList
  by_cases hi : irs = []
  · rw [if_pos hi, if_pos hi]; exact ef_nil
  · rw [if_neg hi, if_neg hi]
    exact ef_last (tag := 0xaa) rfl (ef_irs irs h hs)

theorem ef_tcb {P : Prop} (t : Tcb) (version : Bytes) (hv : t.version = some version) (hl : t.svn.length < 127)
    (h : P → t.Valid ∧ t.Short) : EF P 4 (calls (tcbBody t version)) (tcbBytes t version) := by
  have hi : (RiotDer.Spec.intContent (beNat t.svn)).length < 128 := by have := intContent_length t.svn; omega
  refine ef_append (ef_opt 0x80 t.vendor fun p => (h p).2.1) (ef_append (ef_opt 0x81 t.model fun p => (h p).2.2.1) ?_)
  refine ef_cons (ef_leaf (addString_exact 0x82 version) fun p => addString_fits _ _ ((h p).2.2.2.1 _ hv)) ?_
  refine ef_cons (ef_leaf (addInt_exact t.svn 0x83 hi) fun p => addInt_fits t.svn 0x83 (by omega) hi) ?_
  refine ef_cons (ef_leaf (addTaggedInteger_exact t.layer 0x84) fun _ => addTaggedInteger_fits t.layer 0x84) ?_
  exact ef_block (tag := 0xa6) rfl (ef_fwids (d := 2) t.fwids fun p => (h p).1.2.2.2.1)
    (ef_irList (d := 0) t.irs (fun p => (h p).1.2.2.2.2) fun p => (h p).2.2.2.2.2)

theorem tcbCreate_eq {t : Tcb} {version : Bytes} (hv : t.version = some version) (h1 : t.svn ≠ []) (h2 : t.fwids ≠ [])
    (size : Nat) : tcbCreate t size = create tcbOid false size (startSequenceOrSet true :: (tcbBody t version ++ [popNesting])) := by
  unfold tcbCreate
  simp only [hv]
  rw [if_neg h1, if_neg h2]
  simp [tcbBody]

/-- **C132, TCB information.** An extension that is built describes exactly the given version, SVN,
layer, digests and registers; and it is built only if the mandatory parts are there: version, SVN,
digests, a name or number and digests for every register, and a known algorithm for every digest. -/
theorem tcb_exact_partial (t : Tcb) (size : Nat) (hs : size < 65536) (hl : t.svn.length < 127) (e : Ext)
    (h : tcbCreate t size = .ok e) :
    t.Valid ∧ e = ⟨false, RiotDer.Spec.oidContent [2, 23, 133, 5, 4, 1], t.spec.der⟩ ∧ e.data.length ≤ size := by
  cases hv : t.version with
  | none => unfold tcbCreate at h; simp [hv] at h
  | some version =>
    have h1 : t.svn ≠ [] := by
      intro h1
      unfold tcbCreate at h
      simp only [hv] at h
      rw [if_pos h1] at h
      exact nomatch h
    have h2 : t.fwids ≠ [] := by
      intro h2
      unfold tcbCreate at h
      simp only [hv] at h
      rw [if_neg h1, if_pos h2] at h
      exact nomatch h
    rw [tcbCreate_eq hv h1 h2] at h
    have g := create_exact (P := False) hs (ef_last (tag := 0x30) (d := 4) seq_start (ef_tcb t version hv hl nofun)) h
    rw [← tcb_der hv] at g
    have ho : RiotDer.Spec.oidContent [2, 23, 133, 5, 4, 1] = tcbOid := by
      have h133 : RiotDer.Spec.subId 133 = [0x81, 0x05] := by
        unfold RiotDer.Spec.subId
        rw [show 133 / 128 = 1 from rfl, RiotDer.Spec.subIdHigh, if_neg (by decide), show 1 / 128 = 0 from rfl, subIdHigh_zero]
        rfl
      simp [RiotDer.Spec.oidContent, subId_small, h133, tcbOid]
    rw [ho]
    refine ⟨⟨by rw [hv]; simp, h1, h2, ?_⟩, g.1, by rw [g.1]; exact g.2⟩
    obtain ⟨c, h3, _⟩ := create_ok h
    obtain ⟨_, _, h3⟩ := Res.bind_eq_ok.1 h3
    unfold tcbBody at h3
    rw [List.append_assoc] at h3
    obtain ⟨_, h3⟩ := calls_drop h3
    rw [List.append_assoc] at h3
    obtain ⟨_, h3⟩ := calls_drop h3
    obtain ⟨_, _, h3⟩ := Res.bind_eq_ok.1 h3
    obtain ⟨_, _, h3⟩ := Res.bind_eq_ok.1 h3
    obtain ⟨_, _, h3⟩ := Res.bind_eq_ok.1 h3
    obtain ⟨_, _, h3⟩ := Res.bind_eq_ok.1 h3
    rw [List.append_eq, List.append_assoc] at h3
    refine ⟨fun f hf => ?_, ?_⟩
    · obtain ⟨_, _, h4⟩ := map_ok h3 f hf
      exact addFwid_ok h4
    · obtain ⟨_, h3⟩ := calls_drop h3
      obtain ⟨_, _, h3⟩ := Res.bind_eq_ok.1 h3
      intro r hr
      have hi : t.irs ≠ [] := by intro hi; rw [hi] at hr; simp at hr
      unfold irList at h3
      rw [if_neg hi] at h3
      obtain ⟨_, _, h3⟩ := Res.bind_eq_ok.1 h3
      rw [List.append_eq, List.append_assoc] at h3
      obtain ⟨_, _, h4⟩ := map_ok h3 r hr
      exact addIr_ok h4

theorem tcb_length {t : Tcb} {version : Bytes} (hv : t.version = some version) (h : t.Valid) (hs : t.Short)
    (hb : tcbLength t < 65536) : (tcbBytes t version).length + 1 ≤ tcbLength t := by
  have h1 := opt_length (tag := 0x80) hs.1
  have h2 := opt_length (tag := 0x81) hs.2.1
  have h3 := opt_length (tag := 0x82) hs.2.2.1
  have h4 := fwids_length h.2.2.2.1
  have h5 := intContent_length t.svn
  have h6 := int32_length t.layer
  have h7 := hs.2.2.2.1
  have hk : 1 ≤ t.fwids.length := by
    cases hf : t.fwids with
    | nil => exact absurd hf h.2.2.1
    | cons a l => simp
  rw [hv] at h3
  simp only [Option.map_some, Option.toList_some, List.flatten_cons, List.flatten_nil, List.append_nil, Option.isSome_some,
    if_true] at h3
  unfold tcbBytes
  unfold tcbLength fwidLength at *
  rw [hv] at *
  have h8 : ((if t.irs = [] then [] else RiotDer.Spec.tlv 0xaa ((t.irs.map Ir.spec).map Spec.Register.der).flatten) :
      Bytes).length ≤ (t.irs.map irLength).sum + 4 := by
    by_cases hi : t.irs = []
    · rw [if_pos hi]; simp
    · rw [if_neg hi, tlv_length]
      have h9 := irs_length h.2.2.2.2 hs.2.2.2.2 (by omega)
      have := lenOctets_cases ((t.irs.map Ir.spec).map Spec.Register.der).flatten.length (by omega)
      omega
  simp only [List.length_append]
  rw [tlv_length 0x83, tlv_length 0x84, tlv_length 0xa6, lenOctets_small (n := (RiotDer.Spec.intContent (beNat t.svn)).length)
    (by omega), lenOctets_small (n := (RiotDer.Spec.intContent t.layer.toNat).length) (by omega)]
  have := lenOctets_cases ((t.fwids.map Fwid.spec).map Spec.Digest.der).flatten.length (by omega)
  simp only [List.length_cons, List.length_nil]
  omega

/-- **C132, TCB information, space.** The buffer allocated is always large enough, although not every
header is counted: the estimates for the other parts make up for it. -/
theorem tcb_dynamic_partial (malloc : Nat → Bool) (t : Tcb) (h : t.Valid) (hs : t.Short) (hl : tcbLength t + 32 < 65536)
    (hm : malloc (tcbLength t + 32) = true) : tcbDynamic malloc t = .ok ⟨false, tcbOid, t.spec.der⟩ := by
  cases hv : t.version with
  | none => exact absurd hv h.1
  | some version =>
    unfold tcbDynamic dynamic
    rw [if_pos hm, tcbCreate_eq hv h.2.1 h.2.2.1, tcb_der hv]
    exact create_top (P := True) (d := 4) hl (ef_tcb t version hv hs.2.2.2.1 fun _ => ⟨h, hs⟩) trivial (by omega)
      (by have := tcb_length hv h hs (by omega); omega)

/-! ### DME -/

/-- The mandatory parts are there. -/
def Dme.spec (d : Dme) : Option Spec.Dme :=
  match d.dataOid, d.data, d.sigOid, d.signature, d.key with
  | some dataOid, some data, some sigOid, some sig, some key => some ⟨key, dataOid, data, sigOid, sig, d.device, d.counter⟩
  | _, _, _, _, _ => none

/-- What is between the headers of the sequence. -/
def dmeBody (s : Spec.Dme) : List (Ctx → Out) :=
  addDER s.key :: addEncodedOID s.dataType :: addOctetString s.data ::
    startSequenceOrSet true :: addEncodedOID s.sigType :: popNesting :: addBitString s.signature ::
    ((s.device.map fun o => retag 0x80 (addEncodedOID o)).toList ++
      (s.counter.map fun b => retag 0x81 (addBitString b)).toList)

/-- OIDs the encoder takes. -/
def Short (s : Spec.Dme) : Prop :=
  s.dataType.length < 127 ∧ s.sigType.length < 127 ∧ ∀ o, s.device = some o → o.length < 127

/-- The encoding between the headers. -/
def dmeBytes (s : Spec.Dme) : Bytes :=
  s.key ++ (RiotDer.Spec.tlv 0x06 s.dataType ++ (RiotDer.Spec.octets s.data ++
    (RiotDer.Spec.tlv 0x30 (RiotDer.Spec.tlv 0x06 s.sigType ++ []) ++ (RiotDer.Spec.bits 0 s.signature ++
      ((s.device.map (RiotDer.Spec.tlv 0x80)).toList.flatten ++
        (s.counter.map fun c => RiotDer.Spec.tlv 0x81 (0 :: c)).toList.flatten)))))

theorem ef_dme {P : Prop} (s : Spec.Dme) (h : P → Short s) : EF P 1 (calls (dmeBody s)) (dmeBytes s) := by
  refine ef_cons (ef_der _) (ef_cons (ef_leaf (addEncodedOID_exact _) fun p => addEncodedOID_fits _ (h p).1) ?_)
  refine ef_cons (ef_octets _) (ef_block (fs := [addEncodedOID s.sigType]) seq_start
    (ef_cons (ef_leaf (addEncodedOID_exact _) fun p => addEncodedOID_fits _ (h p).2.1) ef_nil) ?_)
  refine ef_cons (ef_leaf (addBitString_exact _) fun _ => addBitString_fits _) (ef_append ?_ ?_)
  · cases hd : s.device with
    | none => exact ef_nil
    | some o =>
      exact ef_cons (ef_retag (t0 := 0x06) (b := RiotDer.Spec.lenOctets o.length ++ o)
        (ef_leaf (addEncodedOID_exact o) fun p => addEncodedOID_fits o ((h p).2.2 o hd))) ef_nil
  · cases hd : s.counter with
    | none => exact ef_nil
    | some b =>
      exact ef_cons (ef_retag (t0 := 0x03) (b := RiotDer.Spec.lenOctets (0 :: b).length ++ (0 :: b))
        (ef_leaf (addBitString_exact b) fun _ => addBitString_fits b)) ef_nil

theorem dme_der (s : Spec.Dme) : s.der = RiotDer.Spec.tlv 0x30 (dmeBytes s) := by
  simp [Spec.Dme.der, dmeBytes, RiotDer.Spec.seq]

theorem dmeCreate_eq {d : Dme} {s : Spec.Dme} (h : d.spec = some s) (size : Nat) :
    dmeCreate d size = create dmeOid false size (startSequenceOrSet true :: (dmeBody s ++ [popNesting])) := by
  obtain ⟨a, b, c, e, f, g, i⟩ := d
  unfold Dme.spec at h
  cases a <;> cases b <;> cases c <;> cases e <;> cases f <;> simp at h
  subst h
  simp [dmeCreate, dmeBody]

theorem dmeOid_eq : RiotDer.Spec.oidContent [1, 3, 6, 1, 4, 1, 311, 102, 3, 1] = dmeOid := by
  have h311 : RiotDer.Spec.subId 311 = [0x82, 0x37] := by
    unfold RiotDer.Spec.subId
    rw [show 311 / 128 = 2 from rfl, RiotDer.Spec.subIdHigh, if_neg (by decide), show 2 / 128 = 0 from rfl, subIdHigh_zero]
    rfl
  simp [RiotDer.Spec.oidContent, subId_small, h311, dmeOid]

/-- **C132, DME.** An extension that is built holds exactly the given key, data, signature, device type
and counter; it is not built without one of the first three. -/
theorem dme_exact_partial (d : Dme) (size : Nat) (hs : size < 65536) (e : Ext) (h : dmeCreate d size = .ok e) :
    ∃ s, d.spec = some s ∧ e = ⟨false, RiotDer.Spec.oidContent [1, 3, 6, 1, 4, 1, 311, 102, 3, 1], s.der⟩ ∧ e.data.length ≤ size := by
  rw [dmeOid_eq]
  cases hv : d.spec with
  | none =>
    obtain ⟨a, b, c, e', f, g, i⟩ := d
    unfold Dme.spec at hv
    cases a <;> cases b <;> cases c <;> cases e' <;> cases f <;> simp at hv <;> exact nomatch h
  | some s =>
    rw [dmeCreate_eq hv] at h
    have g := create_exact (P := False) hs (ef_last (tag := 0x30) (d := 1) seq_start (ef_dme s nofun)) h
    rw [← dme_der] at g
    exact ⟨s, rfl, g.1, by rw [g.1]; exact g.2⟩

/-- **C132, DME, space.** The buffer allocated is always large enough. -/
theorem dme_dynamic_partial (malloc : Nat → Bool) (d : Dme) (s : Spec.Dme) (h : d.spec = some s) (hs : Short s)
    (hl : dmeLength d + 32 < 65536) (hm : malloc (dmeLength d + 32) = true) :
    dmeDynamic malloc d = .ok ⟨false, dmeOid, s.der⟩ := by
  unfold dmeDynamic dynamic
  rw [if_pos hm, dmeCreate_eq h, dme_der]
  refine create_top (P := True) (d := 1) hl (ef_dme s fun _ => hs) trivial (by omega) ?_
  have hlen : dmeLength d = 4 + s.dataType.length + s.data.length + s.sigType.length + s.signature.length + s.key.length +
      lenOf s.device + lenOf s.counter + 30 := by
    obtain ⟨a, b, c, e', f, g, i⟩ := d
    unfold Dme.spec at h
    cases a <;> cases b <;> cases c <;> cases e' <;> cases f <;> simp at h
    subst h
    simp only [dmeLength, lenOf]
  have hd : ((s.device.map (RiotDer.Spec.tlv 0x80)).toList.flatten).length ≤ lenOf s.device + 2 := by
    cases hd : s.device with
    | none => simp
    | some o =>
      have := hs.2.2 o hd
      simp only [Option.map_some, Option.toList_some, List.flatten_cons, List.flatten_nil, List.append_nil, tlv_length, lenOf]
      rw [lenOctets_small (by omega)]
      simp only [List.length_cons, List.length_nil]; omega
  have hc : ((s.counter.map fun c => RiotDer.Spec.tlv 0x81 (0 :: c)).toList.flatten).length ≤ lenOf s.counter + 5 := by
    cases hd : s.counter with
    | none => simp
    | some b =>
      have hb : b.length + 1 < 65536 := by rw [hd] at hlen; simp only [lenOf] at hlen; omega
      simp only [Option.map_some, Option.toList_some, List.flatten_cons, List.flatten_nil, List.append_nil, tlv_length, lenOf]
      have := lenOctets_cases (0 :: b).length (by rw [List.length_cons]; exact hb)
      rw [List.length_cons] at *
      omega
  have h1 := hs.1
  have h2 := hs.2.1
  unfold dmeBytes RiotDer.Spec.octets RiotDer.Spec.bits
  simp only [List.append_nil, List.length_append, tlv_length, List.length_cons]
  have h3 := lenOctets_cases s.data.length (by omega)
  have h4 := lenOctets_cases (s.signature.length + 1) (by omega)
  have h5 := lenOctets_cases s.dataType.length (by omega)
  have h6 := lenOctets_cases s.sigType.length (by omega)
  have h7 := lenOctets_cases (1 + (RiotDer.Spec.lenOctets s.sigType.length).length + s.sigType.length) (by omega)
  omega

/-! ### Where the full claims fail -/

theorem addData_room (tag : UInt8) (b : Bytes) (c : Ctx) (hp : c.pos + (RiotDer.Spec.tlv tag b).length ≤ c.buf.length)
    (hb : 32 ≤ b.length) (hl : c.buf.length < 65536) : ∃ c', addData tag b c = .ok c' := by
  rw [tlv_length] at hp
  unfold addData
  simp only [Res.bind_eq_ok, chk2_ok]
  obtain ⟨c1, h1⟩ := put_fits (c := c) (bs := [tag]) (by simp; omega)
  have g1 := put_exact _ c c1 (by omega) hl h1
  have p1 : c1.pos = c.pos + 1 := g1.pos
  obtain ⟨c2, h2⟩ := put_fits (c := c1) (bs := RiotDer.Spec.lenOctets b.length) (by rw [g1.len]; omega)
  have g2 := put_exact _ c1 c2 g1.inb (by rw [g1.len]; exact hl) h2
  obtain ⟨c3, h3⟩ := put_fits (c := c2) (bs := b) (by rw [g2.len, g2.pos, g1.len]; omega)
  exact ⟨c3, _, ⟨rfl, by omega⟩, c1, h1, c2, by rw [putLen_eq (by omega)]; exact h2, h3⟩

/-- **Counterexample.** An identifier of 256 bytes or more (below 64 KiB) is never accepted with the
buffer that is allocated for it. -/
theorem ueid_256_refused (malloc : Nat → Bool) (id : Bytes) (h : 256 ≤ id.length) (hl : ueidLength id < 65536)
    (hm : malloc (ueidLength id) = true) : ueidDynamic malloc id = .err smallBuffer := by
  unfold ueidLength at hl
  have h0 : id ≠ [] := by intro h0; rw [h0] at h; simp at h
  unfold ueidDynamic dynamic
  rw [if_pos hm]
  unfold ueidCreate
  rw [if_neg h0]
  have hbl := init_len (ueidLength id)
  have hpos : (init (ueidLength id)).pos = 0 := rfl
  have hst : startConstructed 0x30 (init (ueidLength id)) = .ok _ :=
    start_ok.2 ⟨by rw [init_len]; show _ ≤ _ - 0; unfold ueidLength; omega, by show 0 < 16; omega, rfl⟩
  have hlo := lenOctets_cases id.length (by omega)
  have hu : ueidLength id = id.length + 36 := rfl
  obtain ⟨c2, h2⟩ := addData_room 0x04 id ⟨writeAt (init (ueidLength id)).buf (init (ueidLength id)).pos [0x30],
    (init (ueidLength id)).pos + 1, ((init (ueidLength id)).pos + 1) :: (init (ueidLength id)).stack⟩
    (by show 0 + 1 + _ ≤ _; rw [writeAt_length, tlv_length, hbl, hu]; omega) (by omega)
    (by simp only [writeAt_length]; omega)
  have g := addOctetString_exact id _ c2 (by simp only [writeAt_length]; omega) (by simp only [writeAt_length]; omega) h2
  have gl : c2.buf.length = ueidLength id := by rw [g.len]; simp only [writeAt_length]; exact hbl
  have gp : c2.pos = 0 + 1 + (RiotDer.Spec.octets id).length := g.pos
  rw [RiotDer.Spec.octets, tlv_length] at gp
  have hpop : popNesting c2 = .err .der := by
    unfold popNesting chk
    rw [if_pos (by omega)]; rfl
  have : calls [startSequenceOrSet true, addOctetString id, popNesting] (init (ueidLength id)) = .err .der := by
    show startConstructed 0x30 _ >>= _ = _
    rw [hst, Res.ok_bind]
    show addData 0x04 id _ >>= _ = _
    rw [h2, Res.ok_bind]
    show popNesting c2 >>= _ = _
    rw [hpop]; rfl
  unfold create
  rw [this]

example : ∃ id : Bytes, 256 ≤ id.length ∧ ueidLength id < 65536 := ⟨List.replicate 256 0, by rw [List.length_replicate]; exact Nat.le_refl _, by rw [ueidLength, List.length_replicate]; decide⟩

/-- **Counterexample.** With a buffer of the caller's, which is too small, the encoder writes outside
it: it is not refused. -/
theorem static_overflow : ekuCreate true [List.replicate 40 1] 33 = .oob := by decide +kernel

/-- **Counterexample.** The same for the TCB information. -/
theorem tcb_static_overflow :
    tcbCreate ⟨some (List.replicate 60 65), none, some [49], 0, [1], [⟨some (List.replicate 32 7), .sha256⟩], []⟩ 40 = .oob := by
  decide +kernel

/-- **Counterexample.** The length of a digest is not known; a short one is read past its end. -/
theorem short_digest_overread (c : Ctx) (d : Bytes) (h : d.length < 48) : addFwid ⟨some d, .sha384⟩ c = .oob := by
  unfold addFwid
  simp only [Alg.params]
  rw [if_pos h]

/-- Missing parts are refused, whatever the buffer: version, SVN, digests. -/
theorem missing_refused (t : Tcb) (size : Nat) (h : t.version = none ∨ t.svn = [] ∨ t.fwids = []) :
    tcbCreate t size = .err missing := by
  unfold tcbCreate
  cases hv : t.version with
  | none => rfl
  | some v =>
    simp only [hv] at *
    rcases h with h | h | h
    · exact nomatch h
    · rw [if_pos h]
    · by_cases h1 : t.svn = []
      · rw [if_pos h1]
      · rw [if_neg h1, if_pos h]

/-! ### Concrete cases -/

/-- A device with two digests and two registers. -/
def sample : Tcb :=
  ⟨some [77, 83], none, some [49, 46, 50], 3, [0x80, 1], [⟨some (List.replicate 32 7), .sha256⟩, ⟨some (List.replicate 48 8), .sha384⟩],
    [⟨some [97], none, [⟨some (List.replicate 32 9), .sha256⟩]⟩, ⟨none, some 200, [⟨some (List.replicate 64 9), .sha512⟩]⟩]⟩

example : sample.Valid ∧ sample.Short ∧ tcbLength sample + 32 < 65536 := by
  refine ⟨⟨by decide, by decide, by decide, ?_, ?_⟩, ⟨?_, ?_, ?_, by decide, ?_⟩, by decide⟩
  · simp [sample, Fwid.Valid, Alg.params, exists_and_left]
    exact ⟨⟨_, _, ⟨rfl, rfl⟩, by omega⟩, _, _, ⟨rfl, rfl⟩, by omega⟩
  · simp [sample, Ir.Valid, Fwid.Valid, Alg.params]
    exact ⟨⟨_, _, ⟨rfl, rfl⟩, by omega⟩, _, _, ⟨rfl, rfl⟩, by omega⟩
  · simp [sample]
  · simp [sample]
  · simp [sample]
  · simp [sample]



example : (match tcbDynamic (fun _ => true) sample with | .ok e => e.data.length | _ => 0) = 277 := by decide +kernel

example : ekuDynamic (fun _ => true) true [[0x67, 0x81, 0x05]] = .ok ⟨true, ekuOid, [0x30, 5, 6, 3, 0x67, 0x81, 0x05]⟩ := by
  decide +kernel

example : ueidDynamic (fun _ => true) [1, 2] = .ok ⟨false, ueidOid, [0x30, 4, 4, 2, 1, 2]⟩ := by decide +kernel

example : dmeDynamic (fun _ => true) ⟨some [42], some [1], some [43], some [2], some [0x30, 0], some [44], some [5]⟩ =
    .ok ⟨false, dmeOid, [0x30, 24, 0x30, 0, 6, 1, 42, 4, 1, 1, 0x30, 3, 6, 1, 43, 3, 2, 0, 2, 0x80, 1, 44, 0x81, 2, 0, 5]⟩ := by
  decide +kernel

end Verif.ExtBuild
