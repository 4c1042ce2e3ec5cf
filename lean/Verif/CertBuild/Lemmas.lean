import Verif.CertBuild.Spec
import Verif.CertBuild.Model
import Verif.RiotDer.Oid
import Verif.RiotDer.Prims
import Verif.RiotDer.DecProps
/-! Helper lemmas: what each part of a certificate adds to the encoding. -/
namespace Verif.CertBuild
open Verif
open Verif.RiotDer

/-- `f` appends `b` when it succeeds, and under `P` succeeds given space and `d` free levels. -/
def EF (P : Prop) (d : Nat) (f : Ctx → Out) (b : Bytes) : Prop := Exact f b ∧ (P → Fits d f b)

theorem EF.mono {P Q : Prop} {d e : Nat} {f : Ctx → Out} {b : Bytes} (h : EF P d f b) (hq : Q → P) (hd : d ≤ e) :
    EF Q e f b := ⟨h.1, fun q => (h.2 (hq q)).mono hd⟩

theorem ef_leaf {P : Prop} {d : Nat} {f : Ctx → Out} {b : Bytes} (h : Exact f b) (h2 : P → Fits 0 f b) : EF P d f b :=
  ⟨h, fun p => (h2 p).mono (by omega)⟩
theorem ef_nil {P : Prop} {d : Nat} : EF P d (calls []) [] := ⟨exact_nil, fun _ => fits_nil d⟩
theorem ef_cons {P : Prop} {d : Nat} {f : Ctx → Out} {fs : List (Ctx → Out)} {a b : Bytes} (h : EF P d f a)
    (hs : EF P d (calls fs) b) : EF P d (calls (f :: fs)) (a ++ b) :=
  ⟨exact_cons h.1 hs.1, fun p => fits_cons h.1 (h.2 p) (hs.2 p)⟩
theorem ef_append {P : Prop} {d : Nat} {fs gs : List (Ctx → Out)} {a b : Bytes} (h : EF P d (calls fs) a)
    (hs : EF P d (calls gs) b) : EF P d (calls (fs ++ gs)) (a ++ b) :=
  ⟨exact_append h.1 hs.1, fun p => fits_append h.1 (h.2 p) (hs.2 p)⟩
theorem ef_block {P : Prop} {d : Nat} {tag : UInt8} {start : Ctx → Out} {fs rest : List (Ctx → Out)} {b r : Bytes}
    (hst : start = startConstructed tag) (h : EF P d (calls fs) b) (hr : EF P (d + 1) (calls rest) r) :
    EF P (d + 1) (calls (start :: (fs ++ popNesting :: rest))) (Spec.tlv tag b ++ r) := by
  have e : start :: (fs ++ popNesting :: rest) = (start :: (fs ++ [popNesting])) ++ rest := by simp
  rw [e]
  exact ef_append ⟨exact_bracket hst h.1, fun p => fits_bracket hst h.1 (h.2 p)⟩ hr
theorem ef_last {P : Prop} {d : Nat} {tag : UInt8} {start : Ctx → Out} {fs : List (Ctx → Out)} {b : Bytes}
    (hst : start = startConstructed tag) (h : EF P d (calls fs) b) :
    EF P (d + 1) (calls (start :: (fs ++ [popNesting]))) (Spec.tlv tag b) :=
  ⟨exact_bracket hst h.1, fun p => fits_bracket hst h.1 (h.2 p)⟩

theorem ef_oid {P : Prop} {d : Nat} {arcs : List Nat} (h : GoodOid arcs) : EF P d (addOID arcs) (Spec.oid arcs) :=
  ef_leaf (addOID_exact h) fun _ => addOID_fits h
theorem ef_bool {P : Prop} {d : Nat} (b : Bool) : EF P d (addBoolean b) (Spec.bool b) :=
  ef_leaf (addBoolean_exact b) fun _ => addBoolean_fits b
theorem ef_octets {P : Prop} {d : Nat} (b : Bytes) : EF P d (addOctetString b) (Spec.octets b) :=
  ef_leaf (addOctetString_exact b) fun _ => addOctetString_fits b
theorem ef_der {P : Prop} {d : Nat} (b : Bytes) : EF P d (addDER b) b :=
  ef_leaf (addDER_exact b) fun _ => addDER_fits b

theorem seq_start : startSequenceOrSet true = startConstructed 0x30 := rfl
theorem set_start : startSequenceOrSet false = startConstructed 0x31 := rfl
theorem oct_start : startEnvelopingOctetString = startConstructed 0x04 := rfl

theorem ef_name {P : Prop} {d : Nat} (cn : Bytes) (h : P → cn.length < 127) : EF P (d + 3) (addName cn) (Spec.name cn) := by
  refine ef_last (fs := [startSequenceOrSet false, startSequenceOrSet true, addOID [2, 5, 4, 3],
    addUTF8String cn, popNesting, popNesting]) seq_start ?_
  refine ef_block (fs := [startSequenceOrSet true, addOID [2, 5, 4, 3], addUTF8String cn, popNesting]) (rest := [])
    set_start ?_ ef_nil
  refine ef_block (fs := [addOID [2, 5, 4, 3], addUTF8String cn]) (rest := []) seq_start ?_ ef_nil
  exact ef_cons (ef_oid (by decide)) (ef_cons (ef_leaf (addUTF8String_exact cn) fun p => addUTF8String_fits cn (h p)) ef_nil)

theorem ef_ski {P : Prop} {d : Nat} (id : Bytes) : EF P (d + 2) (addSki id) (Spec.subjectKeyId id) := by
  have h : EF P (d + 2) (addSki id) (Spec.tlv 0x30 (Spec.oid [2, 5, 29, 14] ++ (Spec.tlv 0x04 (Spec.octets id ++ []) ++ []))) := by
    refine ef_last (fs := [addOID [2, 5, 29, 14], startEnvelopingOctetString, addOctetString id, popNesting]) seq_start ?_
    refine ef_cons (ef_oid (by decide)) ?_
    refine ef_block (fs := [addOctetString id]) (rest := []) oct_start ?_ ef_nil
    exact ef_cons (ef_octets id) ef_nil
  rw [List.append_nil (Spec.octets id)] at h
  exact h

theorem ef_aki {P : Prop} {d : Nat} (id : Bytes) : EF P (d + 3) (addAki id) (Spec.authorityKeyId id) := by
  have h : EF P (d + 3) (addAki id) (Spec.tlv 0x30 (Spec.oid [2, 5, 29, 35] ++
      (Spec.tlv 0x04 (Spec.tlv 0x30 (Spec.tlv 0x80 id ++ []) ++ []) ++ []))) := by
    refine ef_last (fs := [addOID [2, 5, 29, 35], startEnvelopingOctetString, startSequenceOrSet true,
      addAuthKeyBitString id, popNesting, popNesting]) seq_start ?_
    refine ef_cons (ef_oid (by decide)) ?_
    refine ef_block (fs := [startSequenceOrSet true, addAuthKeyBitString id, popNesting]) (rest := []) oct_start ?_ ef_nil
    refine ef_block (fs := [addAuthKeyBitString id]) (rest := []) seq_start ?_ ef_nil
    exact ef_cons (ef_leaf (addAuthKeyBitString_exact id) fun _ => addAuthKeyBitString_fits id) ef_nil
  rw [List.append_nil (Spec.tlv 0x30 (Spec.tlv 0x80 id ++ []))] at h
  exact h

/-- What the type number of a certificate stands for (x509.h:23-26): 0 is an end entity, n between 1
and 16 a CA with path length n - 1, more a CA without a path length. -/
def role (type : Nat) : Spec.Role :=
  if type = 0 then .endEntity else if type ≤ 16 then .ca (some (type - 1)) else .ca none

theorem ef_usage {P : Prop} {d : Nat} (type : Nat) :
    EF P (d + 2) (addKeyUsage type) (Spec.keyUsage (role type).isCa) := by
  have key : ∀ (f : Ctx → Out) (b : Bytes), EF P d f b → EF P (d + 2) (calls
      [startSequenceOrSet true, addOID [2, 5, 29, 15], addBoolean true, startEnvelopingOctetString, f, popNesting,
        popNesting]) (Spec.extension (Spec.oid [2, 5, 29, 15]) true b) := by
    intro f b hf
    have h : EF P (d + 2) (calls [startSequenceOrSet true, addOID [2, 5, 29, 15], addBoolean true,
        startEnvelopingOctetString, f, popNesting, popNesting]) (Spec.tlv 0x30 (Spec.oid [2, 5, 29, 15] ++
          (Spec.bool true ++ (Spec.tlv 0x04 (b ++ []) ++ [])))) := by
      refine ef_last (fs := [addOID [2, 5, 29, 15], addBoolean true, startEnvelopingOctetString, f, popNesting])
        seq_start ?_
      refine ef_cons (ef_oid (by decide)) (ef_cons (ef_bool true) ?_)
      refine ef_block (fs := [f]) (rest := []) oct_start ?_ ef_nil
      exact ef_cons hf ef_nil
    rw [List.append_nil b] at h
    exact h
  unfold addKeyUsage Spec.keyUsage role
  by_cases h0 : type = 0
  · subst h0
    exact key _ _ (ef_leaf (addNamedBitString_exact [0x88] 5) fun _ => addNamedBitString_fits _ _ (by decide) (by decide))
  · rw [if_pos h0, if_neg h0]
    have : (if type ≤ 16 then Spec.Role.ca (some (type - 1)) else Spec.Role.ca none).isCa = true := by
      split <;> rfl
    rw [this]
    exact key _ _ (ef_leaf (addNamedBitString_exact [0x04] 6) fun _ => addNamedBitString_fits _ _ (by decide) (by decide))

theorem ef_constraints {P : Prop} {d : Nat} (type : Nat) :
    EF P (d + 3) (addConstraints type) (role type).constraints.flatten := by
  have key : ∀ (fs : List (Ctx → Out)) (bs : List Bytes), EF P d (calls fs) bs.flatten → EF P (d + 3) (calls
      (startSequenceOrSet true :: addOID [2, 5, 29, 19] :: addBoolean true :: startEnvelopingOctetString ::
        startSequenceOrSet true :: addBoolean true :: (fs ++ [popNesting, popNesting, popNesting])))
      (Spec.extension (Spec.oid [2, 5, 29, 19]) true (Spec.seq ([Spec.bool true] ++ bs))) := by
    intro fs bs hf
    have h : EF P (d + 3) (calls (startSequenceOrSet true :: (addOID [2, 5, 29, 19] :: addBoolean true ::
        (startEnvelopingOctetString :: ((startSequenceOrSet true :: ((addBoolean true :: fs) ++ popNesting :: [])) ++
          popNesting :: [])) ++ [popNesting]))) (Spec.tlv 0x30 (Spec.oid [2, 5, 29, 19] ++
          (Spec.bool true ++ (Spec.tlv 0x04 (Spec.tlv 0x30 (Spec.bool true ++ bs.flatten) ++ []) ++ [])))) := by
      refine ef_last seq_start ?_
      refine ef_cons (ef_oid (by decide)) (ef_cons (ef_bool true) ?_)
      refine ef_block oct_start ?_ ef_nil
      refine ef_block seq_start ?_ ef_nil
      exact ef_cons (ef_bool true) hf
    rw [List.append_nil (Spec.tlv 0x30 (Spec.bool true ++ bs.flatten))] at h
    have e2 : Spec.extension (Spec.oid [2, 5, 29, 19]) true (Spec.seq ([Spec.bool true] ++ bs)) =
        Spec.tlv 0x30 (Spec.oid [2, 5, 29, 19] ++
          (Spec.bool true ++ (Spec.tlv 0x04 (Spec.tlv 0x30 (Spec.bool true ++ bs.flatten)) ++ []))) := rfl
    rw [e2]
    simpa using h
  unfold addConstraints role Spec.Role.constraints
  by_cases h0 : type = 0
  · subst h0
    exact ⟨exact_nil, fun _ => fits_nil _⟩
  · rw [if_pos h0, if_neg h0]
    unfold pathLenCall noPathLen
    by_cases h1 : type ≤ 16
    · rw [if_pos h1, if_pos (by omega)]
      have e : (UInt32.ofNat (type - 1)).toNat = type - 1 := by
        rw [UInt32.toNat_ofNat']; omega
      have := key [addInteger (UInt32.ofNat (type - 1))] [Spec.int (type - 1)]
        (ef_cons (by
          have h := ef_leaf (P := P) (d := d) (addInteger_exact (UInt32.ofNat (type - 1))) fun _ => addInteger_fits _
          rw [e] at h; exact h) ef_nil)
      simpa [Spec.basicConstraints] using this
    · rw [if_neg h1, if_neg (by omega)]
      simpa [Spec.basicConstraints] using key [] [] ef_nil

theorem ef_eku {P : Prop} {d : Nat} (p : Bytes) (hp : P → p.length < 127) :
    EF P (d + 3) (addEku p) (Spec.extendedKeyUsage p) := by
  have h : EF P (d + 3) (addEku p) (Spec.tlv 0x30 (Spec.oid [2, 5, 29, 37] ++
      (Spec.tlv 0x04 (Spec.tlv 0x30 (Spec.tlv 0x06 p ++ []) ++ []) ++ []))) := by
    refine ef_last (fs := [addOID [2, 5, 29, 37], startEnvelopingOctetString, startSequenceOrSet true,
      addEncodedOID p, popNesting, popNesting]) seq_start ?_
    refine ef_cons (ef_oid (by decide)) ?_
    refine ef_block (fs := [startSequenceOrSet true, addEncodedOID p, popNesting]) (rest := []) oct_start ?_ ef_nil
    refine ef_block (fs := [addEncodedOID p]) (rest := []) seq_start ?_ ef_nil
    exact ef_cons (ef_leaf (addEncodedOID_exact p) fun x => addEncodedOID_fits p (hp x)) ef_nil
  rw [List.append_nil (Spec.tlv 0x30 (Spec.tlv 0x06 p ++ []))] at h
  exact h

/-- The extensions that builders gave, in order; null entries are left out. -/
def built : List Builder → List Spec.Extra
  | [] => []
  | some (.ok e) :: bs => ⟨e.oid, e.critical, e.data⟩ :: built bs
  | _ :: bs => built bs

/-- No builder fails, and the OIDs are short enough for the encoder. -/
def Builders (bs : List Builder) : Prop :=
  ∀ r, some r ∈ bs → ∃ e, r = .ok e ∧ e.oid.length < 127

theorem ef_built {P : Prop} {d : Nat} (e : Ext) (h : P → e.oid.length < 127) :
    EF P (d + 1) (addBuilt e) (Spec.Extra.der ⟨e.oid, e.critical, e.data⟩) := by
  obtain ⟨cr, oid, data⟩ := e
  unfold addBuilt Spec.Extra.der Spec.extension
  cases cr with
  | true =>
    exact ef_last (fs := [addEncodedOID oid, addBoolean true, addOctetString data]) seq_start
      (ef_cons (ef_leaf (addEncodedOID_exact oid) fun x => addEncodedOID_fits oid (h x))
        (ef_cons (ef_bool true) (ef_cons (ef_octets data) ef_nil)))
  | false =>
    exact ef_last (fs := [addEncodedOID oid, addOctetString data]) seq_start
      (ef_cons (ef_leaf (addEncodedOID_exact oid) fun x => addEncodedOID_fits oid (h x))
        (ef_cons (ef_octets data) ef_nil))

theorem ef_custom {P : Prop} {d : Nat} (bs : List Builder) (h : P → Builders bs) :
    EF P (d + 1) (calls (bs.map addCustom)) ((built bs).map Spec.Extra.der).flatten := by
  induction bs with
  | nil => exact ef_nil
  | cons b bs ih =>
    have ih := ih (fun p r hr => h p r (by simp [hr]))
    match b with
    | none => exact ef_cons (a := []) ⟨fun c c' hp hl hc => (by cases hc; exact Grew.refl hp),
        fun _ c _ _ _ => ⟨c, rfl⟩⟩ ih
    | some (.ok e) =>
      refine ef_cons ?_ ih
      exact ef_built e fun p => by
        obtain ⟨e', h1, h2⟩ := h p (.ok e) (by simp)
        cases h1; exact h2
    | some (.err e) =>
      exact ef_cons (a := []) ⟨fun c c' hp hl hc => (by cases hc),
        fun p => (by obtain ⟨e', h1, h2⟩ := h p (.err e) (by simp); cases h1)⟩ ih
    | some .oob =>
      exact ef_cons (a := []) ⟨fun c c' hp hl hc => (by cases hc),
        fun p => (by obtain ⟨e', h1, h2⟩ := h p .oob (by simp); cases h1)⟩ ih

/-- What the encoder needs of the inputs of a certificate to succeed. -/
structure Inputs (issuer subject serial : Bytes) (extra : List Builder) : Prop where
  issuer : issuer.length < 127
  subject : subject.length < 127
  serial : serial.length < 127
  extra : Builders extra

theorem ef_certTbs (issuer authId subject subjId serial key : Bytes) (sigOid : List Nat) (type : Nat)
    (extra : List Builder) (hs : serial.length < 127) (ho : GoodOid sigOid) :
    EF (Inputs issuer subject serial extra) 6
      (certTbs issuer authId subject subjId serial key sigOid type extra)
      (Spec.tbs ⟨beNat serial, sigOid, issuer, subject, key, subjId, authId, role type, built extra⟩) := by
  have hc := intContent_length serial
  have e : certTbs issuer authId subject subjId serial key sigOid type extra = calls
      (startSequenceOrSet true :: (addShortExplicitInteger 2 :: addIntegerFromArray serial ::
        (startSequenceOrSet true :: ([addOID sigOid] ++ popNesting :: (addName issuer ::
        (startSequenceOrSet true :: ([addTime validFrom, addTime validTo] ++ popNesting :: (addName subject ::
        addDER key :: (startExplicit 3 :: ((startSequenceOrSet true :: ((addSki subjId :: addAki authId ::
          addKeyUsage type :: addConstraints type :: extra.map addCustom) ++ popNesting :: [])) ++
          popNesting :: [])))))))) ++ [popNesting])) := by
    unfold certTbs; simp
  rw [e]
  have h := ef_last (P := Inputs issuer subject serial extra) (d := 5) (tag := 0x30) seq_start
    (ef_cons (ef_leaf (addShort_exact 2) fun _ => addShort_fits 2 (by decide))
    (ef_cons (ef_leaf (addInt_exact serial 0x02 (by omega)) fun _ => addInt_fits serial 0x02 (by omega) (by omega))
    (ef_block (tag := 0x30) seq_start (ef_cons (ef_oid ho) ef_nil)
    (ef_cons (ef_name issuer fun p => p.issuer)
    (ef_block (tag := 0x30) seq_start
      (ef_cons (ef_leaf (addTime_exact validFrom) fun _ => addTime_fits validFrom (by decide))
        (ef_cons (ef_leaf (addTime_exact validTo) fun _ => addTime_fits validTo (by decide)) ef_nil))
    (ef_cons (ef_name subject fun p => p.subject)
    (ef_cons (ef_der key)
    (ef_block (tag := 0xa3) (start := startExplicit 3) (by rfl)
      (ef_block (tag := 0x30) seq_start (ef_cons (ef_ski subjId) (ef_cons (ef_aki authId)
        (ef_cons (ef_usage type) (ef_cons (ef_constraints type) (ef_custom extra fun p => p.extra))))) ef_nil)
      ef_nil))))))))
  have e2 : Spec.tbs ⟨beNat serial, sigOid, issuer, subject, key, subjId, authId, role type, built extra⟩ =
    Spec.tlv 0x30 (Spec.explicit 0 [Spec.int 2] ++ (Spec.int (beNat serial) ++ (Spec.algorithm sigOid ++
      (Spec.name issuer ++ (Spec.validity ++ (Spec.name subject ++ (key ++ (Spec.tlv 0xa3 (Spec.tlv 0x30
        (Spec.subjectKeyId subjId ++ (Spec.authorityKeyId authId ++ (Spec.keyUsage (role type).isCa ++
          ((role type).constraints.flatten ++ ((built extra).map Spec.Extra.der).flatten)))) ++ []) ++ [])))))))) := by
    simp [Spec.tbs, Spec.seq, Spec.explicit]
  rw [e2]
  exact h

end Verif.CertBuild
