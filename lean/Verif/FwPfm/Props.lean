import Verif.FwPfm.Model
import Verif.HostFw.Props
import Verif.BufferUtil.Props
/-!
# C134: device firmware verified with a PFM
-/
namespace Verif.FwPfm
open Verif

/-! ### The verdict -/

/-- **C134, soundness.** A run that succeeds: the PFM is authentic, has the expected identifier and
describes the firmware on the flash, which is not changed. -/
theorem run_sound_partial (env : Env) (f : Faults) (expected : Option UInt32) (st : St) (fs : Flash.FS)
    (he : ∀ e, env.hostErr e ≠ 0) (hg : ∀ v, (env.pfm.images v).Good env.eg 0)
    (h : (run env f expected st fs).1 = 0) :
    f.verify = 0 ∧ (∀ id, expected = some id → env.pfm.id = id) ∧ (run env f expected st fs).2.2.1.mem = fs.mem ∧
    (run env f expected st fs).2.1.result = 0 ∧
    ∃ v, Spec.Describes env.eg env.pfm fs.mem v ∧ (run env f expected st fs).2.1.version = copyVersion env.maxVersion v := by
  unfold run at h ⊢
  cases hv : verifyFirmware env f expected fs with
  | mk s r =>
    obtain ⟨v, fs'⟩ := r
    rw [hv] at h
    simp only at h ⊢
    subst h
    unfold verifyFirmware at hv
    split at hv
    · rename_i hn; simp only [Prod.mk.injEq] at hv; exact absurd hv.1 hn
    rename_i h1
    split at hv
    · rename_i hn; simp only [Prod.mk.injEq] at hv; exact absurd hv.1 hn.2
    split at hv
    · simp only [Prod.mk.injEq] at hv; exact absurd hv.1 (by decide)
    rename_i h3
    split at hv
    · rename_i hn
      simp only [Prod.mk.injEq] at hv
      have := hv.1
      split at this
      · exact absurd this (by decide)
      · exact absurd this hn
    split at hv
    · simp only [Prod.mk.injEq] at hv; exact absurd hv.1 (by decide)
    rename_i h5
    split at hv
    · rename_i hn; simp only [Prod.mk.injEq] at hv; exact absurd hv.1 hn
    split at hv
    · simp only [Prod.mk.injEq] at hv; exact absurd hv.1 (by decide)
    rename_i h7
    split at hv
    · rename_i hn; simp only [Prod.mk.injEq] at hv; exact absurd hv.1 hn
    split at hv
    · simp only [Prod.mk.injEq] at hv; exact absurd hv.1 (by decide)
    · rename_i w hw
      cases hc : checkImages env f w fs with
      | mk s' fs'' =>
        rw [hc] at hv
        simp only [Prod.mk.injEq] at hv
        obtain ⟨rfl, e2, rfl⟩ := hv
        simp only [if_true] at e2
        subst e2
        unfold checkImages at hc
        split at hc
        · rename_i hn; simp only [Prod.mk.injEq] at hc; exact absurd hc.1 hn
        split at hc
        · simp only [Prod.mk.injEq] at hc; exact absurd hc.1 (by decide)
        rename_i h8
        split at hc
        · rename_i fs3 hi
          simp only [Prod.mk.injEq] at hc
          obtain ⟨_, rfl⟩ := hc
          obtain ⟨m1, m2⟩ := HostFw.boot_verification_sound _ _ _ _ _ _ _ (by simpa using hg w) hi
          refine ⟨by simpa using h1, ?_, m1, ?_, w, ⟨by simpa using h5, by omega, hw, h8, m2 _ (by simp)⟩, ?_⟩
          · intro id hid
            subst hid
            simpa using h3
          · simp [updateMeasurements]
          · simp [updateMeasurements]
        · rename_i e fs3 hi
          simp only [Prod.mk.injEq] at hc
          exact absurd hc.1 (he e)
    · simp only [Prod.mk.injEq] at hv; exact absurd hv.1 (by decide)

/-- **C134, completeness.** Firmware the PFM describes is accepted if no call fails. -/
theorem run_accepts (env : Env) (f : Faults) (expected : Option UInt32) (st : St) (fs : Flash.FS) (v : Bytes)
    (hd : HostFw.Dev.Sound env.dev) (hs : env.eg.Sound) (hg : (env.pfm.images v).Good env.eg 0) (hc : (env.pfm.images v).Complete)
    (h : Spec.Describes env.eg env.pfm fs.mem v) (hid : ∀ id, expected = some id → env.pfm.id = id)
    (hf : f.verify = 0 ∧ f.getId = 0 ∧ f.isEmpty = 0 ∧ f.firmware = 0 ∧ f.versions = 0 ∧ f.images = 0) :
    (run env f expected st fs).1 = 0 := by
  obtain ⟨f1, f2, f3, f4, f5, f6⟩ := hf
  obtain ⟨d1, d2, d3, d4, d5⟩ := h
  obtain ⟨fs', hi⟩ := HostFw.boot_verification_accepts env.dev env.eg env.stack 0 [env.pfm.images v] fs hd hs (by simpa using hg)
    (by simpa using hc) (by simpa using d5)
  have h3 : ¬ (expected.any (env.pfm.id ≠ ·) = true) := by
    cases expected with
    | none => simp
    | some id => simp [hid id rfl]
  simp only [run, verifyFirmware, checkImages, f1, f2, f3, f4, f5, f6, d1, d3, hi, if_neg h3, if_neg d4, ne_eq, not_true_eq_false, if_false, and_false, Bool.false_eq_true, show ¬ (env.pfm.firmware > 1) by omega]

/-! ### What is recorded -/

theorem recorded_other {H : Pcr.Hash} {s : List Pcr.Bank} {t t' : Nat} {d : Bytes} {f : Pcr.Bank → Nat → Pcr.Bank × Res Pcr.Err Unit}
    (hne : t % 65536 ≠ t' % 65536) (hf : ∀ b i, (f b i).1.algo = b.algo ∧ ∀ j, j ≠ i → (f b i).1.list[j]? = b.list[j]?)
    (h : Spec.Recorded H s t' d) : Spec.Recorded H (Pcr.onBank s t f).1 t' d := by
  obtain ⟨b, m, h1, h2, h3⟩ := h
  unfold Pcr.onBank
  split
  · exact ⟨b, m, h1, h2, h3⟩
  · rename_i hl
    cases hb : s[Pcr.pcrOf t]? with
    | none => exact ⟨b, m, h1, h2, h3⟩
    | some c =>
      simp only
      by_cases he : Pcr.pcrOf t = t' / 256 % 256
      · rw [← he, hb] at h1
        cases h1
        obtain ⟨g1, g2⟩ := hf b (Pcr.idxOf t)
        refine ⟨(f b (Pcr.idxOf t)).1, m, ?_, ?_, ?_⟩
        · rw [← he]
          exact List.getElem?_set_self (by omega)
        · rw [g2 _ (by unfold Pcr.pcrOf at he; unfold Pcr.idxOf; omega)]; exact h2
        · rw [g1]; exact h3
      · exact ⟨b, m, by rw [List.getElem?_set_ne he]; exact h1, h2, h3⟩

theorem update_frame (H : Pcr.Hash) (fail : Bool) (buf : Bytes) (b : Pcr.Bank) (i : Nat) :
    (Pcr.updateBufferCommon H fail false b i buf true (some 0) false).1.algo = b.algo ∧
    ∀ j, j ≠ i → (Pcr.updateBufferCommon H fail false b i buf true (some 0) false).1.list[j]? = b.list[j]? := by
  unfold Pcr.updateBufferCommon
  simp only [Bool.true_eq_false, false_and, if_false]
  split
  · exact ⟨rfl, fun _ _ => rfl⟩
  · cases Pcr.eventBytes b i true with
    | oob => exact ⟨rfl, fun _ _ => rfl⟩
    | err e => exact ⟨rfl, fun _ _ => rfl⟩
    | ok ev =>
      simp only [Bool.false_eq_true, if_false]
      unfold Pcr.updateDigestCommon
      split
      · exact ⟨rfl, fun _ _ => rfl⟩
      · split
        · exact ⟨rfl, fun _ _ => rfl⟩
        · cases Pcr.at' b i with
          | oob => exact ⟨rfl, fun _ _ => rfl⟩
          | err e => exact ⟨rfl, fun _ _ => rfl⟩
          | ok m =>
            simp only
            split
            · exact ⟨rfl, fun _ _ => rfl⟩
            · exact ⟨rfl, fun j hj => by simp [Pcr.setMeas, List.getElem?_set_ne (Ne.symm hj)]⟩

theorem record_other {env : Env} {fail : Bool} {t t' : Nat} {buf d : Bytes} {s : List Pcr.Bank}
    (hne : t % 65536 ≠ t' % 65536) (h : Spec.Recorded env.H s t' d) : Spec.Recorded env.H (record env fail t buf s).1 t' d :=
  recorded_other hne (fun b i => update_frame env.H fail buf b i) h

theorem record_ok {env : Env} {fail : Bool} {t : Nat} {buf : Bytes} {s s' : List Pcr.Bank}
    (h : record env fail t buf s = (s', .ok ())) : Spec.Recorded env.H s' t buf := by
  unfold record Pcr.onBank at h
  split at h
  · simp at h
  · rename_i hl
    cases hb : s[Pcr.pcrOf t]? with
    | none => rw [hb] at h; simp at h
    | some b =>
      rw [hb] at h
      simp only [Prod.mk.injEq] at h
      obtain ⟨rfl, h⟩ := h
      generalize hu : Pcr.updateBufferCommon env.H fail false b (Pcr.idxOf t) buf true (some 0) false = u at h ⊢
      unfold Pcr.updateBufferCommon at hu
      simp only [Bool.true_eq_false, false_and, if_false] at hu
      split at hu
      · rw [← hu] at h; simp at h
      · unfold Pcr.eventBytes at hu
        simp only [if_true] at hu
        cases ha : Pcr.at' b (Pcr.idxOf t) with
        | oob => rw [ha] at hu; rw [← hu] at h; simp at h
        | err e => rw [ha] at hu; rw [← hu] at h; simp at h
        | ok m =>
          rw [ha] at hu
          simp only [Bool.false_eq_true, if_false] at hu
          unfold Pcr.updateDigestCommon at hu
          split at hu
          · rw [← hu] at h; simp at h
          · split at hu
            · rw [← hu] at h; simp at h
            · rename_i hi
              rw [ha] at hu
              simp only at hu
              split at hu
              · rw [← hu] at h; simp at h
              · subst hu
                refine ⟨_, { m with digest := env.H (Pcr.HashType.sha2 b.algo) (toLE 4 m.event ++ (some (0 : UInt8)).toList ++ buf), config := Pcr.mkConfig true true false, version := 0 },
                  List.getElem?_set_self (by omega), List.getElem?_set_self (by simpa using hi), ?_, ?_, ?_, rfl⟩
                · simp [Pcr.setMeas]
                · show decide (Pcr.mkConfig true true false &&& Pcr.flagEvent ≠ 0) = true
                  decide +revert
                · show decide (Pcr.mkConfig true true false &&& Pcr.flagVersion ≠ 0) = true
                  decide +revert

theorem next_true {r : List Pcr.Bank × Res Pcr.Err Unit} {k : List Pcr.Bank → List Pcr.Bank × Bool} (h : (next r k).2 = true) :
    r.2 = .ok () ∧ (next r k) = k r.1 := by
  obtain ⟨s, x⟩ := r
  cases x with
  | ok u => exact ⟨rfl, rfl⟩
  | err e => simp [next] at h
  | oob => simp [next] at h

/-- The five measurements have types of their own. -/
def Env.Distinct (env : Env) : Prop :=
  [env.tResult % 65536, env.tVersion % 65536, env.tPfm % 65536, env.tId % 65536, env.tPlatform % 65536].Nodup

theorem update_consistent {env : Env} (hd : env.Distinct) {f : Faults} {st : St} (h : (updateMeasurements env f st).2 = true) :
    let st' := (updateMeasurements env f st).1
    st'.result = st.result ∧ Spec.Recorded env.H st'.store env.tResult (toLE 4 st.result.toNat) ∧
    Spec.Recorded env.H st'.store env.tVersion (hashVersion st') ∧
    Spec.Recorded env.H st'.store env.tPfm (digestBytes (active env st')) ∧
    Spec.Recorded env.H st'.store env.tId (idBytes (active env st')) ∧
    Spec.Recorded env.H st'.store env.tPlatform (platformBytes (active env st')) := by
  unfold Env.Distinct at hd
  simp only [List.nodup_cons, List.mem_cons, List.not_mem_nil, not_or, or_false, not_false_eq_true, List.nodup_nil, and_true] at hd
  obtain ⟨⟨n1, n2, n3, n4⟩, ⟨n5, n6, n7⟩, ⟨n8, n9⟩, n10⟩ := hd
  unfold updateMeasurements at h ⊢
  simp only at h ⊢
  generalize hst : (if st.result = 0 then st else { st with version := List.replicate env.maxVersion 0 }) = st1 at h ⊢
  have hr : st1.result = st.result := by rw [← hst]; split <;> rfl
  obtain ⟨a1, a2⟩ := next_true h
  rw [a2] at h ⊢
  generalize e1 : record env f.recResult env.tResult (toLE 4 st1.result.toNat) st1.store = r1 at a1 h ⊢
  obtain ⟨s1, x1⟩ := r1
  simp only at a1 h ⊢
  subst a1
  have k1 := record_ok e1
  obtain ⟨b1, b2⟩ := next_true h
  rw [b2] at h ⊢
  generalize e2 : record env f.recVersion env.tVersion (strBytes st1.version) s1 = r2 at b1 h ⊢
  obtain ⟨s2, x2⟩ := r2
  simp only at b1 h ⊢
  subst b1
  have k2 := record_ok e2
  have k1 : Spec.Recorded env.H s2 env.tResult (toLE 4 st1.result.toNat) := by
    have := record_other (fail := f.recVersion) (buf := strBytes st1.version) (Ne.symm n1) k1
    rwa [e2] at this
  unfold measureManifest at h ⊢
  split at h
  · simp at h
  rename_i hh1
  rw [if_neg hh1]
  obtain ⟨c1, c2⟩ := next_true h
  rw [c2] at h ⊢
  generalize e3 : record env f.recPfm env.tPfm _ s2 = r3 at c1 h ⊢
  obtain ⟨s3, x3⟩ := r3
  simp only at c1 h ⊢
  subst c1
  have k3 := record_ok e3
  have k1 : Spec.Recorded env.H s3 env.tResult (toLE 4 st1.result.toNat) := by
    have := record_other (fail := f.recPfm) (buf := (if (decide (st1.result = 0)) = true then env.pfm.digest else List.replicate 32 0)) (Ne.symm n2) k1
    rwa [e3] at this
  have k2 : Spec.Recorded env.H s3 env.tVersion (strBytes st1.version) := by
    have := record_other (fail := f.recPfm) (buf := (if (decide (st1.result = 0)) = true then env.pfm.digest else List.replicate 32 0)) (Ne.symm n5) k2
    rwa [e3] at this
  split at h
  · simp at h
  rename_i hh2
  rw [if_neg hh2]
  obtain ⟨d1, d2⟩ := next_true h
  rw [d2] at h ⊢
  generalize e4 : record env f.recId env.tId _ s3 = r4 at d1 h ⊢
  obtain ⟨s4, x4⟩ := r4
  simp only at d1 h ⊢
  subst d1
  have k4 := record_ok e4
  have g4 : ∀ t d, t % 65536 ≠ env.tId % 65536 → Spec.Recorded env.H s3 t d → Spec.Recorded env.H s4 t d := by
    intro t d hn hk
    have := record_other (env := env) (fail := f.recId) (t := env.tId) (buf := (if (decide (st1.result = 0)) = true then 1 :: toLE 4 env.pfm.id.toNat else List.replicate 5 0)) (Ne.symm hn) hk
    rwa [e4] at this
  split at h
  · simp at h
  rename_i hh3
  rw [if_neg hh3]
  obtain ⟨f1, f2⟩ := next_true h
  rw [f2]
  generalize e5 : record env f.recPlatform env.tPlatform _ s4 = r5 at f1 ⊢
  obtain ⟨s5, x5⟩ := r5
  simp only at f1 ⊢
  subst f1
  have k5 := record_ok e5
  have g5 : ∀ t d, t % 65536 ≠ env.tPlatform % 65536 → Spec.Recorded env.H s4 t d → Spec.Recorded env.H s5 t d := by
    intro t d hn hk
    have := record_other (env := env) (fail := f.recPlatform) (t := env.tPlatform) (buf := (if (decide (st1.result = 0)) = true then strBytes (env.pfm.platform ++ [0]) else [0])) (Ne.symm hn) hk
    rwa [e5] at this
  refine ⟨hr, ?_, ?_, ?_, ?_, ?_⟩
  · rw [← hr]; exact g5 _ _ n4 (g4 _ _ n3 k1)
  · exact g5 _ _ n7 (g4 _ _ n6 k2)
  · have := g5 _ _ n9 (g4 _ _ n8 k3)
    unfold active digestBytes
    by_cases hz : st1.result = 0 <;> simpa [hz] using this
  · have := g5 _ _ n10 k4
    unfold active idBytes
    by_cases hz : st1.result = 0 <;> simpa [hz] using this
  · unfold active platformBytes
    by_cases hz : st1.result = 0 <;> simpa [hz] using k5

theorem strBytes_str {s t : Bytes} (h : ∀ b ∈ s, b ≠ 0) : strBytes (s ++ 0 :: t) = s ++ [0] := by
  unfold strBytes
  congr 1
  induction s with
  | nil => simp
  | cons b s ih =>
    have hb := h b (by simp)
    simp only [List.cons_append, List.takeWhile_cons, decide_eq_true hb, if_true]
    rw [ih (fun x hx => h x (by simp [hx]))]

theorem strBytes_copy {n : Nat} {v : Bytes} (h : ∀ b ∈ v, b ≠ 0) (hn : 0 < n) : strBytes (copyVersion n v) = Spec.cstring n v := by
  unfold copyVersion Spec.cstring
  by_cases hl : v.length < n
  · rw [List.take_of_length_le (by omega : v.length ≤ n), List.take_of_length_le (by omega : v.length ≤ n - 1),
      List.take_append, List.take_of_length_le (by omega : v.length ≤ n - 1), List.take_replicate]
    have e : min (n - 1 - v.length) (n - v.length) = n - 1 - v.length := by omega
    rw [e, List.append_assoc]
    cases hk : n - 1 - v.length with
    | zero => exact strBytes_str h
    | succ k => exact strBytes_str h
  · rw [show n - v.length = 0 by omega, List.replicate_zero, List.append_nil, List.take_take, show min (n - 1) n = n - 1 by omega]
    exact strBytes_str (fun b hb => h b (List.mem_of_mem_take hb))

theorem strBytes_zero (n : Nat) : strBytes (List.replicate n 0) = [0] := by
  unfold strBytes
  cases n with
  | zero => rfl
  | succ n => simp [List.replicate_succ]

theorem part_eq (data : Bytes) (offset length : Nat) : part data offset length = (window data offset length, data.length) := by
  unfold part
  have := (BufferUtil.bufferCopy_spec data ⟨offset, length, []⟩).1
  simp only [List.nil_append] at this
  rw [this]

/-- The PFM that is reported after a status. -/
def reported (env : Env) (status : UInt32) : Option Pfm := if status = 0 then some env.pfm else none

/-- The version that is reported after a status. -/
def reportedVersion (env : Env) (status : UInt32) (v : Bytes) : Bytes := if status = 0 then Spec.cstring env.maxVersion v else [0]

/-- **C134, measurements.** If all measurements of a run were recorded, then each PCR entry replays from
the data a reader gets: the status, the version, digest, identifier and platform of the PFM, or nothing
of it after a failure. -/
theorem run_recorded_partial (env : Env) (hd : env.Distinct) (f : Faults) (expected : Option UInt32) (st : St) (fs : Flash.FS)
    (he : ∀ e, env.hostErr e ≠ 0) (hg : ∀ v, (env.pfm.images v).Good env.eg 0) (hn : 0 < env.maxVersion)
    (hv : ∀ v ∈ env.pfm.versions, ∀ b ∈ v, b ≠ 0) (hp : ∀ b ∈ env.pfm.platform, b ≠ 0)
    (h : (run env f expected st fs).2.2.2 = true) :
    let status := (run env f expected st fs).1
    let st' := (run env f expected st fs).2.1
    let p := reported env status
    ∃ version, (status = 0 → env.pfm.versions = [version]) ∧
    (Spec.Recorded env.H st'.store env.tResult (toLE 4 status.toNat) ∧
      Spec.Recorded env.H st'.store env.tVersion (reportedVersion env status version) ∧
      Spec.Recorded env.H st'.store env.tPfm (Spec.digestData p) ∧ Spec.Recorded env.H st'.store env.tId (Spec.idData p) ∧
      Spec.Recorded env.H st'.store env.tPlatform (Spec.platformData p)) ∧
    ∀ offset length,
      getVersion st' offset length =
        (window (reportedVersion env status version) offset length, (reportedVersion env status version).length) ∧
      readPfm 0 env st' digestBytes offset length = .ok (window (Spec.digestData p) offset length, (Spec.digestData p).length) ∧
      readPfm 0 env st' idBytes offset length = .ok (window (Spec.idData p) offset length, (Spec.idData p).length) ∧
      readPfm 0 env st' platformBytes offset length = .ok (window (Spec.platformData p) offset length, (Spec.platformData p).length) := by
  simp only
  have hst : ∃ version st1, (run env f expected st fs).2.1 = (updateMeasurements env f st1).1 ∧
      (updateMeasurements env f st1).2 = true ∧ st1.result = (run env f expected st fs).1 ∧
      ((run env f expected st fs).1 = 0 → env.pfm.versions = [version] ∧ st1.version = copyVersion env.maxVersion version) := by
    by_cases hz : (run env f expected st fs).1 = 0
    · obtain ⟨_, _, _, _, v, ⟨_, _, d3, _⟩, _⟩ := run_sound_partial env f expected st fs he hg hz
      obtain ⟨_, _, _, _, v', ⟨_, _, d3', _⟩, e5⟩ := run_sound_partial env f expected st fs he hg hz
      rw [d3] at d3'
      cases d3'
      refine ⟨v, _, rfl, h, rfl, fun _ => ⟨d3, ?_⟩⟩
      have : (run env f expected st fs).2.1.version = copyVersion env.maxVersion v := e5
      unfold run updateMeasurements at this
      unfold run at hz
      simp only at hz
      simp only [hz, if_true] at this
      exact this
    · exact ⟨[], _, rfl, h, rfl, fun hz' => absurd hz' hz⟩
  obtain ⟨version, st1, e1, e2, e3, e4⟩ := hst
  obtain ⟨c1, c2, c3, c4, c5, c6⟩ := update_consistent hd e2
  rw [← e1] at c1 c2 c3 c4 c5 c6
  rw [e3] at c1 c2
  have act : active env (run env f expected st fs).2.1 = reported env (run env f expected st fs).1 := by
    unfold active reported; rw [c1]
  have hdig : digestBytes (reported env (run env f expected st fs).1) = Spec.digestData (reported env (run env f expected st fs).1) := by
    cases reported env (run env f expected st fs).1 <;> rfl
  have hid : idBytes (reported env (run env f expected st fs).1) = Spec.idData (reported env (run env f expected st fs).1) := by
    cases reported env (run env f expected st fs).1 <;> rfl
  have hpl : platformBytes (reported env (run env f expected st fs).1) = Spec.platformData (reported env (run env f expected st fs).1) := by
    unfold reported
    split
    · exact strBytes_str hp
    · rfl
  have hver : strBytes (run env f expected st fs).2.1.version = reportedVersion env (run env f expected st fs).1 version := by
    unfold reportedVersion
    rw [e1]
    unfold updateMeasurements
    simp only [e3]
    by_cases hz : (run env f expected st fs).1 = 0
    · simp only [hz, if_true]
      rw [(e4 hz).2]
      exact strBytes_copy (hv version (by rw [(e4 hz).1]; simp)) hn
    · simp only [hz, if_false]
      exact strBytes_zero _
  rw [act, hdig] at c4
  rw [act, hid] at c5
  rw [act, hpl] at c6
  refine ⟨version, fun hz => (e4 hz).1, ⟨c2, ?_, c4, c5, c6⟩, fun offset length => ⟨?_, ?_, ?_, ?_⟩⟩
  · rw [← hver]; exact c3
  · unfold getVersion; rw [part_eq, hver]
  · simp only [readPfm, ne_eq, not_true_eq_false, and_false, if_false, act, hdig, part_eq]
  · simp only [readPfm, ne_eq, not_true_eq_false, and_false, if_false, act, hid, part_eq]
  · simp only [readPfm, ne_eq, not_true_eq_false, and_false, if_false, act, hpl, part_eq]

/-- Before the first run nothing is reported, and that is recorded. -/
theorem init_recorded (env : Env) (hd : env.Distinct) (f : Faults) (version : Bytes) (store : List Pcr.Bank)
    (h : (initState env f version store).2 = true) :
    let st := (initState env f version store).1
    Spec.Recorded env.H st.store env.tResult [0x02, 0x97, 0x00, 0x7f] ∧ Spec.Recorded env.H st.store env.tVersion [0] ∧
    Spec.Recorded env.H st.store env.tPfm (Spec.digestData none) ∧ Spec.Recorded env.H st.store env.tId (Spec.idData none) ∧
    Spec.Recorded env.H st.store env.tPlatform (Spec.platformData none) ∧ st.result ≠ 0 := by
  simp only
  obtain ⟨c1, c2, c3, c4, c5, c6⟩ := update_consistent hd h
  have hr : (initState env f version store).1.result = notVerified := c1
  have hne : ¬ (notVerified = 0) := by decide
  have act : active env (initState env f version store).1 = none := by unfold active; rw [hr]; exact if_neg hne
  have hv : hashVersion (initState env f version store).1 = [0] := by
    unfold hashVersion initState updateMeasurements
    simp only [if_neg hne]
    exact strBytes_zero _
  have hc : toLE 4 notVerified.toNat = [0x02, 0x97, 0x00, 0x7f] := by decide
  simp only [hc] at c2
  unfold initState at act hv hr ⊢
  rw [act] at c4 c5 c6
  rw [hv] at c3
  exact ⟨c2, c3, c4, c5, c6, by rw [hr]; exact hne⟩

/-! ### A concrete device -/

/-- A PFM with one version and one image, and engines for it. -/
def toyEnv : Env where
  pfm := ⟨7, [80], [1, 2, 3], false, 1, [[86, 49]], fun _ => .hash [⟨[⟨2, 3⟩], [7], 1, 1, 1⟩]⟩
  dev := HostFw.goodDev
  eg := HostFw.toyEngine
  stack := []
  hostErr _ := 1
  H _ m := (m.drop 5 ++ List.replicate 32 0).take 32
  maxVersion := 8
  tResult := 0
  tVersion := 1
  tPfm := 2
  tId := 3
  tPlatform := 4

/-- The toy instance after its initialisation. -/
def toyInit : St := (initState toyEnv {} [] [Pcr.init 5 .sha256]).1

/-- A good flash. -/
def toyFlash : Flash.FS := ⟨HostFw.demoMem, 0⟩

/-- The claims are about something: good firmware with the right identifier, all measured. -/
example : toyEnv.Distinct ∧ (initState toyEnv {} [] [Pcr.init 5 .sha256]).2 = true ∧
    (run toyEnv {} (some 7) toyInit toyFlash).1 = 0 ∧ (run toyEnv {} (some 7) toyInit toyFlash).2.2.2 = true ∧
    (run toyEnv {} (some 8) toyInit toyFlash).1 = unsupportedId ∧
    (run toyEnv {} (some 8) toyInit toyFlash).2.2.2 = true := by
  refine ⟨?_, by decide +kernel, by decide +kernel, by decide +kernel, by decide +kernel, by decide +kernel⟩
  show [(0 : Nat), 1, 2, 3, 4].Nodup
  decide

/-! ### What fails -/

theorem recorded_of {H : Pcr.Hash} {store : List Pcr.Bank} {t : Nat} {data : Bytes}
    (h : (match store[t / 256 % 256]? with
      | none => false
      | some b => match b.list[t % 256]? with
        | none => false
        | some m => decide (m.digest = H (.sha2 b.algo) (toLE 4 m.event ++ 0 :: data)) && m.isEvent && m.isVersion && decide (m.version = 0)) = true) :
    Spec.Recorded H store t data := by
  split at h
  · simp at h
  · rename_i b hb
    split at h
    · simp at h
    · rename_i m hm
      simp only [Bool.and_eq_true, decide_eq_true_eq] at h
      exact ⟨b, m, hb, hm, h.1.1.1, h.1.1.2, h.1.2, h.2⟩

/-- Whether a measurement could be recorded does not matter to a run: after a good run, a failed one
can leave the PCR with the success of the first. -/
theorem stale_success :
    let st := (run toyEnv {} none toyInit toyFlash).2.1
    let r := run toyEnv { recResult := true } none st ⟨fun _ => 0, 0⟩
    r.1 ≠ 0 ∧ Spec.Recorded toyEnv.H r.2.1.store toyEnv.tResult (toLE 4 0) := by
  refine ⟨by decide +kernel, ?_⟩
  exact recorded_of (by decide +kernel)

/-- Nor does initialisation ask for different measurements: with one type for all, only the last of the
data can be found in the PCR. -/
theorem same_type :
    let env := { toyEnv with tVersion := 0, tPfm := 0, tId := 0, tPlatform := 0 }
    let r := initState env {} [] [Pcr.init 5 .sha256]
    r.2 = true ∧ ¬ Spec.Recorded env.H r.1.store env.tResult [0x02, 0x97, 0x00, 0x7f] := by
  refine ⟨by decide +kernel, ?_⟩
  rintro ⟨b, m, h1, h2, h3, _⟩
  have e1 : b = _ := (Option.some.inj h1).symm
  subst e1
  have e2 : m = _ := (Option.some.inj h2).symm
  subst e2
  exact absurd h3 (by decide +kernel)

/-- Firmware with no image that is always checked is accepted, whatever the flash holds. -/
theorem nothing_checked (mem : Flash.Mem) (calls : Nat) :
    (run { toyEnv with pfm := { toyEnv.pfm with images := fun _ => .hash [⟨[⟨2, 3⟩], [7], 1, 1, 0⟩] } } {} none toyInit ⟨mem, calls⟩).1 = 0 := by
  rfl

/-- Versions that agree up to the size of the buffer are measured alike. -/
theorem version_cut : copyVersion 3 [86, 49, 50] = copyVersion 3 [86, 49, 51] := by decide

end Verif.FwPfm
