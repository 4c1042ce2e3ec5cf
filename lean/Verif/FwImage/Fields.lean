import Verif.FwImage.Lemmas
/-! The fields of headers, and what is done before a verification. -/
namespace Verif.FwImage
open Verif.Flash (Mem bytesAt u32 u32_id bytesAt_add)

theorem len_eq (h : Hdr) : h.len = totalLength h := by simp [Hdr.len, totalLength, window]
theorem format_eq (h : Hdr) : h.format = formatOf h := by simp [Hdr.format, formatOf, window]
theorem marker_eq (h : Hdr) (hi : h.info.length = 8) : h.marker = markerOf h := by
  simp only [Hdr.marker, markerOf, window]
  rw [List.take_of_length_le (by simp; omega)]

theorem CompHdr.room {h : Hdr} {mk : Nat} (hc : CompHdr h mk) : 6 ≤ h.data.length ∧ (formatOf h ≠ 0 → 23 ≤ h.data.length) := by
  have := hc.data
  by_cases h0 : formatOf h = 0
  · have := hc.format0 h0; exact ⟨by omega, fun h => absurd h0 h⟩
  · by_cases h1 : formatOf h = 1
    · have := hc.format1 h1; exact ⟨by omega, fun _ => by omega⟩
    · have := hc.others (by omega); exact ⟨by omega, fun _ => by omega⟩

theorem pure_def (a : α) (s : St) : (pure a : M α) s = (.ok a, s) := rfl

theorem field_eq {h : Hdr} {i n : Nat} (hl : i + n ≤ h.data.length) (s : St) : h.field i n s = (.ok (window h.data i n), s) :=
  field_ok.mpr ⟨hl, rfl, rfl⟩

theorem imageLen_eq {c : Comp} {mk : Nat} (hc : CompHdr c.hdr mk) (s : St) : c.imageLen s = (.ok (imageLenOf c.hdr), s) := by
  have := hc.room
  refine bind_ok.mpr ⟨_, _, field_eq (by omega) s, ?_⟩
  rw [pure_def]; simp [window, imageLenOf]

theorem sigLen_eq {c : Comp} {mk : Nat} (hc : CompHdr c.hdr mk) (s : St) : c.sigLen s = (.ok (sigLenOf c.hdr), s) := by
  have := hc.room
  refine bind_ok.mpr ⟨_, _, field_eq (by omega) s, ?_⟩
  rw [pure_def]; simp [window, sigLenOf]

theorem totalLen_eq {env : Env} {c : Comp} {mk : Nat} (hc : CompHdr c.hdr mk) (s : St) :
    c.totalLen env s = (.ok ((totalLength c.hdr + imageLenOf c.hdr + c.offset) % 2 ^ env.w), s) := by
  refine bind_ok.mpr ⟨_, _, imageLen_eq hc s, ?_⟩
  rw [pure_def, len_eq]

theorem hashType_eq {c : Comp} {mk : Nat} (hc : CompHdr c.hdr mk) (s : St) : c.hashType s = (.ok (hashTypeOf c.hdr), s) := by
  have := hc.room
  unfold Comp.hashType hashTypeOf
  rw [format_eq]
  by_cases h0 : formatOf c.hdr = 0
  · rw [if_neg (by omega), if_pos h0]; rfl
  · rw [if_pos (by omega), if_neg h0]
    refine bind_ok.mpr ⟨_, _, field_eq (by omega) s, ?_⟩
    rw [pure_def]; simp [window]

theorem loadAddr_eq {c : Comp} {mk : Nat} (hc : CompHdr c.hdr mk) (s : St) : c.loadAddr s = (.ok (loadAddrOf c.hdr), s) := by
  have := hc.room
  unfold Comp.loadAddr loadAddrOf
  rw [format_eq]
  by_cases h0 : formatOf c.hdr = 0
  · rw [if_neg (by omega), if_pos h0]; rfl
  · rw [if_pos (by omega), if_neg h0]
    refine bind_ok.mpr ⟨_, _, field_eq (by omega) s, ?_⟩
    rw [pure_def]; simp [window]

theorem version_eq {c : Comp} {mk : Nat} (hc : CompHdr c.hdr mk) (s : St) : c.version s = (.ok (versionOf c.hdr), s) := by
  have := hc.room
  unfold Comp.version versionOf
  rw [format_eq]
  by_cases h0 : formatOf c.hdr = 0
  · rw [if_neg (by omega), if_pos h0]; rfl
  · rw [if_pos (by omega), if_neg h0]
    refine bind_ok.mpr ⟨_, _, field_eq (by omega) s, ?_⟩
    rw [pure_def]; simp [window]

theorem hashLength_eq (t : Nat) : hashLength t = digestLen t := by
  unfold hashLength digestLen
  split
  · rfl
  · rfl
  · rfl
  · rfl
  · rename_i h0 h1 h2 h3
    have h0 : t ≠ 0 := h0
    have h1 : t ≠ 1 := h1
    have h2 : t ≠ 2 := h2
    have h3 : t ≠ 3 := h3
    rw [List.getElem?_eq_none]
    simp only [List.length_cons, List.length_nil]
    omega

theorem knownHash_ok {t n : Nat} {s r : St} : knownHash t s = (.ok n, r) ↔ digestLen t = some n ∧ r = s := by
  unfold knownHash
  rw [hashLength_eq]
  cases digestLen t with
  | none => simp [fail]
  | some m => simp only [pure_ok, Option.some.injEq]; exact ⟨fun h => ⟨h.1, h.2.symm⟩, fun h => ⟨h.1, h.2.symm⟩⟩

theorem digestLen_mem {t n : Nat} (h : digestLen t = some n) : t ≤ 3 ∧ n = (hashLength t).getD 0 := by
  refine ⟨?_, by rw [hashLength_eq, h]; rfl⟩
  unfold digestLen at h
  split at h <;> first | omega | cases h

theorem digest_fits {env : Env} {t n : Nat} (h : digestLen t = some n) (hb : env.builtIn t = true) : n ≤ maxHash env := by
  unfold digestLen at h
  unfold maxHash
  split at h
  · injection h with h; (split); omega; split <;> omega
  · injection h with h; (split); omega; split <;> omega
  · injection h with h; rw [hb, if_pos (rfl : true = true)]; split <;> omega
  · injection h with h; rw [hb, if_pos (rfl : true = true)]; omega
  · cases h

theorem checkVersion_ok {c : Comp} {mk : Nat} (hc : CompHdr c.hdr mk) {ex : Option Bytes} {s r : St} {u : Unit} :
    checkVersion c ex s = (.ok u, r) ↔ VersionOk c.hdr ex ∧ s = r := by
  unfold checkVersion VersionOk
  cases ex with
  | none => simp only [pure_ok]; simp
  | some v =>
    simp only [bind_ok, version_eq hc, check_ok, decide_eq_true_eq, Option.some.injEq, forall_eq']
    constructor
    · rintro ⟨_, _, e, h, rfl⟩; injection e with e e2; injection e with e; subst e e2; exact ⟨h, rfl⟩
    · rintro ⟨h, rfl⟩; exact ⟨_, _, rfl, h, rfl⟩

theorem getSignature_ok {env : Env} {c : Comp} {mk : Nat} (hc : CompHdr c.hdr mk) {s r : St} {d : Bytes} :
    getSignature env c (sigLenOf c.hdr) s = (.ok d, r) ↔ env.fault s.k = false ∧
      d = bytesAt (env.mem s.k) (u32 (c.start + (totalLength c.hdr + imageLenOf c.hdr + c.offset) % 2 ^ env.w)) (sigLenOf c.hdr) ∧
      r = { s with k := s.k + 1 } := by
  unfold getSignature
  simp only [bind_ok, sigLen_eq hc, totalLen_eq hc, check_ok, decide_eq_true_eq, read_ok]
  constructor
  · rintro ⟨_, _, e, _, _, e', _, _, ⟨_, rfl⟩, h⟩
    injection e with e e2; injection e with e; subst e e2
    injection e' with e e2; injection e with e; subst e e2
    exact h
  · intro h; exact ⟨_, _, rfl, _, _, rfl, (), _, ⟨Nat.le_refl _, rfl⟩, h⟩

/-- Where the signature of a component is. -/
def sigAddr (env : Env) (c : Comp) : Nat := u32 (c.start + (totalLength c.hdr + imageLenOf c.hdr + c.offset) % 2 ^ env.w)

theorem readSignature_ok {env : Env} {c : Comp} {mk : Nat} (hc : CompHdr c.hdr mk) {s r : St} {d : Bytes} :
    readSignature env c s = (.ok d, r) ↔ sigLenOf c.hdr ≤ env.maxSig ∧ env.fault s.k = false ∧ env.fault (s.k + 1) = false ∧
      env.fault (s.k + 2) = false ∧ d = bytesAt (env.mem (s.k + 2)) (sigAddr env c) (sigLenOf c.hdr) ∧
      r = { s with k := s.k + 3, live := s.live + 1 } := by
  unfold readSignature
  simp only [bind_ok, call_ok, sigLen_eq hc, check_ok, alloc_ok, onError_ok, decide_eq_true_eq]
  constructor
  · rintro ⟨_, _, ⟨h1, _, rfl⟩, _, _, e, _, _, ⟨h2, rfl⟩, _, _, ⟨h3, rfl⟩, h4⟩
    injection e with e e2; injection e with e; subst e e2
    obtain ⟨h4, h5, h6⟩ := (getSignature_ok hc).mp h4
    exact ⟨h2, h1, h3, h4, h5, h6⟩
  · rintro ⟨h2, h1, h3, h4, h5, h6⟩
    exact ⟨_, _, ⟨h1, rfl, rfl⟩, _, _, rfl, (), _, ⟨h2, rfl⟩, (), _, ⟨h3, rfl⟩, (getSignature_ok hc).mpr ⟨h4, h5, h6⟩⟩

theorem prepare_ok {env : Env} {c : Comp} {mk : Nat} (hc : CompHdr c.hdr mk) {ex : Option Bytes} {hl : Option Nat} {s r : St} {t : Nat} {sig : Bytes} :
    prepare env c ex hl s = (.ok (t, sig), r) ↔ VersionOk c.hdr ex ∧ HashOk c.hdr hl ∧ t = hashTypeOf c.hdr ∧ sigLenOf c.hdr ≤ env.maxSig ∧
      (env.fault s.k = false ∧ env.fault (s.k + 1) = false ∧ env.fault (s.k + 2) = false) ∧
      sig = bytesAt (env.mem (s.k + 2)) (sigAddr env c) (sigLenOf c.hdr) ∧ r = { s with k := s.k + 3, live := s.live + 1 } := by
  unfold prepare HashOk
  simp only [bind_ok, checkVersion_ok hc, hashType_eq hc, knownHash_ok, check_ok, readSignature_ok hc, pure_ok]
  constructor
  · rintro ⟨_, _, ⟨h1, rfl⟩, _, _, e, n, _, ⟨h2, rfl⟩, _, _, ⟨h3, rfl⟩, _, _, ⟨h4, h5, h6, h7, rfl, rfl⟩, h8, rfl⟩
    injection e with e e2; injection e with e; subst e e2
    injection h8 with h8 h9; subst h8 h9
    refine ⟨h1, ⟨n, h2, ?_⟩, rfl, h4, ⟨h5, h6, h7⟩, rfl, rfl⟩
    rintro l rfl; exact of_decide_eq_true h3
  · rintro ⟨h1, ⟨n, h2, h3⟩, rfl, h4, ⟨h5, h6, h7⟩, rfl, rfl⟩
    refine ⟨(), _, ⟨h1, rfl⟩, _, _, rfl, n, _, ⟨h2, rfl⟩, (), _, ⟨?_, rfl⟩, _, _, ⟨h4, h5, h6, h7, rfl, rfl⟩, rfl, rfl⟩
    cases hl with
    | none => rfl
    | some l => exact decide_eq_true (h3 l rfl)

theorem hashHeader_ok {env : Env} {h : Hdr} {s r : St} {u : Unit} {t : Nat} {x : Bytes} (hh : s.hash = some (t, x)) :
    hashHeader env h s = (.ok u, r) ↔ env.fault s.k = false ∧ env.fault (s.k + 1) = false ∧
      r = { s with k := s.k + 2, hash := some (t, x ++ (h.info ++ h.data)) } := by
  unfold hashHeader
  simp only [bind_ok, hashUpdate_ok, hh]
  constructor
  · rintro ⟨_, _, ⟨_, _, e, h1, rfl⟩, _, _, e2, h2, rfl⟩
    injection e with e; injection e with e e'; subst e e'
    injection e2 with e; injection e with e e'; subst e e'
    exact ⟨h1, h2, by simp⟩
  · rintro ⟨h1, h2, rfl⟩
    exact ⟨(), _, ⟨_, _, rfl, h1, rfl⟩, _, _, rfl, h2, by simp⟩

/-- The hash of what is in front of the image. -/
theorem startHash_ok {env : Env} {c : Comp} {t : Nat} {header : Option Hdr} {s r : St} {u : Unit} (hf : c.start + c.offset ≤ 2 ^ 32)
    (h : startHash env c t header s = (.ok u, r)) :
    ∃ pre, s.hash = none ∧ env.builtIn t = true ∧ s.k < r.k ∧ InFront env s.k r.k c.start c.offset header pre ∧
      r = { s with k := r.k, hash := some (t, pre ++ (c.hdr.info ++ c.hdr.data)) } := by
  unfold startHash at h
  simp only [bind_ok, hashStart_ok, onError_ok] at h
  obtain ⟨_, _, ⟨h0, hb, _, rfl⟩, _, s2, hp, h⟩ := h
  have key : ∃ pre, s.k + 1 ≤ s2.k ∧ InFront env s.k s2.k c.start c.offset header pre ∧ s2 = { s with k := s2.k, hash := some (t, pre) } := by
    unfold hashPrefix at hp
    cases header with
    | some h =>
      obtain ⟨_, _, e⟩ := (hashHeader_ok rfl).mp hp
      subst e
      exact ⟨_, by simp, rfl, by simp⟩
    | none =>
      by_cases ho : c.offset ≠ 0
      · simp only [if_pos ho] at hp
        obtain ⟨d, e1, e2, e3, e4⟩ := hashFlash_ok _ _ _ (Nat.le_refl _) hf rfl hp
        refine ⟨d, e2, ⟨e1, fun i hi => ?_⟩, by rw [e3]; simp⟩
        obtain ⟨k, k1, k2, k3⟩ := e4 i hi
        exact ⟨k, by simp only at k1; omega, k2, k3⟩
      · simp only [if_neg ho, pure_ok] at hp
        obtain ⟨_, rfl⟩ := hp
        exact ⟨[], Nat.le_refl _, ⟨by simp; omega, fun i hi => by simp at hi⟩, rfl⟩
  obtain ⟨pre, e1, e2, e3⟩ := key
  obtain ⟨_, _, e⟩ := (hashHeader_ok (show s2.hash = some (t, pre) by rw [e3])).mp h
  have hk : r.k = s2.k + 2 := by rw [e]
  refine ⟨pre, h0, hb, by omega, ?_, by rw [e, e3]⟩
  unfold InFront at e2 ⊢
  cases header with
  | some h => exact e2
  | none =>
    refine ⟨e2.1, fun i hi => ?_⟩
    obtain ⟨k, k1, k2, k3⟩ := e2.2 i hi
    exact ⟨k, k1, by omega, k3⟩

theorem load_ok {env : Env} {c : Comp} {mk : Nat} (hc : CompHdr c.hdr mk) {max : Nat} {s r : St} {n : Nat} (hb : s.buf.length = max) :
    load env c max s = (.ok n, r) ↔ n = imageLenOf c.hdr ∧ n ≤ max ∧ env.fault s.k = false ∧
      r = { s with k := s.k + 1, buf := bytesAt (env.mem s.k) c.dataAddr n ++ s.buf.drop n } := by
  unfold load
  simp only [bind_ok, imageLen_eq hc, check_ok, decide_eq_true_eq, read_ok, store_ok, pure_ok]
  constructor
  · rintro ⟨_, _, e, _, _, ⟨h1, rfl⟩, _, _, ⟨h2, rfl, rfl⟩, _, _, ⟨h3, rfl⟩, rfl, rfl⟩
    injection e with e e2; injection e with e; subst e e2
    exact ⟨rfl, h1, h2, by rw [bytesAt_length]⟩
  · rintro ⟨rfl, h1, h2, rfl⟩
    exact ⟨_, _, rfl, (), _, ⟨h1, rfl⟩, _, _, ⟨h2, rfl, rfl⟩, (), _, ⟨by rw [bytesAt_length]; simp only; omega, rfl⟩, rfl, by rw [bytesAt_length]⟩

end Verif.FwImage
