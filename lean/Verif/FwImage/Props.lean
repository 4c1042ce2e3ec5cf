import Verif.FwImage.Fields
/-! What is loaded and verified is what was signed, even if the flash changes at any moment. -/
namespace Verif.FwImage
open Verif.Flash (Mem bytesAt u32 u32_id bytesAt_add)

theorem leNat_lt : ∀ (d : Bytes), leNat d < 256 ^ d.length
  | [] => by simp [leNat]
  | x :: d => by
    have := leNat_lt d
    have hx := x.toNat_lt
    simp only [leNat, List.length_cons, Nat.pow_succ]
    omega

theorem imageLenOf_lt (h : Hdr) : imageLenOf h < 2 ^ 32 := by
  have h1 := leNat_lt (h.data.take 4)
  have h2 : (256 : Nat) ^ (h.data.take 4).length ≤ 256 ^ 4 := Nat.pow_le_pow_right (by decide) (by simp; omega)
  unfold imageLenOf
  have : (256 : Nat) ^ 4 = 2 ^ 32 := by decide
  omega

theorem seen_bytesAt {env : Env} {k lo hi a n : Nat} (h1 : lo ≤ k) (h2 : k < hi) : Seen env lo hi a (bytesAt (env.mem k) a n) := by
  intro i hi
  rw [bytesAt_length] at hi
  exact ⟨k, h1, h2, Flash.bytesAt_getD _ _ _ _ _ hi⟩

/-! ### Set up -/

/-- A component that was set up has a header of the right form, with the marker asked for; it is what was on flash. -/
theorem compInit_ok {env : Env} {a marker : Nat} {s r : St} {c : Comp} (h : compInit env a marker s = (.ok c, r)) :
    CompHdr c.hdr marker ∧ c.start = a ∧ c.offset = 0 ∧ Seen env s.k r.k a c.hdr.info ∧ Seen env s.k r.k (u32 (a + 8)) c.hdr.data := by
  unfold compInit headerInit headerLoad at h
  simp only [bind_ok, read_ok, check_ok, alloc_ok, onError_ok, pure_ok, decide_eq_true_eq] at h
  obtain ⟨h0, _, ⟨_, _, ⟨_, rfl, rfl⟩, _, _, ⟨h1, rfl⟩, _, _, ⟨h2, rfl⟩, _, _, ⟨h3, rfl⟩, rfl, rfl⟩, _, _, ⟨h4, rfl⟩, _, _, ⟨_, _, ⟨_, rfl⟩, _, _, ⟨_, rfl, rfl⟩,
    rfl, rfl⟩, rfl, rfl⟩ := h
  have hl : (bytesAt (env.mem s.k) a 8).length = 8 := bytesAt_length _ _ _
  rw [marker_eq _ hl] at h2
  simp only [len_eq] at h1 h3 h4
  rw [format_eq] at h4
  refine ⟨⟨hl, h2, ?_, ?_, ?_, ?_, h3⟩, rfl, rfl, seen_bytesAt (Nat.le_refl _) (by simp only; omega), seen_bytesAt (by simp only; omega) (by simp only; omega)⟩
  · simp only [bytesAt_length, len_eq]
    show totalLength ⟨bytesAt (env.mem s.k) a 8, []⟩ - 8 + 8 = totalLength ⟨bytesAt (env.mem s.k) a 8, []⟩
    omega
  · intro h0
    have h0 : formatOf ⟨bytesAt (env.mem s.k) a 8, []⟩ = 0 := h0
    rw [h0] at h4; exact of_decide_eq_true h4
  · intro h0
    have h0 : formatOf ⟨bytesAt (env.mem s.k) a 8, []⟩ = 1 := h0
    rw [h0] at h4; exact of_decide_eq_true h4
  · intro h0
    have h0 : 2 ≤ formatOf ⟨bytesAt (env.mem s.k) a 8, []⟩ := h0
    show 31 ≤ totalLength ⟨bytesAt (env.mem s.k) a 8, []⟩
    revert h4
    split
    · omega
    · omega
    · intro h4; exact of_decide_eq_true h4

/-! ### Loading -/

/-- The bytes in the buffer after a load that was accepted are the ones that were signed: the signature checked is over what is in front, the header and exactly what is in
memory, whatever happened to the flash meanwhile. The digest given back is of the same. -/
theorem load_authentic {env : Env} {c : Comp} {mk : Nat} (hc : CompHdr c.hdr mk) (hf : c.start + c.offset ≤ 2 ^ 32) {max : Nat} {header : Option Hdr}
    {expected : Option Bytes} {room : Option Nat} {s r : St} {n t : Nat} {d : Bytes} (hb : s.buf.length = max)
    (h : loadAndVerify env c max header expected room s = (.ok (n, t, d), r)) :
    n = imageLenOf c.hdr ∧ n ≤ max ∧ t = hashTypeOf c.hdr ∧ VersionOk c.hdr expected ∧ HashOk c.hdr room ∧
      r.buf.length = max ∧ r.buf.drop n = s.buf.drop n ∧
      ∃ pre sig, InFront env s.k r.k c.start c.offset header pre ∧ sig.length = sigLenOf c.hdr ∧
        d = env.digest t (pre ++ (c.hdr.info ++ c.hdr.data) ++ r.buf.take n) ∧
        Signed env t (pre ++ (c.hdr.info ++ c.hdr.data) ++ r.buf.take n) sig := by
  unfold loadAndVerify at h
  simp only [bind_ok, always_ok, onError_ok, pure_ok] at h
  obtain ⟨⟨t', sig⟩, s1, h1, s5, ⟨_, s2, h2, n', s4, ⟨n'', s3, h3, _, s3x, h4, _, s3', h5, rfl, rfl⟩, d', s5', h6, h7, rfl⟩, rfl⟩ := h
  injection h7 with h7 h8; injection h8 with h8 h9; subst h7 h8 h9
  obtain ⟨p1, ⟨m, p2, p3⟩, p4, p5, _, p6, p7⟩ := (prepare_ok hc).mp h1
  obtain ⟨pre, q1, q2, q3, q4, q5⟩ := startHash_ok hf h2
  have hb2 : s2.buf = s.buf := by rw [q5, p7]
  obtain ⟨l1, l2, _, l3⟩ := (load_ok hc (by rw [hb2]; exact hb)).mp h3
  obtain ⟨rfl, rfl⟩ := loaded_ok.mp h4
  obtain ⟨ta, xa, u1, u2, u3⟩ := hashUpdate_ok.mp h5
  have e3 : s3x.hash = some (t', pre ++ (c.hdr.info ++ c.hdr.data)) := by rw [l3, q5]
  rw [e3] at u1; injection u1 with u1; injection u1 with u1 u1'; subst u1 u1'
  obtain ⟨tb, xb, v1, v2, v3, v4, v5, v6, v7, v8⟩ := verifyAndFinish_ok.mp h6
  have e4 : s3'.hash = some (t', pre ++ (c.hdr.info ++ c.hdr.data) ++ s3x.buf.take n'') := by rw [u3]
  rw [e4] at v1; injection v1 with v1; injection v1 with v1 v1'; subst v1 v1'
  have eb : (free s5').buf = s3x.buf := by simp only [free, v8, u3]
  have hdl := bytesAt_length (env.mem s2.k) c.dataAddr n''
  have eb3 : s3x.buf = bytesAt (env.mem s2.k) c.dataAddr n'' ++ s.buf.drop n'' := by rw [l3]; simp only [hb2]
  have hsk : s1.k = s.k + 3 := by rw [p7]
  have hrk : s2.k < (free s5').k := by simp only [free, v8, u3, l3]; omega
  have hsig : sig.length = sigLenOf c.hdr := by rw [p6, bytesAt_length]
  refine ⟨l1, l2, p4, p1, ⟨m, p2, ?_⟩, ?_, ?_, pre, sig, ?_, hsig, ?_, v2, by omega, ?_⟩
  · rintro l rfl; exact p3 l rfl
  · rw [eb, eb3, List.length_append, hdl, List.length_drop]; omega
  · rw [eb, eb3, List.drop_left' hdl]
  · unfold InFront at q4 ⊢
    cases header with
    | some h => exact q4
    | none =>
      refine ⟨q4.1, fun i hi => ?_⟩
      obtain ⟨k, k1, k2, k3⟩ := q4.2 i hi
      exact ⟨k, by omega, by omega, k3⟩
  · rw [eb]; exact v6
  · rw [eb, ← v6]; exact v7

/-- The same for an image loaded to physical memory by a loader, that may decrypt it: what was stored is what was signed, and it is at the address in the header. -/
theorem load_memory_authentic {env : Env} {c : Comp} {mk : Nat} (hc : CompHdr c.hdr mk) (hf : c.start + c.offset ≤ 2 ^ 32) {iv : Bytes} {header : Option Hdr}
    {expected : Option Bytes} {room : Option Nat} {s r : St} {n t : Nat} {d : Bytes}
    (h : loadToMemoryAndVerify env c iv header expected room s = (.ok (n, t, d), r)) :
    n = imageLenOf c.hdr ∧ t = hashTypeOf c.hdr ∧ VersionOk c.hdr expected ∧ HashOk c.hdr room ∧ loadAddrOf c.hdr ≠ 0 ∧
      ∃ img k pre sig, s.k ≤ k ∧ k < r.k ∧ img = env.dec iv (bytesAt (env.mem k) (u32 (c.start + c.offset + totalLength c.hdr)) n) ∧
        r.phys = s.phys ++ [(loadAddrOf c.hdr, img)] ∧
        InFront env s.k r.k c.start c.offset header pre ∧ sig.length = sigLenOf c.hdr ∧
        d = env.digest t (pre ++ (c.hdr.info ++ c.hdr.data) ++ img) ∧ Signed env t (pre ++ (c.hdr.info ++ c.hdr.data) ++ img) sig := by
  unfold loadToMemoryAndVerify at h
  simp only [bind_ok, always_ok, onError_ok, pure_ok, loadAddr_eq hc, check_ok, imageLen_eq hc, call_ok, decide_eq_true_eq] at h
  obtain ⟨_, _, e0, _, _, ⟨h0, rfl⟩, ⟨t', sig⟩, s1, h1, s5, ⟨_, s2, h2, n', s4, ⟨n'', s3, h3, _, _, ⟨h4, _, rfl⟩, _, s3', h5, rfl, rfl⟩, d', s5', h6, h7, rfl⟩, rfl⟩ := h
  injection e0 with e0 e1; injection e0 with e0; subst e0 e1
  injection h7 with h7 h8; injection h8 with h8 h9; subst h7 h8 h9
  injection h3 with h3 h3'; injection h3 with h3; subst h3 h3'
  obtain ⟨p1, ⟨m, p2, p3⟩, p4, p5, _, p6, p7⟩ := (prepare_ok hc).mp h1
  obtain ⟨pre, q1, q2, q3, q4, q5⟩ := startHash_ok hf h2
  unfold loaderLoad at h5
  rw [bind_ok] at h5
  obtain ⟨_, _, h5a, h5⟩ := h5
  obtain ⟨h5b, rfl, rfl⟩ := call_ok.mp h5a
  simp only [bind_ok, modify] at h5
  obtain ⟨_, _, h5c, h5⟩ := h5
  injection h5c with _ h5c; subst h5c
  obtain ⟨ta, xa, u1, u2, u3⟩ := hashUpdate_ok.mp h5
  have e3 : s2.hash = some (t', pre ++ (c.hdr.info ++ c.hdr.data)) := by rw [q5]
  simp only at u1
  rw [e3] at u1; injection u1 with u1; injection u1 with u1 u1'; subst u1 u1'
  obtain ⟨tb, xb, v1, v2, v3, v4, v5, v6, v7, v8⟩ := verifyAndFinish_ok.mp h6
  have e4 := v1
  rw [u3] at e4; injection e4 with e4; injection e4 with e4 e4'; subst e4 e4'
  have hsk : s1.k = s.k + 3 := by rw [p7]
  have hrk : (free s5').k = s2.k + 5 := by simp only [free, v8, u3]
  have hsig : sig.length = sigLenOf c.hdr := by rw [p6, bytesAt_length]
  refine ⟨rfl, p4, p1, ⟨m, p2, ?_⟩, h0, _, s2.k + 1, pre, sig, by omega, by omega, rfl, ?_, ?_, hsig, ?_, v2, by omega, ?_⟩
  · rintro l rfl; exact p3 l rfl
  · simp only [free, v8, u3, Comp.dataAddr, len_eq]
    rw [q5, p7]
  · unfold InFront at q4 ⊢
    cases header with
    | some h => exact q4
    | none =>
      refine ⟨q4.1, fun i hi => ?_⟩
      obtain ⟨k, k1, k2, k3⟩ := q4.2 i hi
      exact ⟨k, by omega, by omega, k3⟩
  · rw [v6]; simp only [Comp.dataAddr, len_eq]
  · rw [← len_eq]; rw [v6] at v7; simp only [Comp.dataAddr] at v7; exact v7

theorem hashStart_app {env : Env} {s r : St} {u : Unit} (h : hashStart env 1 s = (.ok u, r)) : s.hash = none ∧ r.hash = some (1, []) ∧ r.k = s.k + 1 ∧ r.buf = s.buf := by
  obtain ⟨h1, _, _, rfl⟩ := hashStart_ok.mp h
  exact ⟨h1, rfl, rfl, rfl⟩

/-- The same for an application image: SHA-256 with a signature of 256 bytes over what is in front, the length and the image in memory. -/
theorem app_load_authentic {env : Env} {a headerLength max : Nat} {room : Option Nat} {s r : St} {n : Nat} {d : Bytes} (hb : s.buf.length = max)
    (h : appLoadAndVerify env a headerLength max room s = (.ok (n, d), r)) :
    n ≤ max ∧ (∀ l, room = some l → 32 ≤ l) ∧ r.buf.length = max ∧ r.buf.drop n = s.buf.drop n ∧
      ∃ pre sig, InFront env s.k r.k a headerLength none pre ∧ sig.length = 256 ∧
        d = env.digest 1 (pre ++ toLE 4 n ++ r.buf.take n) ∧ env.sigOk d sig = true := by
  unfold appLoadAndVerify appLoad appLength at h
  simp only [bind_ok, check_ok, read_ok, store_ok, onError_ok, pure_ok, checkSig_ok, decide_eq_true_eq] at h
  obtain ⟨_, _, ⟨h0, rfl⟩, n', s1, ⟨n1, s0, ⟨d0, s00, ⟨_, rfl, rfl⟩, rfl, rfl⟩, _, _, ⟨h1, rfl⟩, dd, _, ⟨_, rfl, rfl⟩, _, _, ⟨h2, rfl⟩, rfl, rfl⟩, sig, _, ⟨_, rfl, rfl⟩,
    _, s3, h3, d', s6, ⟨_, s4, h4, _, s5, h5, _, _, h6, _, s6', h7, h8⟩, _, _, ⟨_, h9, rfl⟩, h10, rfl⟩ := h
  injection h10 with h10 h11; subst h10 h11
  obtain ⟨_, q2, q3, q4⟩ := hashStart_app h3
  simp only at q3 q4
  generalize hn : leNat (bytesAt (env.mem s.k) (u32 (a + headerLength)) 4) = n at *
  rw [bytesAt_length] at q4
  have key : ∃ pre, InFront env s3.k s4.k a headerLength none pre ∧ s3.k ≤ s4.k ∧ s4.hash = some (1, pre) ∧ s4.buf = s3.buf := by
    unfold appHashHeader at h4
    by_cases hh : headerLength ≠ 0
    · simp only [if_pos hh, bind_ok, alloc_ok, always_ok, read_ok] at h4
      obtain ⟨_, _, ⟨_, rfl⟩, _, ⟨_, _, ⟨_, rfl, rfl⟩, h⟩, rfl⟩ := h4
      obtain ⟨t, x, u1, _, rfl⟩ := hashUpdate_ok.mp h
      simp only [q2] at u1
      injection u1 with u1; injection u1 with u1 u2; subst u1 u2
      refine ⟨_, ⟨bytesAt_length _ _ _, seen_bytesAt (by omega : s3.k ≤ s3.k + 1) (by simp only [free]; omega)⟩, by simp only [free]; omega, by simp [free], rfl⟩
    · simp only [if_neg hh, pure_ok] at h4
      obtain ⟨_, rfl⟩ := h4
      exact ⟨[], ⟨by simp; omega, fun i hi => by simp at hi⟩, Nat.le_refl _, q2, rfl⟩
  obtain ⟨pre, k1, k2, k3, k4⟩ := key
  obtain ⟨t, x, u1, _, rfl⟩ := hashUpdate_ok.mp h5
  rw [k3] at u1; injection u1 with u1; injection u1 with u1 u2; subst u1 u2
  obtain ⟨rfl, rfl⟩ := loaded_ok.mp h6
  obtain ⟨t, x, u1, _, rfl⟩ := hashUpdate_ok.mp h7
  simp only at u1
  injection u1 with u1; injection u1 with u1 u2; subst u1 u2
  obtain ⟨t, x, u1, _, _, rfl, rfl⟩ := hashFinish_ok.mp h8
  simp only at u1
  injection u1 with u1; injection u1 with u1 u2; subst u1 u2
  have hl := bytesAt_length (env.mem (s.k + 1)) (u32 (u32 (a + headerLength) + 4)) n
  refine ⟨h1, ?_, ?_, ?_, pre, _, ?_, bytesAt_length _ _ _, rfl, h9⟩
  · rintro l rfl; exact h0
  · simp only [k4, q4, List.length_append, hl, List.length_drop]; omega
  · simp only [k4, q4]; exact List.drop_left' hl
  · refine ⟨k1.1, fun i hi => ?_⟩
    obtain ⟨k, e1, e2, e3⟩ := k1.2 i hi
    exact ⟨k, by omega, by simp only; omega, e3⟩

end Verif.FwImage
