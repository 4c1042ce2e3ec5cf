import Verif.FwImage.Props
/-! The exact verdict on a flash that does not change. -/
namespace Verif.FwImage
open Verif.Flash (Mem bytesAt u32 u32_id bytesAt_add)

theorem CompHdr.min {h : Hdr} {mk : Nat} (hc : CompHdr h mk) : 14 ≤ totalLength h := by
  have := hc.room
  have := hc.data
  omega

/-- The flash holds a whole component: header, image and signature are below the end of the address space. -/
def Fits (c : Comp) : Prop := c.start + (c.offset + totalLength c.hdr + imageLenOf c.hdr) + sigLenOf c.hdr < 2 ^ 32

theorem sigAddr_eq {env : Env} {c : Comp} (hw : 32 ≤ env.w) (hf : Fits c) : sigAddr env c = c.start + (c.offset + totalLength c.hdr + imageLenOf c.hdr) := by
  unfold Fits at hf
  have h1 : (2 : Nat) ^ 32 ≤ 2 ^ env.w := Nat.pow_le_pow_right (by decide) hw
  unfold sigAddr
  rw [Nat.mod_eq_of_lt (by omega), u32_id (by omega)]
  omega

theorem verification_exact {env : Env} {m : Mem} (hcalm : Calm env m) {c : Comp} {mk : Nat} (hc : CompHdr c.hdr mk) (hw : 32 ≤ env.w) (hf : Fits c)
    {expected : Option Bytes} {room : Option Nat} {s : St} (hs : s.hash = none) {t : Nat} {d : Bytes} :
    (∃ r, verification env c expected room s = (.ok (t, d), r)) ↔
      VersionOk c.hdr expected ∧ HashOk c.hdr room ∧ t = hashTypeOf c.hdr ∧ env.builtIn t = true ∧
      d = env.digest t (bytesAt m c.start (c.offset + totalLength c.hdr + imageLenOf c.hdr)) ∧
      Signed env t (bytesAt m c.start (c.offset + totalLength c.hdr + imageLenOf c.hdr))
        (bytesAt m (c.start + (c.offset + totalLength c.hdr + imageLenOf c.hdr)) (sigLenOf c.hdr)) := by
  have hsa := sigAddr_eq hw hf
  have hp : (2 : Nat) ^ 32 ≤ 2 ^ env.w := Nat.pow_le_pow_right (by decide) hw
  have hmin := hc.min
  have hf' := hf
  unfold Fits at hf'
  have hT : (totalLength c.hdr + imageLenOf c.hdr + c.offset) % 2 ^ env.w = c.offset + totalLength c.hdr + imageLenOf c.hdr := by
    rw [Nat.mod_eq_of_lt (by omega)]; omega
  generalize hTd : c.offset + totalLength c.hdr + imageLenOf c.hdr = T at *
  unfold verification contentsVerification Signed
  simp only [bind_ok, always_ok, totalLen_eq hc, check_ok, decide_eq_true_eq, knownHash_ok, onError_ok, pure_ok, hT]
  constructor
  · rintro ⟨_, ⟨t', sig⟩, s1, h1, d', _, ⟨s5, ⟨len, s1', e, _, _, ⟨h2, rfl⟩, _, _, ⟨h3, rfl⟩, n, _, ⟨h4, rfl⟩, _, _, ⟨h5, rfl⟩, _, s2, h6, _, s3, h7, h8⟩, rfl⟩, e2, rfl⟩
    injection e with e e'; injection e with e; subst e e'
    injection e2 with e2 e3; subst e2 e3
    obtain ⟨p1, p2, p4, p5, _, p6, p7⟩ := (prepare_ok hc).mp h1
    obtain ⟨_, q2, _, q4⟩ := hashStart_ok.mp h6
    obtain ⟨k, hk⟩ := hashFlash_calm hcalm T c.start T s2 t' [] (Nat.le_refl _) (by omega) (by rw [q4])
    rw [hk] at h7
    injection h7 with _ h7; subst h7
    obtain ⟨tb, xb, v1, v2, v3, v4, v5, v6, v7, v8⟩ := verifyAndFinish_ok.mp h8
    simp only [List.nil_append] at v1
    injection v1 with v1; injection v1 with v1 v1'; subst v1 v1'
    rw [hcalm.mem, hsa] at p6
    subst p6
    rw [bytesAt_length] at v2 ⊢
    exact ⟨p1, p2, p4, q2, v6, v2, p5, by rw [← v6]; exact v7⟩
  · rintro ⟨p1, p2, rfl, q2, rfl, v2, p5, v7⟩
    rw [bytesAt_length] at p5 v2
    obtain ⟨n, p3, p4⟩ := p2
    obtain ⟨k, hk⟩ := hashFlash_calm hcalm T c.start T { s with k := s.k + 4, live := s.live + 1, hash := some (hashTypeOf c.hdr, []) } _ [] (Nat.le_refl _) (by omega) rfl
    have hv : verifyAndFinish env (bytesAt (env.mem (s.k + 2)) (sigAddr env c) (sigLenOf c.hdr)) (room.getD (maxHash env))
        { s with k := k, live := s.live + 1, hash := some (hashTypeOf c.hdr, bytesAt m c.start T) } =
        (.ok (env.digest (hashTypeOf c.hdr) (bytesAt m c.start T)), { s with k := k + 2, live := s.live + 1, hash := none }) := by
      refine verifyAndFinish_ok.mpr ⟨_, _, rfl, ?_, ?_, hcalm.fault _, hcalm.fault _, rfl, ?_, rfl⟩
      · rw [bytesAt_length]; exact v2
      · rw [← (digestLen_mem p3).2]
        cases room with
        | none => exact digest_fits p3 q2
        | some l => exact p4 l rfl
      · rw [hcalm.mem, hsa]; exact v7
    refine ⟨_, (_, _), _, (prepare_ok hc).mpr ⟨p1, ⟨n, p3, p4⟩, rfl, p5, ⟨hcalm.fault _, hcalm.fault _, hcalm.fault _⟩, rfl, rfl⟩, _, _, ⟨_, ⟨_, _, rfl, (), _, ⟨?_, rfl⟩,
      (), _, ⟨?_, rfl⟩, n, _, ⟨p3, rfl⟩, (), _, ⟨?_, rfl⟩, (), _, hashStart_ok.mpr ⟨hs, q2, hcalm.fault _, rfl⟩, (), _, hk, hv⟩, rfl⟩, rfl, rfl⟩
    · omega
    · rw [bytesAt_length]; exact v2
    · cases room with
      | none => rfl
      | some l => exact decide_eq_true (p4 l rfl)

/-- The header of the component is the one on flash. -/
def OnFlash (m : Mem) (c : Comp) : Prop := c.hdr.info ++ c.hdr.data = bytesAt m (c.start + c.offset) (totalLength c.hdr)

/-- Set up on a flash that does not change gives the header that is there. -/
theorem compInit_onFlash {env : Env} {m : Mem} (hcalm : Calm env m) {a marker : Nat} {s r : St} {c : Comp} (ha : a + 8 < 2 ^ 32)
    (h : compInit env a marker s = (.ok c, r)) : OnFlash m c := by
  unfold compInit headerInit headerLoad at h
  simp only [bind_ok, read_ok, check_ok, alloc_ok, onError_ok, pure_ok, decide_eq_true_eq] at h
  obtain ⟨h0, _, ⟨_, _, ⟨_, rfl, rfl⟩, _, _, ⟨h1, rfl⟩, _, _, ⟨h2, rfl⟩, _, _, ⟨h3, rfl⟩, rfl, rfl⟩, _, _, ⟨h4, rfl⟩, _, _, ⟨_, _, ⟨_, rfl⟩, _, _, ⟨_, rfl, rfl⟩,
    rfl, rfl⟩, rfl, rfl⟩ := h
  unfold OnFlash
  simp only [hcalm.mem, Nat.add_zero, len_eq] at h1 ⊢
  rw [u32_id ha, ← bytesAt_add]
  congr 1
  show 8 + (totalLength ⟨bytesAt m a 8, []⟩ - 8) = totalLength ⟨bytesAt m a 8, []⟩
  omega

theorem startHash_calm {env : Env} {m : Mem} (hcalm : Calm env m) {c : Comp} {t : Nat} {s : St} (hs : s.hash = none) (hb : env.builtIn t = true)
    (hf : c.start + c.offset ≤ 2 ^ 32) (ho : OnFlash m c) :
    ∃ k, startHash env c t none s = (.ok (), { s with k := k, hash := some (t, bytesAt m c.start (c.offset + totalLength c.hdr)) }) := by
  have key : ∃ k, hashPrefix env c none { s with k := s.k + 1, hash := some (t, []) } =
      (.ok (), { s with k := k, hash := some (t, bytesAt m c.start c.offset) }) := by
    unfold hashPrefix
    by_cases h0 : c.offset ≠ 0
    · simp only [if_pos h0]
      obtain ⟨k, hk⟩ := hashFlash_calm hcalm c.offset c.start c.offset { s with k := s.k + 1, hash := some (t, []) } t [] (Nat.le_refl _) hf rfl
      exact ⟨k, hk⟩
    · simp only [if_neg h0]
      have : c.offset = 0 := by omega
      exact ⟨s.k + 1, by rw [this]; rfl⟩
  obtain ⟨k, hk⟩ := key
  refine ⟨k + 2, ?_⟩
  unfold startHash
  simp only [bind_ok, onError_ok]
  refine ⟨(), _, hashStart_ok.mpr ⟨hs, hb, hcalm.fault _, rfl⟩, (), _, hk, (hashHeader_ok rfl).mpr ⟨hcalm.fault _, hcalm.fault _, ?_⟩⟩
  rw [show c.hdr.info ++ c.hdr.data = _ from ho, ← bytesAt_add]

/-- Loading with verification accepts exactly the components that are accepted by the verification in place, if the image fits in the buffer; the digests are the same. -/
theorem load_exact {env : Env} {m : Mem} (hcalm : Calm env m) {c : Comp} {mk : Nat} (hc : CompHdr c.hdr mk) (hw : 32 ≤ env.w) (hf : Fits c) (ho : OnFlash m c)
    {expected : Option Bytes} {room : Option Nat} {s : St} (hs : s.hash = none) {max : Nat} (hb : s.buf.length = max) {n t : Nat} {d : Bytes} :
    (∃ r, loadAndVerify env c max none expected room s = (.ok (n, t, d), r)) ↔
      n = imageLenOf c.hdr ∧ n ≤ max ∧ VersionOk c.hdr expected ∧ HashOk c.hdr room ∧ t = hashTypeOf c.hdr ∧ env.builtIn t = true ∧
      d = env.digest t (bytesAt m c.start (c.offset + totalLength c.hdr + imageLenOf c.hdr)) ∧
      Signed env t (bytesAt m c.start (c.offset + totalLength c.hdr + imageLenOf c.hdr))
        (bytesAt m (c.start + (c.offset + totalLength c.hdr + imageLenOf c.hdr)) (sigLenOf c.hdr)) := by
  have hsa := sigAddr_eq hw hf
  have hf' := hf
  unfold Fits at hf'
  have hda : c.dataAddr = c.start + (c.offset + totalLength c.hdr) := by
    unfold Comp.dataAddr; rw [len_eq, u32_id (by omega)]; omega
  unfold loadAndVerify
  simp only [bind_ok, always_ok, onError_ok, pure_ok]
  constructor
  · rintro ⟨_, ⟨t', sig⟩, s1, h1, s5, ⟨_, s2, h2, n', s4, ⟨n'', s3, h3, _, s3x, h4, _, s3', h5, rfl, rfl⟩, d', s5', h6, h7, rfl⟩, rfl⟩
    injection h7 with h7 h8; injection h8 with h8 h9; subst h7 h8 h9
    obtain ⟨p1, ⟨x, p2, p3⟩, p4, p5, _, p6, p7⟩ := (prepare_ok hc).mp h1
    obtain ⟨_, q1, q2, _⟩ := startHash_ok (by omega) h2
    obtain ⟨k, hk⟩ := startHash_calm hcalm (s := s1) q1 q2 (by omega) ho
    rw [hk] at h2
    injection h2 with _ h2; subst h2
    obtain ⟨l1, l2, _, l3⟩ := (load_ok hc (by simp only [p7]; exact hb)).mp h3
    obtain ⟨rfl, rfl⟩ := loaded_ok.mp h4
    subst l3
    obtain ⟨ta, xa, u1, u2, u3⟩ := hashUpdate_ok.mp h5
    simp only at u1
    injection u1 with u1; injection u1 with u1 u1'; subst u1 u1'
    obtain ⟨tb, xb, v1, v2, v3, v4, v5, v6, v7, v8⟩ := verifyAndFinish_ok.mp h6
    rw [u3] at v1
    simp only at v1
    rw [List.take_left' (bytesAt_length _ _ _), hcalm.mem, hda, ← bytesAt_add] at v1
    injection v1 with v1; injection v1 with v1 v1'; subst v1 v1'
    rw [hcalm.mem, hsa] at p6
    subst p6
    rw [bytesAt_length] at v2
    rw [l1] at v6
    refine ⟨l1, l2, p1, ⟨x, p2, ?_⟩, p4, q2, v6, by rw [bytesAt_length]; exact v2, by rw [bytesAt_length]; exact p5, by rw [← v6]; exact v7⟩
    rintro l rfl; exact p3 l rfl
  · rintro ⟨rfl, l2, p1, ⟨x, p3, p4⟩, rfl, q2, rfl, v2, p5, v7⟩
    rw [bytesAt_length] at p5 v2
    obtain ⟨k, hk⟩ := startHash_calm hcalm (c := c) (t := hashTypeOf c.hdr) (s := { s with k := s.k + 3, live := s.live + 1 }) hs q2 (by omega) ho
    have hroom : ∀ l, some (room.getD (maxHash env)) = some l → x ≤ l := by
      intro l hl
      injection hl with hl
      subst hl
      cases room with
      | none => exact digest_fits p3 q2
      | some l => exact p4 l rfl
    have hl : load env c max { s with k := k, live := s.live + 1, hash := some (hashTypeOf c.hdr, bytesAt m c.start (c.offset + totalLength c.hdr)) } = (.ok (imageLenOf c.hdr),
        { s with k := k + 1, live := s.live + 1, hash := some (hashTypeOf c.hdr, bytesAt m c.start (c.offset + totalLength c.hdr)),
                 buf := bytesAt m (c.start + (c.offset + totalLength c.hdr)) (imageLenOf c.hdr) ++ s.buf.drop (imageLenOf c.hdr) }) := by
      refine (load_ok (s := { s with k := k, live := s.live + 1, hash := _ }) hc hb).mpr ⟨rfl, l2, hcalm.fault _, ?_⟩
      rw [hcalm.mem, hda]
    have hv : verifyAndFinish env (bytesAt (env.mem (s.k + 2)) (sigAddr env c) (sigLenOf c.hdr)) (room.getD (maxHash env))
        { s with k := k + 2, live := s.live + 1, hash := some (hashTypeOf c.hdr, bytesAt m c.start (c.offset + totalLength c.hdr + imageLenOf c.hdr)),
                 buf := bytesAt m (c.start + (c.offset + totalLength c.hdr)) (imageLenOf c.hdr) ++ s.buf.drop (imageLenOf c.hdr) } =
        (.ok (env.digest (hashTypeOf c.hdr) (bytesAt m c.start (c.offset + totalLength c.hdr + imageLenOf c.hdr))),
        { s with k := k + 4, live := s.live + 1, hash := none,
                 buf := bytesAt m (c.start + (c.offset + totalLength c.hdr)) (imageLenOf c.hdr) ++ s.buf.drop (imageLenOf c.hdr) }) := by
      refine verifyAndFinish_ok.mpr ⟨_, _, rfl, ?_, ?_, hcalm.fault _, hcalm.fault _, rfl, ?_, rfl⟩
      · rw [bytesAt_length]; exact v2
      · rw [← (digestLen_mem p3).2]; exact hroom _ rfl
      · rw [hcalm.mem, hsa]; exact v7
    refine ⟨_, (_, _), _, (prepare_ok hc).mpr ⟨p1, ⟨x, p3, hroom⟩, rfl, p5, ⟨hcalm.fault _, hcalm.fault _, hcalm.fault _⟩, rfl, rfl⟩, _,
      ⟨(), _, hk, imageLenOf c.hdr, _, ⟨_, _, hl, _, _, loaded_ok.mpr ⟨rfl, rfl⟩, (), _,
        hashUpdate_ok.mpr ⟨_, _, rfl, hcalm.fault _, ?_⟩, rfl, rfl⟩, _, _, hv, rfl, rfl⟩, rfl⟩
    simp only
    rw [List.take_left' (bytesAt_length _ _ _), ← bytesAt_add]

end Verif.FwImage
