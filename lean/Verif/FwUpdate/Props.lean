import Verif.FwUpdate.Struct
/-! Properties of firmware updates. -/
namespace Verif.FwUpdate

/-! ### A concrete device -/

instance : DecidableEq (Except Err Unit)
  | .ok (), .ok () => isTrue rfl
  | .error a, .error b => if h : a = b then isTrue (by rw [h]) else isFalse (by simpa using h)
  | .ok (), .error _ => isFalse (by simp)
  | .error _, .ok () => isFalse (by simp)

/-- Images of three bytes: the signature (1 if good), the id of the manifest, the revision. -/
def demoFw : Fw where
  size x := if 3 ≤ x.length then some 3 else none
  sigOk x := decide (x[0]? = some 1)
  keyId x := (x[1]?.getD 0).toNat
  header x := x[2]?.map (·.toNat)

theorem demoFw_local : demoFw.Local := by
  intro x n h
  simp only [demoFw] at h
  split at h
  · rename_i hx
    simp only [Option.some.injEq] at h
    subst h
    match x, hx with
    | a :: b :: d :: r, _ => simp [demoFw]
  · simp at h

def demoCfg : Cfg where
  fw := demoFw
  hash := fun _ x => x
  hasRecovery := true
  hasBackup := false
  hasRecBackup := false
  requireDigest := true
  noFwHeader := false
  antiRollback := true
  minRev := 1
  maxSize := 8
  forceRecoveryUpdate := false
  skipActiveRestore := false

def demoMem (a r s : Bytes) : Reg → Bytes
  | .active => a
  | .recovery => r
  | .staging => s
  | _ => []

/-- An environment in which all goes well; regions are left with the given bytes. -/
def fine (j : Bytes) : Env := ⟨fun _ => false, fun _ => false, fun _ => j⟩

/-! ### Never bricked -/

theorem reach_inv (c : Cfg) (hl : c.fw.Local) (hr : c.hasRecovery = true) (s : St) (h : Reach c (fun e => ∀ n, e.page n = false) s) :
    s.stale = false → Inv c s ∧ AllSafe c s := by
  induction h with
  | boot d b e hb he =>
    intro _
    have := handlerPrepare_safe (e := e) hl hr b d false hb
    exact ⟨this.1, this.2.1⟩
  | op s o e h he ih =>
    intro hst
    have hm := (exec_fresh (e := e) hl o s.fresh).1
    have hs0 : s.stale = false := by
      cases hs : s.stale with
      | false => rfl
      | true => exact absurd (hm hs) (by rw [hst]; simp)
    obtain ⟨hi, ha⟩ := ih hs0
    exact (exec_safe (e := e) hl hr he o s.fresh hi (by simp [AllSafe, St.fresh]) (by simp [St.fresh]) hst).1
  | reset s d b e h hd hb he ih =>
    intro _
    have := handlerPrepare_safe (e := e) hl hr b d s.stale hb
    exact ⟨this.1, this.2.1⟩

/-- A device with a recovery region can be booted in every state that it passes through, whatever requests it gets, whichever of the steps fail, and
wherever it is reset. Missing: queries of the page size that fail (`bricked_after_page_failure`), and key manifests used after another image was loaded
(`bricked_by_stale_manifest`). -/
theorem never_bricked_partial (c : Cfg) (hl : c.fw.Local) (hr : c.hasRecovery = true) (s : St) (h : Reach c (fun e => ∀ n, e.page n = false) s)
    (hst : s.stale = false) : NeverBricked c s := by
  obtain ⟨hi, ha⟩ := reach_inv c hl hr s h hst
  exact ⟨hi.bootable, ha⟩

/-- Without backup regions the key manifest is never used after another image was loaded. -/
theorem never_stale (c : Cfg) (hl : c.fw.Local) (hb : c.hasBackup = false) (hrb : c.hasRecBackup = false) (E : Env → Prop) (s : St) (h : Reach c E s) :
    s.stale = false := by
  induction h with
  | boot d b e hb' he => exact handlerPrepare_stale (e := e) hl b (bootSt d false)
  | op s o e h he ih => exact ((exec_fresh (e := e) hl o s.fresh).2 hb hrb).trans ih
  | reset s d b e h hd hb' he ih => exact (handlerPrepare_stale (e := e) hl b (bootSt d s.stale)).trans ih

/-- So a device with a recovery region and without backup regions is never bricked, if the page size can be read. -/
theorem never_bricked_no_backup_partial (c : Cfg) (hl : c.fw.Local) (hr : c.hasRecovery = true) (hb : c.hasBackup = false) (hrb : c.hasRecBackup = false) (s : St)
    (h : Reach c (fun e => ∀ n, e.page n = false) s) : NeverBricked c s :=
  never_bricked_partial c hl hr s h (never_stale c hl hb hrb _ s h)

/-- Non-vacuity: an update in the middle of which all writes fail, after which the device runs from the recovery image and restores the active one. -/
example : ∃ s, Reach demoCfg (fun e => ∀ n, e.page n = false) s ∧ s.dev.mem .active = [1, 2, 1] ∧ s.dev.mem .recovery = [1, 2, 1] ∧ s.dev.rev = 1 := by
  have h0 : Reach demoCfg (fun e => ∀ n, e.page n = false) _ := .boot ⟨demoMem [1, 1, 1] [1, 2, 1] [1, 3, 1], 1⟩ false (fine []) (by decide +kernel) (fun _ => rfl)
  have h1 := Reach.op _ .runUpdate ⟨fun n => decide (9 ≤ n), fun _ => false, fun _ => [7]⟩ h0 (fun _ => rfl)
  exact ⟨_, .reset _ _ true (fine []) h1 (.inl rfl) (by decide +kernel) (fun _ => rfl), by decide +kernel⟩

/-- A query of the page size that fails while a bad recovery image is being replaced makes the updater believe that the recovery image is good. The next
update then erases the only good image: if power is lost there the device is bricked. -/
theorem bricked_after_page_failure : ∃ c s, c.fw.Local ∧ c.hasRecovery = true ∧ Reach c (fun _ => True) s ∧ s.stale = false ∧ ¬ NeverBricked c s := by
  have h0 : Reach demoCfg (fun _ => True) _ := .boot ⟨demoMem [1, 1, 1] [] [1, 1, 1], 1⟩ false ⟨fun _ => true, fun _ => false, fun _ => []⟩ (by decide +kernel) trivial
  have h1 := Reach.op _ .runRevocation ⟨fun _ => false, fun _ => true, fun _ => []⟩ h0 trivial
  have h2 := Reach.op _ .runUpdate (fine []) h1 trivial
  refine ⟨demoCfg, _, demoFw_local, rfl, h2, by decide +kernel, ?_⟩
  intro h
  have := h.2
  revert this
  unfold Bootable
  decide +kernel

/-- With a backup region the key manifest is used after the recovery image was loaded: an update to a manifest with id 5 does not revoke the older ones,
and a later update to a manifest with id 3 revokes everything below 5. After this update, in which nothing failed, the device is bricked. -/
theorem bricked_by_stale_manifest : ∃ c s, c.fw.Local ∧ c.hasRecovery = true ∧ Reach c (fun e => ∀ n, e.page n = false ∧ e.fails n = false) s ∧
    ¬ Bootable c s.dev := by
  let c : Cfg := { demoCfg with hasBackup := true, requireDigest := false }
  have h0 : Reach c (fun e => ∀ n, e.page n = false ∧ e.fails n = false) _ :=
    .boot ⟨demoMem [1, 1, 1] [1, 1, 1] [1, 5, 1], 1⟩ false (fine []) (by decide +kernel) (fun _ => ⟨rfl, rfl⟩)
  have h1 := Reach.op _ .runUpdate (fine []) h0 (fun _ => ⟨rfl, rfl⟩)
  have h2 := Reach.op _ (.prepareStaging 3) (fine []) h1 (fun _ => ⟨rfl, rfl⟩)
  have h3 := Reach.op _ (.writeStaging 3 3) (fine [1, 3, 1]) h2 (fun _ => ⟨rfl, rfl⟩)
  have h4 := Reach.op _ .runUpdate (fine []) h3 (fun _ => ⟨rfl, rfl⟩)
  refine ⟨c, _, demoFw_local, rfl, h4, ?_⟩
  unfold Bootable
  decide +kernel

/-! ### Only acceptable images are installed -/

/-- An update either fails without touching the images and the revocation state, or the staged image was acceptable. -/
theorem only_acceptable (c : Cfg) (hl : c.fw.Local) (e : Env) (s : St) :
    ((∃ x, (runUpdate c e s.fresh).1 = .error x) ∧ Untouched s (runUpdate c e s.fresh).2) ∨ Acceptable c s := by
  have h : Sat (runUpdate c e) s.fresh (fun r s' => ((∃ x, r = .error x) ∧ Untouched s s') ∨ Acceptable c s) := by
    unfold runUpdate
    refine Sat.getBind ?_
    refine Sat.bind (loadAndVerify_sat .staging true false true true true _ s.fresh) (fun r s1 h1 => ?_) (fun x s1 h1 => .inl ⟨⟨x, rfl⟩, ?_⟩)
    · obtain ⟨n, v⟩ := r
      have hv := h1.2 n v rfl
      have hr := (hv.rev rfl).1
      have hacc : Acceptable c s := ⟨(hv.bytes rfl).1, (hv.bytes rfl).2, hv.boots, hr.1, fun v h1 h2 => hr.2 v h1 rfl h2⟩
      refine Sat.mono (P := fun _ _ => True) trivial fun _ _ _ => .inr hacc
    · rintro d (rfl | hd)
      · rw [h1.1.1]; exact ⟨rfl, rfl, rfl⟩
      · rw [h1.1.2.2.1] at hd; simp [St.fresh] at hd
  exact h

/-- The same for updates without revocation, which may also restore a bad recovery image from the active one. -/
theorem only_acceptable_no_revocation (c : Cfg) (hl : c.fw.Local) (e : Env) (s : St) :
    ((∃ x, (runUpdateNoRevocation c e s.fresh).1 = .error x) ∧ ∀ d, d = (runUpdateNoRevocation c e s.fresh).2.dev ∨ d ∈ (runUpdateNoRevocation c e s.fresh).2.trace →
      d.mem .active = s.dev.mem .active ∧ d.rev = s.dev.rev) ∨ Acceptable c s := by
  have h : Sat (runUpdateNoRevocation c e) s.fresh (fun r s' => ((∃ x, r = .error x) ∧ ∀ d, d = s'.dev ∨ d ∈ s'.trace →
      d.mem .active = s.dev.mem .active ∧ d.rev = s.dev.rev) ∨ Acceptable c s) := by
    unfold runUpdateNoRevocation
    refine Sat.getBind ?_
    have h0 : Sat ((restoreRecovery c e).onlyIf (c.hasRecovery && s.fresh.ram.recoveryBad)) s.fresh (fun _ s' =>
        DevFrame (fun r => r = .recovery) s.fresh s' ∧ s'.ram.remaining = s.ram.remaining ∧ s'.ram.digest = s.ram.digest ∧ s'.ram.imgLength = s.ram.imgLength) := by
      unfold M.onlyIf restoreRecovery
      split
      · split
        · exact Sat.throw ⟨.refl, rfl, rfl, rfl⟩
        · refine Sat.getBind ?_
          split
          · refine Sat.bind (restoreImage_sat hl .recovery .active true s.fresh (by simp)) (fun v s1 h1 => ?_)
              (fun x s1 h1 => ⟨h1.1, h1.2.1.2.2.2.2.1, h1.2.1.2.2.2.1, h1.2.1.2.2.1⟩)
            exact Sat.setRam ⟨h1.1.setRam _, h1.2.1.2.2.2.2.1, h1.2.1.2.2.2.1, h1.2.1.2.2.1⟩
          · exact Sat.throw ⟨.refl, rfl, rfl, rfl⟩
      · exact Sat.pure ⟨.refl, rfl, rfl, rfl⟩
    have hkeep : ∀ s', DevFrame (fun r => r = .recovery) s.fresh s' → ∀ d, d = s'.dev ∨ d ∈ s'.trace → d.mem .active = s.dev.mem .active ∧ d.rev = s.dev.rev := by
      rintro s' ⟨⟨t, ht, hta⟩, hd, _⟩ d (rfl | hm)
      · exact ⟨hd.2 .active (by simp), hd.1⟩
      · rw [ht] at hm
        simp only [St.fresh, List.nil_append] at hm
        exact ⟨(hta d hm).2 .active (by simp), (hta d hm).1⟩
    refine Sat.bind h0 (fun _ s1 h1 => ?_) (fun x s1 h1 => .inl ⟨⟨x, rfl⟩, hkeep s1 h1.1⟩)
    obtain ⟨hf1, k1, k2, k3⟩ := h1
    refine Sat.bind (loadAndVerify_sat .staging true false true true true none s1) (fun r s2 h2 => ?_) (fun x s2 h2 => .inl ⟨⟨x, rfl⟩, ?_⟩)
    · obtain ⟨n, v⟩ := r
      have hv := h2.2 n v rfl
      have hr := (hv.rev rfl).1
      have hsg : s1.dev.mem .staging = s.dev.mem .staging := hf1.dev.2 .staging (by simp)
      have hrev : s1.dev.rev = s.dev.rev := hf1.dev.1
      have hb := hv.bytes rfl
      have hbt := hv.boots
      rw [hsg] at hr hb hbt
      rw [hrev] at hbt
      have hacc : Acceptable c s := by
        refine ⟨by rw [← k1]; exact hb.1, fun a d had => ?_, hbt, hr.1, fun v h1 h2 => hr.2 v h1 rfl h2⟩
        rw [← k3]; exact hb.2 a d (by rw [k2]; exact had)
      refine Sat.mono (P := fun _ _ => True) trivial fun _ _ _ => .inr hacc
    · exact hkeep s2 (hf1.trans' h2.1.toDev)
  exact h

/-- Non-vacuity of both: an image that is not signed. -/
example : ∃ s, Reach demoCfg (fun _ => True) s ∧ ¬ Acceptable demoCfg s := by
  refine ⟨_, .boot ⟨demoMem [1, 1, 1] [1, 1, 1] [0, 1, 1], 1⟩ false (fine []) (by decide +kernel) trivial, fun h => ?_⟩
  have := h.signed
  revert this
  decide +kernel

/-- A successful update puts the staged image into the active region, and also into the recovery region if that was bad, if the revision differs or if the
update revokes manifests. -/
theorem success_installs (c : Cfg) (hl : c.fw.Local) (e : Env) (s : St) (h : (runUpdate c e s.fresh).1 = .ok ()) :
    SameImage c ((runUpdate c e s.fresh).2.dev.mem .active) (s.dev.mem .staging) ∧
    (c.hasRecovery = true → s.ram.recoveryBad = true ∨ s.dev.rev < c.fw.keyId (s.dev.mem .staging) ∨
      (∃ v, c.fw.header (s.dev.mem .staging) = some v ∧ s.ram.recoveryRev ≠ some v) →
      SameImage c ((runUpdate c e s.fresh).2.dev.mem .recovery) (s.dev.mem .staging)) ∧
    (runUpdate c e s.fresh).2.ram.digest = none ∧
    ((runUpdate c e s.fresh).2.stale = false → (runUpdate c e s.fresh).2.dev.rev = max s.dev.rev (c.fw.keyId (s.dev.mem .staging))) := by
  have hs : Sat (runUpdate c e) s.fresh (fun r s' => r = .ok () → SameImage c (s'.dev.mem .active) (s.dev.mem .staging) ∧
      (c.hasRecovery = true → s.ram.recoveryBad = true ∨ s.dev.rev < c.fw.keyId (s.dev.mem .staging) ∨
        (∃ v, c.fw.header (s.dev.mem .staging) = some v ∧ s.ram.recoveryRev ≠ some v) →
        SameImage c (s'.dev.mem .recovery) (s.dev.mem .staging)) ∧ s'.ram.digest = none ∧
      (s'.stale = false → s'.dev.rev = max s.dev.rev (c.fw.keyId (s.dev.mem .staging)))) := by
    unfold runUpdate
    refine Sat.getBind ?_
    refine Sat.bind (loadAndVerify_sat .staging true false true true true s.fresh.ram.recoveryRev s.fresh) (fun r s1 h1 => ?_) (fun x s1 h1 => by simp)
    obtain ⟨n, v⟩ := r
    obtain ⟨hs1, hv⟩ := h1
    have hv := hv n v rfl
    have hz : c.fw.size (s.dev.mem .staging) = some n := hv.size rfl
    have hdev1 : s1.dev = s.dev := hs1.1
    have hsame : ∀ t x, x = (s.dev.mem .staging).take n ++ t → SameImage c x (s.dev.mem .staging) := by
      rintro t x rfl
      obtain ⟨hlen, hx⟩ := hl _ _ hz
      refine ⟨n, hz, (hx t).1, ?_⟩
      rw [List.take_append_of_le_length (by rw [List.length_take]; omega), List.take_take, Nat.min_self]
    refine Sat.bind (applyUpdate_sat hl n s1) (fun u s2 h2 => ?_) (fun x s2 h2 => by simp)
    have hap := h2.2.2 u rfl
    obtain ⟨t, ht⟩ := hap.active
    rw [hdev1] at ht
    refine Sat.bind (load_sat .active s2) (fun _ s3 h3 => ?_) (fun x s3 h3 => by simp)
    have hload3 : s3.ram.loaded = (s.dev.mem .staging).take n ++ t := by rw [(h3.2.1 rfl).1, ht]
    have hkey : c.fw.keyId s3.ram.loaded = c.fw.keyId (s.dev.mem .staging) := by rw [hload3, keyId_copy hl hz]
    have hrev3 : s3.dev.rev = s.dev.rev := by rw [h3.1.1, hap.rev, hdev1]
    refine (processRevocation_struct hl .staging n v u s3 (.inl rfl)).mono fun x s4 h4 => ?_
    obtain ⟨_, hact, hdig, h4⟩ := h4
    intro hx
    have hp := h4 hx
    refine ⟨hsame t _ (by rw [hact, h3.1.1, ht]), fun hr hneed => ?_, by rw [hdig, h3.1.2.1.2.2.2.1, hap.digest], fun hst => ?_⟩
    · cases hu : u with
      | true =>
        obtain ⟨t', ht'⟩ := hap.recovery hu
        exact hsame t' _ (by rw [hp.kept hu, h3.1.1, ht', hdev1])
      | false =>
        have hbad : s.ram.recoveryBad = false := by
          have := hap.updated
          rw [hu, hr, Bool.true_and, hs1.2.1.1] at this
          exact this.symm
        obtain ⟨t', ht'⟩ := hp.recovery (by
          rcases hneed with h | h | ⟨w, hw, hne⟩
          · rw [hbad] at h; simp at h
          · left; rw [hkey, hrev3]; exact h
          · right; right
            rw [h3.1.2.1.2.1, hap.recoveryRev, hs1.2.1.2.1]
            have hvv := (hv.rev rfl).2
            have hw' : c.fw.header (s.fresh.dev.mem .staging) = some w := hw
            rw [hw', Option.some_or] at hvv
            rw [hvv]; exact hne) hr hu
        exact hsame t' _ (by rw [ht', h3.1.1, hap.staging, hdev1])
    · rw [hp.rev hst, hkey, hrev3]
  exact hs h

/-- Non-vacuity: an update that succeeds. -/
example : ∃ s e, Reach demoCfg (fun _ => True) s ∧ (runUpdate demoCfg e s.fresh).1 = .ok () ∧ (runUpdate demoCfg e s.fresh).2.dev.mem .active = [1, 4, 2] ∧
    (runUpdate demoCfg e s.fresh).2.dev.rev = 4 :=
  ⟨_, fine [], .boot ⟨demoMem [1, 1, 1] [1, 1, 1] [1, 4, 2], 1⟩ false (fine []) (by decide +kernel) trivial, by decide +kernel⟩

/-! ### Authorization -/

/-- If a digest was given for the update, only an image with this digest is installed. Missing: `run_update` does not ask whether a digest was given, even
if the updater requires one (`unauthorized_installed`). -/
theorem authorized_partial (c : Cfg) (hl : c.fw.Local) (e : Env) (s : St) (hd : s.ram.digest ≠ none) (h : (runUpdate c e s.fresh).1 = .ok ()) :
    Authorized c s.ram (s.dev.mem .staging) := by
  rcases only_acceptable c hl e s with ⟨⟨x, hx⟩, _⟩ | ha
  · rw [hx] at h; simp at h
  · cases hdg : s.ram.digest with
    | none => exact absurd hdg hd
    | some p => exact ⟨p.1, p.2, hdg, ha.digest p.1 p.2 hdg⟩

example : ∃ s e, Reach demoCfg (fun _ => True) s ∧ s.ram.digest = some (1, [1, 4, 2]) ∧ (runUpdate demoCfg e s.fresh).1 = .ok () := by
  have h0 : Reach demoCfg (fun _ => True) _ := .boot ⟨demoMem [1, 1, 1] [1, 1, 1] [], 1⟩ false (fine []) (by decide +kernel) trivial
  have h1 := Reach.op _ (.prepareStaging 3) (fine []) h0 trivial
  have h2 := Reach.op _ (.setDigest 1 [1, 4, 2]) (fine []) h1 trivial
  have h3 := Reach.op _ (.writeStaging 3 3) (fine [1, 4, 2]) h2 trivial
  exact ⟨_, fine [], h3, by decide +kernel⟩

/-- Nothing is written to the staging region without a digest, if one is required. -/
theorem staging_needs_digest (c : Cfg) (e : Env) (s : St) (len written : Nat) (hr : c.requireDigest = true) (hd : s.ram.digest = none) :
    writeStaging c e len written s = (.error .notAuthorized, s) := by
  simp [writeStaging, bind, M.bind, get, hr, hd, M.throw]

/-- But an image that does not have the digest given is installed by an updater that requires one: a request to prepare for an update that is too large
fails, and forgets the digest, but not that the image is complete. -/
theorem unauthorized_installed : ∃ c s e s0, c.fw.Local ∧ c.requireDigest = true ∧ Reach c (fun _ => True) s0 ∧
    s0.ram.digest ≠ none ∧ ¬ Authorized c s0.ram (s0.dev.mem .staging) ∧
    s = (exec c e (.prepareStaging 9) s0.fresh).2 ∧
    (runUpdate c e s.fresh).1 = .ok () ∧ SameImage c ((runUpdate c e s.fresh).2.dev.mem .active) (s0.dev.mem .staging) := by
  have h0 : Reach demoCfg (fun _ => True) _ := .boot ⟨demoMem [1, 1, 1] [1, 1, 1] [], 1⟩ false (fine []) (by decide +kernel) trivial
  have h1 := Reach.op _ (.prepareStaging 3) (fine []) h0 trivial
  have h2 := Reach.op _ (.setDigest 1 [1, 4, 2]) (fine []) h1 trivial
  have h3 := Reach.op _ (.writeStaging 3 3) (fine [1, 6, 3]) h2 trivial
  refine ⟨demoCfg, _, fine [], _, demoFw_local, rfl, h3, by decide +kernel, ?_, rfl, by decide +kernel, 3, by decide +kernel⟩
  rintro ⟨alg, dig, hd, hh⟩
  have hdig : dig = [1, 4, 2] := by
    have : (some (1, [1, 4, 2]) : Option (Nat × Bytes)) = some (alg, dig) := by rw [← hd]; decide +kernel
    simpa using (congrArg Prod.snd (Option.some.inj this)).symm
  rw [hdig] at hh
  simp only [demoCfg] at hh
  revert hh
  decide +kernel

/-! ### Revocation -/

/-- Manifests are revoked only when both images are good without them: in every state of a request in which the revocation state has changed, the active
and the recovery image are both good. -/
theorem revoked_after_both_partial (c : Cfg) (hl : c.fw.Local) (hr : c.hasRecovery = true) (s : St) (h : Reach c (fun e => ∀ n, e.page n = false) s)
    (o : Op) (e : Env) (he : ∀ n, e.page n = false) (hst : (exec c e o s.fresh).2.stale = false) (d : Dev)
    (hd : d = (exec c e o s.fresh).2.dev ∨ d ∈ (exec c e o s.fresh).2.trace) (hne : d.rev ≠ s.dev.rev) :
    c.fw.boots d.rev (d.mem .active) = true ∧ c.fw.boots d.rev (d.mem .recovery) = true := by
  have hs0 : s.stale = false := by
    cases hs : s.stale with
    | false => rfl
    | true => exact absurd ((exec_fresh (e := e) hl o s.fresh).1 hs) (by rw [hst]; simp)
  obtain ⟨hi, ha⟩ := reach_inv c hl hr s h hs0
  exact (exec_safe (e := e) hl hr he o s.fresh hi (by simp [AllSafe, St.fresh]) (by simp [St.fresh]) hst).2 d hd hne

example : ∃ s e, Reach demoCfg (fun e => ∀ n, e.page n = false) s ∧ (∀ n, e.page n = false) ∧
    (exec demoCfg e .runUpdate s.fresh).2.stale = false ∧ (exec demoCfg e .runUpdate s.fresh).2.dev.rev ≠ s.dev.rev :=
  ⟨_, fine [], .boot ⟨demoMem [1, 1, 1] [1, 1, 1] [1, 4, 2], 1⟩ false (fine []) (by decide +kernel) (fun _ => rfl), fun _ => rfl, by decide +kernel⟩

/-- A successful update to a manifest that revokes others records the revocation. Missing: backup regions (`not_revoked`). -/
theorem revoked_partial (c : Cfg) (hl : c.fw.Local) (hb : c.hasBackup = false) (hrb : c.hasRecBackup = false) (E : Env → Prop) (s : St) (hs : Reach c E s) (e : Env)
    (h : (runUpdate c e s.fresh).1 = .ok ()) : (runUpdate c e s.fresh).2.dev.rev = max s.dev.rev (c.fw.keyId (s.dev.mem .staging)) :=
  (success_installs c hl e s h).2.2.2 (((exec_fresh (e := e) hl .runUpdate s.fresh).2 hb hrb).trans (never_stale c hl hb hrb E s hs))

/-- With a backup region a successful update to a manifest that revokes the others revokes nothing. -/
theorem not_revoked : ∃ c s e, c.fw.Local ∧ Reach c (fun e => ∀ n, e.page n = false ∧ e.fails n = false) s ∧ (∀ n, e.page n = false ∧ e.fails n = false) ∧
    (runUpdate c e s.fresh).1 = .ok () ∧ s.dev.rev < c.fw.keyId (s.dev.mem .staging) ∧ (runUpdate c e s.fresh).2.dev.rev = s.dev.rev := by
  let c : Cfg := { demoCfg with hasBackup := true }
  have h0 : Reach c (fun e => ∀ n, e.page n = false ∧ e.fails n = false) _ :=
    .boot ⟨demoMem [1, 1, 1] [1, 1, 1] [1, 5, 1], 1⟩ false (fine []) (by decide +kernel) (fun _ => ⟨rfl, rfl⟩)
  exact ⟨c, _, fine [], demoFw_local, h0, fun _ => ⟨rfl, rfl⟩, by decide +kernel⟩

end Verif.FwUpdate
