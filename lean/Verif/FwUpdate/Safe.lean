import Verif.FwUpdate.Lemmas
namespace Verif.FwUpdate

/-! ### Devices that stay bootable -/

/-- A frame without the volatile state. -/
structure DevFrame (w : Reg → Prop) (s s' : St) : Prop where
  trace : ∃ t, s'.trace = s.trace ++ t ∧ ∀ d ∈ t, Agree w s.dev d
  dev : Agree w s.dev s'.dev
  stale : s'.stale = s.stale

theorem Frame.toDev {w : Reg → Prop} {s s' : St} (h : Frame w s s') : DevFrame w s s' := ⟨h.trace, h.dev, h.stale⟩
theorem Still.toDev {w : Reg → Prop} {s s' : St} (h : Still s s') : DevFrame w s s' := (h.frame).toDev
theorem DevFrame.setRam {w : Reg → Prop} {s s' : St} (h : DevFrame w s s') (m : Ram) : DevFrame w s { s' with ram := m } := ⟨h.trace, h.dev, h.stale⟩
theorem DevFrame.refl {w : Reg → Prop} {s : St} : DevFrame w s s := (Frame.refl).toDev

theorem DevFrame.mono {w v : Reg → Prop} {s s' : St} (h : DevFrame w s s') (hw : ∀ r, w r → v r) : DevFrame v s s' := by
  obtain ⟨⟨t, ht, hta⟩, h2, h4⟩ := h
  exact ⟨⟨t, ht, fun d hd => (hta d hd).trans (Agree.refl (w := w)) hw hw⟩, h2.trans (Agree.refl (w := w)) hw hw, h4⟩

theorem DevFrame.trans' {w : Reg → Prop} {a b d : St} (h : DevFrame w a b) (h' : DevFrame w b d) : DevFrame w a d := by
  obtain ⟨⟨t, ht, hta⟩, h2, h4⟩ := h
  obtain ⟨⟨u, hu, hua⟩, k2, k4⟩ := h'
  refine ⟨⟨t ++ u, by rw [hu, ht, List.append_assoc], ?_⟩, h2.trans k2 (fun _ x => x) (fun _ x => x), k4.trans h4⟩
  intro x hx
  rcases List.mem_append.mp hx with h | h
  · exact hta x h
  · exact h2.trans (hua x h) (fun _ x => x) (fun _ x => x)

variable {c : Cfg} {e : Env}

/-- What is known between two requests about a device with a recovery image. -/
def Inv (c : Cfg) (s : St) : Prop :=
  (s.ram.recoveryBad = false → c.fw.boots s.dev.rev (s.dev.mem .recovery) = true) ∧
  (s.ram.recoveryBad = true → c.fw.boots s.dev.rev (s.dev.mem .active) = true)

/-- The device could be booted in all states passed through. -/
def AllSafe (c : Cfg) (s : St) : Prop := ∀ d ∈ s.trace, Bootable c d

theorem Inv.bootable {s : St} (h : Inv c s) : Bootable c s.dev := by
  cases hb : s.ram.recoveryBad with
  | false => exact .inr (h.1 hb)
  | true => exact .inl (h.2 hb)

theorem boots_copy (hl : c.fw.Local) {x t : Bytes} {n rev : Nat} (h : c.fw.size x = some n) : c.fw.boots rev (x.take n ++ t) = c.fw.boots rev x := by
  obtain ⟨_, h2, h3, _⟩ := (hl x n h).2 t
  simp only [Fw.boots, h2, h3]

theorem keyId_copy (hl : c.fw.Local) {x t : Bytes} {n : Nat} (h : c.fw.size x = some n) : c.fw.keyId (x.take n ++ t) = c.fw.keyId x :=
  ((hl x n h).2 t).2.2.1

theorem boots_frame {w : Reg → Prop} {s s' : St} (h : DevFrame w s s') {r : Reg} (hr : ¬ w r) : c.fw.boots s'.dev.rev (s'.dev.mem r) = c.fw.boots s.dev.rev (s.dev.mem r) := by
  rw [h.dev.1, h.dev.2 r hr]

theorem allSafe_active {w : Reg → Prop} {s s' : St} (h : DevFrame w s s') (hr : ¬ w .active) (hb : c.fw.boots s.dev.rev (s.dev.mem .active) = true)
    (ha : AllSafe c s) : AllSafe c s' := by
  obtain ⟨⟨t, ht, hta⟩, _, _⟩ := h
  intro d hd
  rw [ht] at hd
  rcases List.mem_append.mp hd with hd | hd
  · exact ha d hd
  · obtain ⟨h1, h2⟩ := hta d hd
    exact .inl (by rw [h1, h2 _ hr]; exact hb)

theorem allSafe_recovery {w : Reg → Prop} {s s' : St} (h : DevFrame w s s') (hr : ¬ w .recovery) (hb : c.fw.boots s.dev.rev (s.dev.mem .recovery) = true)
    (ha : AllSafe c s) : AllSafe c s' := by
  obtain ⟨⟨t, ht, hta⟩, _, _⟩ := h
  intro d hd
  rw [ht] at hd
  rcases List.mem_append.mp hd with hd | hd
  · exact ha d hd
  · obtain ⟨h1, h2⟩ := hta d hd
    exact .inr (by rw [h1, h2 _ hr]; exact hb)

theorem allSafe_both {w : Reg → Prop} {s s' : St} (h : DevFrame w s s') (hr : ¬ w .recovery) (hr' : ¬ w .active) (hb : Bootable c s.dev)
    (ha : AllSafe c s) : AllSafe c s' := by
  rcases hb with hb | hb
  · exact allSafe_active h hr' hb ha
  · exact allSafe_recovery h hr hb ha

theorem inv_frame {w : Reg → Prop} {s s' : St} (h : DevFrame w s s') (hr : ¬ w .recovery) (hr' : ¬ w .active) (hm : s'.ram.recoveryBad = s.ram.recoveryBad)
    (hi : Inv c s) : Inv c s' :=
  ⟨fun hb => by rw [boots_frame h hr]; exact hi.1 (hm ▸ hb), fun hb => by rw [boots_frame h hr']; exact hi.2 (hm ▸ hb)⟩

/-- Wherever the revocation state differs from `r`, both images are good. -/
def Both (c : Cfg) (r : Nat) (s : St) : Prop := ∀ d, d = s.dev ∨ d ∈ s.trace → d.rev ≠ r →
  c.fw.boots d.rev (d.mem .active) = true ∧ c.fw.boots d.rev (d.mem .recovery) = true

theorem both_frame {w : Reg → Prop} {s s' : St} (h : DevFrame w s s') (hs : ∀ d ∈ s.trace, d.rev = s.dev.rev) :
    (∀ d ∈ s'.trace, d.rev = s'.dev.rev) ∧ s'.dev.rev = s.dev.rev ∧ Both c s.dev.rev s' := by
  obtain ⟨⟨t, ht, hta⟩, hd, _⟩ := h
  have h1 : ∀ d ∈ s'.trace, d.rev = s.dev.rev := by
    intro d hm
    rw [ht] at hm
    rcases List.mem_append.mp hm with hm | hm
    · exact hs d hm
    · exact (hta d hm).1
  refine ⟨fun d hm => (h1 d hm).trans hd.1.symm, hd.1, ?_⟩
  rintro d (rfl | hm) hne
  · exact absurd hd.1 hne
  · exact absurd (h1 d hm) hne

/-! ### Requests that do not touch the images -/

/-- Nothing but the staging region and volatile state other than the flag changed. -/
def StagingOnly (s s' : St) : Prop := DevFrame (fun r => r = .staging) s s' ∧ s'.ram.recoveryBad = s.ram.recoveryBad

theorem StagingOnly.refl {s : St} : StagingOnly s s := ⟨.refl, rfl⟩
theorem StagingOnly.trans {a b d : St} (h : StagingOnly a b) (h' : StagingOnly b d) : StagingOnly a d := ⟨h.1.trans' h'.1, h'.2.trans h.2⟩
theorem Quiet.staging {s s' : St} (h : Quiet s s') : StagingOnly s s' := ⟨h.still.toDev, by rw [h.2.1]⟩

theorem prepareFlash_sat (size : Nat) (s : St) : Sat (prepareFlash c e size) s (fun _ s' => StagingOnly s s') := by
  unfold prepareFlash
  split
  · exact Sat.throw .refl
  · have h : Sat ((erase e .staging).onlyIf (decide (size ≠ 0))) s (fun _ s' => StagingOnly s s') := by
      unfold M.onlyIf
      split
      · exact (erase_sat .staging s).mono fun r s' h => ⟨h.1.toDev, by rw [h.2]⟩
      · exact Sat.pure .refl
    refine Sat.bind h (fun _ s1 h1 => ?_) (fun x s1 h1 => h1)
    exact Sat.setRam (h1.trans ⟨DevFrame.refl.setRam _, rfl⟩)

theorem prepareStaging_sat (size : Nat) (s : St) : Sat (prepareStaging c e size) s (fun _ s' => StagingOnly s s') := by
  unfold prepareStaging
  refine Sat.bind (call_sat s) (fun _ s1 h1 => ?_) (fun x s1 h1 => h1.staging)
  refine Sat.bind (Sat.attempt (Q := fun _ s' => StagingOnly s1 s') (prepareFlash_sat size s1)) (fun r s2 h2 => ?_) (fun x s2 h2 => h1.staging.trans h2)
  refine Sat.setRamBind ?_
  have h3 : StagingOnly s { s2 with ram := { clearDigest s2.ram with imgLength := size } } :=
    (h1.staging.trans h2).trans ⟨DevFrame.refl.setRam _, rfl⟩
  cases r with
  | ok _ => exact Sat.pure h3
  | error x => exact Sat.throw h3

theorem setDigest_sat (alg : Nat) (dig : Bytes) (s : St) : Sat (setDigest alg dig) s (fun _ s' => StagingOnly s s') := by
  unfold setDigest
  refine Sat.getBind ?_
  split
  · exact Sat.throw .refl
  · split
    · exact Sat.throw .refl
    · exact Sat.setRam ⟨DevFrame.refl.setRam _, rfl⟩

theorem writeStaging_sat (len written : Nat) (s : St) : Sat (writeStaging c e len written) s (fun _ s' => StagingOnly s s') := by
  unfold writeStaging
  refine Sat.getBind ?_
  split
  · exact Sat.throw .refl
  · split
    · exact Sat.throw .refl
    · refine Sat.bind (choose_sat s) (fun j s1 h1 => ?_) (fun x s1 h1 => by simp at h1)
      refine Sat.bind (setDev_sat _ (fun y => y = .staging) s1 (agree_set _ .staging j)) (fun _ s2 h2 => ?_) (fun x s2 h2 => by simp at h2)
      have h12 : StagingOnly s s2 := h1.2.staging.trans ⟨h2.2.1.toDev, by rw [h2.2.2.2]⟩
      refine Sat.bind (call_sat s2) (fun _ s3 h3 => ?_) (fun x s3 h3 => h12.trans h3.staging)
      refine Sat.setRamBind ?_
      have h4 := (h12.trans h3.staging).trans (d := { s3 with ram := { s3.ram with
        remaining := s3.ram.remaining - (min written len : Nat), writeOffset := s3.ram.writeOffset + min written len } })
        ⟨DevFrame.refl.setRam _, rfl⟩
      split
      · exact Sat.throw h4
      · exact Sat.pure h4

theorem StagingOnly.safe {s s' : St} (h : StagingOnly s s') (hi : Inv c s) (ha : AllSafe c s) : Inv c s' ∧ AllSafe c s' :=
  ⟨inv_frame h.1 (by simp) (by simp) h.2 hi, allSafe_both h.1 (by simp) (by simp) hi.bootable ha⟩

/-! ### Applying an update -/

theorem orFail_sat (o : Option Err) (s : St) : Sat (orFail o) s (fun r s' => s' = s ∧ (r = .ok () ↔ o = none)) := by
  cases o with
  | none => exact Sat.pure ⟨rfl, by simp⟩
  | some x => exact Sat.throw ⟨rfl, by simp⟩

theorem ensureRecovery_sat (hl : c.fw.Local) (len : Nat) (s : St) :
    Sat (ensureRecovery c e len) s (fun x s' => DevFrame (fun r => r = .recovery) s s' ∧
      (∀ y, x = .error y → s'.ram = s.ram ∧ s.ram.recoveryBad = true) ∧
      ∀ u, x = .ok u → u = (c.hasRecovery && s.ram.recoveryBad) ∧ s'.ram = { s.ram with recoveryBad := if u then false else s.ram.recoveryBad } ∧
        (u = true → ∃ t, s'.dev.mem .recovery = (s.dev.mem .staging).take len ++ t) ∧ (u = false → s' = s)) := by
  unfold ensureRecovery
  refine Sat.getBind ?_
  split
  · rename_i hc
    have hbad : s.ram.recoveryBad = true := by simp only [Bool.and_eq_true] at hc; exact hc.2
    refine Sat.bind (writeImage_sat hl .recovery none .staging len s (by simp) (by simp) (by simp)) (fun w s1 h1 => ?_) (fun x s1 h1 => by simp at h1)
    obtain ⟨st, good, hw, h1⟩ := h1
    simp only [Except.ok.injEq] at hw
    subst hw
    have hf : DevFrame (fun r => r = .recovery) s s1 := (h1.frame.mono (fun r hr => by simpa using hr)).toDev
    refine Sat.bind (orFail_sat st s1) (fun _ s2 h2 => ?_) (fun x s2 h2 => ?_)
    · obtain ⟨rfl, h2⟩ := h2
      have hst : st = none := h2.mp rfl
      obtain ⟨hg, t, ht⟩ := h1.done hst
      refine Sat.setRamBind (Sat.pure ⟨hf.setRam _, by simp, ?_⟩)
      intro u hu
      simp only [Except.ok.injEq] at hu
      subst hu
      refine ⟨hc.symm, ?_, fun _ => ⟨t, ht⟩, by simp⟩
      simp [hg, (h1.noBackup rfl).1]
    · obtain ⟨rfl, h2⟩ := h2
      exact ⟨hf, fun y _ => ⟨(h1.noBackup rfl).1, hbad⟩, by simp⟩
  · rename_i hc
    refine Sat.pure ⟨.refl, by simp, ?_⟩
    intro u hu
    simp only [Except.ok.injEq] at hu
    subst hu
    exact ⟨by simpa using hc, by simp, by simp, by simp⟩

/-- What a successful `applyUpdate` establishes. -/
structure Applied (c : Cfg) (len : Nat) (s s' : St) (u : Bool) : Prop where
  staging : s'.dev.mem .staging = s.dev.mem .staging
  rev : s'.dev.rev = s.dev.rev
  active : ∃ t, s'.dev.mem .active = (s.dev.mem .staging).take len ++ t
  updated : u = (c.hasRecovery && s.ram.recoveryBad)
  recovery : u = true → ∃ t, s'.dev.mem .recovery = (s.dev.mem .staging).take len ++ t
  flag : s'.ram.recoveryBad = if u then false else s.ram.recoveryBad
  recoveryRev : s'.ram.recoveryRev = s.ram.recoveryRev
  digest : s'.ram.digest = none
  stale : s'.stale = s.stale

theorem applyUpdate_sat (hl : c.fw.Local) (len : Nat) (s : St) :
    Sat (applyUpdate c e len) s (fun x s' =>
      (c.hasRecovery = true → Inv c s → AllSafe c s → c.fw.boots s.dev.rev (s.dev.mem .staging) = true → c.fw.size (s.dev.mem .staging) = some len →
        Inv c s' ∧ AllSafe c s') ∧
      s'.stale = s.stale ∧ ∀ u, x = .ok u → Applied c len s s' u) := by
  unfold applyUpdate
  refine Sat.bind (call_sat s) (fun _ s0 h0 => ?_) (fun x s0 h0 => ⟨fun _ hi ha _ _ => h0.staging.safe hi ha, h0.2.2.2, by simp⟩)
  refine Sat.bind (call_sat s0) (fun _ s1 h01 => ?_) (fun x s1 h01 => ⟨fun _ hi ha _ _ => (h0.trans h01).staging.safe hi ha, (h0.trans h01).2.2.2, by simp⟩)
  have h1 : Quiet s s1 := h0.trans h01
  refine Sat.bind (ensureRecovery_sat hl len s1) (fun u s2 h2 => ?_) (fun x s2 h2 => ?_)
  · obtain ⟨hf2, _, h2⟩ := h2
    obtain ⟨hu, hram, hur, hur'⟩ := h2 u rfl
    have hsafe2 : c.hasRecovery = true → Inv c s → AllSafe c s → c.fw.boots s.dev.rev (s.dev.mem .staging) = true → c.fw.size (s.dev.mem .staging) = some len →
        s2.ram.recoveryBad = false ∧ c.fw.boots s2.dev.rev (s2.dev.mem .recovery) = true ∧ AllSafe c s2 := by
      intro hr hi ha hb hs
      have hi1 := h1.staging.safe hi ha
      cases u with
      | true =>
        obtain ⟨t, ht⟩ := hur rfl
        refine ⟨by rw [hram]; rfl, ?_, ?_⟩
        · rw [ht, hf2.dev.1, h1.1, boots_copy hl hs]; exact hb
        · have hbad : s1.ram.recoveryBad = true := by rw [hr, Bool.true_and] at hu; exact hu.symm
          exact allSafe_active hf2 (by simp) (hi1.1.2 hbad) hi1.2
      | false =>
        have he := hur' rfl
        subst he
        have hbad : s2.ram.recoveryBad = false := by rw [hr, Bool.true_and] at hu; exact hu.symm
        exact ⟨hbad, hi1.1.1 hbad, hi1.2⟩
    have hbk : ∀ r, (if c.hasBackup then some Reg.backup else none) = some r → r = .backup := by
      intro r hr
      split at hr
      · simpa using hr.symm
      · simp at hr
    refine Sat.bind (writeImage_sat hl .active (if c.hasBackup then some .backup else none) .staging len s2 (by simp)
      (fun h => absurd (hbk _ h) (by simp)) (fun h => absurd (hbk _ h) (by simp))) (fun w s3 h3 => ?_) (fun x s3 h3 => by simp at h3)
    obtain ⟨st, good, hw, h3⟩ := h3
    simp only [Except.ok.injEq] at hw
    subst hw
    have hf3 : DevFrame (fun r => r = .active ∨ r = .backup) s2 s3 := (h3.frame.mono (fun r hr => hr.imp id (hbk r))).toDev
    have hsafe3 : c.hasRecovery = true → Inv c s → AllSafe c s → c.fw.boots s.dev.rev (s.dev.mem .staging) = true → c.fw.size (s.dev.mem .staging) = some len →
        Inv c s3 ∧ AllSafe c s3 := by
      intro hr hi ha hb hs
      obtain ⟨g1, g2, g3⟩ := hsafe2 hr hi ha hb hs
      have hm3 : s3.ram.recoveryBad = false := by rw [h3.frame.ram.1, g1]
      exact ⟨⟨fun _ => by rw [boots_frame hf3 (by simp)]; exact g2, fun h => absurd h (by simp [hm3])⟩, allSafe_recovery hf3 (by simp) g2 g3⟩
    have hst : s3.stale = s.stale := by rw [hf3.stale, hf2.stale, h1.2.2.2]
    refine Sat.bind (orFail_sat st s3) (fun _ s4 h4 => ?_) (fun x s4 h4 => ?_)
    · obtain ⟨rfl, h4⟩ := h4
      have hnone := h4.mp rfl
      obtain ⟨hg, t, ht⟩ := h3.done hnone
      refine Sat.setRamBind (Sat.pure ⟨fun hr hi ha hb hs => ?_, hst, ?_⟩)
      · obtain ⟨k1, k2⟩ := hsafe3 hr hi ha hb hs
        exact ⟨k1, k2⟩
      · intro u' hu'
        simp only [Except.ok.injEq] at hu'
        subst hu'
        have hstg : s2.dev.mem .staging = s.dev.mem .staging := by rw [hf2.dev.2 .staging (by simp), h1.1]
        refine ⟨?_, ?_, ⟨t, ?_⟩, ?_, ?_, ?_, ?_, rfl, hst⟩
        · show s4.dev.mem .staging = _
          rw [hf3.dev.2 .staging (by simp), hstg]
        · show s4.dev.rev = _
          rw [hf3.dev.1, hf2.dev.1, h1.1]
        · show s4.dev.mem .active = _
          rw [ht, hstg]
        · rw [hu, h1.2.1]
        · intro h
          obtain ⟨t', ht'⟩ := hur h
          refine ⟨t', ?_⟩
          show s4.dev.mem .recovery = _
          rw [hf3.dev.2 .recovery (by simp), ht', h1.1]
        · show s4.ram.recoveryBad = _
          rw [h3.frame.ram.1, hram, h1.2.1]
        · show s4.ram.recoveryRev = _
          rw [h3.frame.ram.2.1, hram, h1.2.1]
    · obtain ⟨rfl, h4⟩ := h4
      exact ⟨hsafe3, hst, by simp⟩
  · obtain ⟨hf2, h2, _⟩ := h2
    obtain ⟨hm, hbad⟩ := h2 x rfl
    refine ⟨fun hr hi ha hb hs => ?_, by rw [hf2.stale, h1.2.2.2], by simp⟩
    have hi1 := h1.staging.safe hi ha
    refine ⟨⟨fun h => absurd h (by rw [hm, hbad]; simp), fun _ => ?_⟩, allSafe_active hf2 (by simp) (hi1.1.2 hbad) hi1.2⟩
    rw [boots_frame hf2 (by simp)]; exact hi1.1.2 hbad

theorem applyUpdate_frame (hl : c.fw.Local) (len : Nat) (s : St) : Sat (applyUpdate c e len) s (fun _ s' => DevFrame (fun r => r ≠ .staging) s s') := by
  unfold applyUpdate
  refine Sat.bind (call_sat s) (fun _ s0 h0 => ?_) (fun x s0 h0 => h0.still.toDev)
  refine Sat.bind (call_sat s0) (fun _ s1 h1 => ?_) (fun x s1 h1 => (h0.trans h1).still.toDev)
  have h01 : DevFrame (fun r => r ≠ .staging) s s1 := (h0.trans h1).still.toDev
  refine Sat.bind (ensureRecovery_sat hl len s1) (fun u s2 h2 => ?_) (fun x s2 h2 => h01.trans' (h2.1.mono (by rintro r rfl; simp)))
  have h02 := h01.trans' (h2.1.mono (v := fun r => r ≠ .staging) (by rintro r rfl; simp))
  have hbk : ∀ r, (if c.hasBackup then some Reg.backup else none) = some r → r = .backup := by
    intro r hr
    split at hr
    · simpa using hr.symm
    · simp at hr
  refine Sat.bind (writeImage_sat hl .active (if c.hasBackup then some .backup else none) .staging len s2 (by simp)
    (fun h => absurd (hbk _ h) (by simp)) (fun h => absurd (hbk _ h) (by simp))) (fun w s3 h3 => ?_) (fun x s3 h3 => by simp at h3)
  obtain ⟨st, good, hw, h3⟩ := h3
  have h03 := h02.trans' (h3.frame.mono (v := fun r => r ≠ .staging) (fun r hr => by
    rcases hr with rfl | hr
    · simp
    · rw [hbk r hr]; simp)).toDev
  refine Sat.bind (orFail_sat w.1 s3) (fun _ s4 h4 => ?_) (fun x s4 h4 => by rw [h4.1]; exact h03)
  obtain ⟨rfl, _⟩ := h4
  exact Sat.setRamBind (Sat.pure (h03.setRam _))

/-! ### Revocation -/

theorem recoveryBackup_eq (m : Ram) (r : Reg) (h : recoveryBackup c m = some r) : m.recoveryBad = false ∧ (r = .recBackup ∨ r = .backup) := by
  unfold recoveryBackup at h
  split at h
  · simp at h
  · rename_i hb
    refine ⟨by simpa using hb, ?_⟩
    split at h
    · left; simpa using h.symm
    · split at h
      · right; simpa using h.symm
      · simp at h

theorem updateRecovery_sat (hl : c.fw.Local) (src : Reg) (len : Nat) (s : St) (hsrc : src = .staging ∨ src = .active) :
    Sat (updateRecovery c e src len) s (fun x s' => DevFrame (fun r => r = .recovery ∨ r = .backup ∨ r = .recBackup) s s' ∧
      s.ram.gen ≤ s'.ram.gen ∧ (s'.ram.gen = s.ram.gen → s'.ram.loaded = s.ram.loaded) ∧
      (recoveryBackup c s.ram = none → s'.ram.gen = s.ram.gen) ∧
      (x = .ok () → s'.ram.recoveryBad = false ∧ ∃ t, s'.dev.mem .recovery = (s.dev.mem src).take len ++ t) ∧
      ((∀ n, e.page n = false) → Inv c s → x ≠ .ok () → s'.ram.recoveryBad = false → c.fw.boots s'.dev.rev (s'.dev.mem .recovery) = true)) := by
  unfold updateRecovery
  refine Sat.getBind ?_
  have hne : ∀ r, recoveryBackup c s.ram = some r → r ≠ .recovery ∧ r ≠ src := by
    intro r hr
    rcases (recoveryBackup_eq _ _ hr).2 with rfl | rfl <;> rcases hsrc with rfl | rfl <;> simp
  refine Sat.bind (writeImage_sat hl .recovery (recoveryBackup c s.ram) src len s (by rcases hsrc with rfl | rfl <;> simp)
    (fun h => (hne _ h).1 rfl) (fun h => (hne _ h).2 rfl)) (fun w s1 h1 => ?_) (fun x s1 h1 => by simp at h1)
  obtain ⟨st, good, hw, h1⟩ := h1
  simp only [Except.ok.injEq] at hw
  subst hw
  have hf : DevFrame (fun r => r = .recovery ∨ r = .backup ∨ r = .recBackup) s s1 :=
    (h1.frame.mono (fun r hr => hr.imp id (fun h => (recoveryBackup_eq _ _ h).2.symm))).toDev
  obtain ⟨hm1, _, _, _, _, _, hgen, hload⟩ := h1.frame.ram
  refine Sat.setRamBind ?_
  refine (orFail_sat st _).mono fun x s2 h2 => ?_
  obtain ⟨rfl, h2⟩ := h2
  refine ⟨hf.setRam _, hgen, hload, fun hb => by rw [(h1.noBackup hb).1], fun hx => ?_, fun hpg hi hx hbad => ?_⟩
  · obtain ⟨hg, t, ht⟩ := h1.done (h2.mp hx)
    exact ⟨by simp [hg], t, ht⟩
  · have hst : st ≠ none := fun h => hx (h2.mpr h)
    have hg : good = true := by simpa using hbad
    show c.fw.boots s1.dev.rev (s1.dev.mem .recovery) = true
    have hbk : recoveryBackup c s.ram ≠ none := by
      intro hb
      have := (h1.noBackup hb).2 hpg hst
      rw [hg] at this; simp at this
    obtain ⟨b, hb⟩ := Option.ne_none_iff_exists'.mp hbk
    have hboot := hi.1 (recoveryBackup_eq _ _ hb).1
    rw [hf.dev.1]
    rcases h1.kept hst hg with h | ⟨_, n, t, hn, h⟩
    · rw [h]; exact hboot
    · rw [h, boots_copy hl hn]; exact hboot

theorem revoke_sat (gen : Nat) (s : St) : Sat (revoke c e gen) s (fun x s' =>
    s'.ram = s.ram ∧ s'.stale = (s.stale || decide (s.ram.gen ≠ gen)) ∧ s'.dev.mem = s.dev.mem ∧
    ((s'.dev.rev = s.dev.rev ∧ s'.trace = s.trace ∧ x ≠ .ok ()) ∨ (s'.dev.rev = max s.dev.rev (c.fw.keyId s.ram.loaded) ∧ s'.trace = s.trace ++ [s'.dev]))) := by
  unfold Sat revoke
  by_cases hf : e.fails s.n = true
  · by_cases hp : e.page s.n = true
    · simp [hf, hp]
    · simp [hf, hp]
  · simp [hf]

/-- The states from which manifests are revoked. -/
structure Ready (c : Cfg) (src : Reg) (len : Nat) (u : Bool) (s : St) : Prop where
  inv : Inv c s
  active : c.fw.boots s.dev.rev (s.dev.mem .active) = true
  good : c.fw.boots s.dev.rev (s.dev.mem src) = true
  size : c.fw.size (s.dev.mem src) = some len
  key : c.fw.keyId (s.dev.mem src) = c.fw.keyId (s.dev.mem .active)
  loaded : s.ram.loaded = s.dev.mem .active
  updated : u = true → s.ram.recoveryBad = false ∧ c.fw.keyId (s.dev.mem .recovery) = c.fw.keyId (s.dev.mem .active)

theorem processRevocation_sat (hl : c.fw.Local) (hr : c.hasRecovery = true) (hpg : ∀ n, e.page n = false) (src : Reg) (len : Nat) (nr : Option Nat) (u : Bool) (s : St)
    (hsrc : src = .staging ∨ src = .active) (h : Ready c src len u s) (ha : AllSafe c s)
    (hsame : ∀ d ∈ s.trace, d.rev = s.dev.rev) :
    Sat (processRevocation c e src len nr u) s (fun _ s' => s'.stale = false → (Inv c s' ∧ AllSafe c s') ∧ Both c s.dev.rev s') := by
  unfold processRevocation
  refine Sat.bind (call_sat s) (fun _ s0 h0 => ?_) (fun x s0 h0 => fun _ => ⟨h0.staging.safe h.inv ha, (both_frame h0.staging.1 hsame).2.2⟩)
  refine Sat.bind (call_sat s0) (fun _ s1 h01 => ?_) (fun x s1 h01 => fun _ => ⟨(h0.trans h01).staging.safe h.inv ha, (both_frame (h0.trans h01).staging.1 hsame).2.2⟩)
  have h1 : Quiet s s1 := h0.trans h01
  obtain ⟨hi1, ha1⟩ := h1.staging.safe h.inv ha
  obtain ⟨hsame1, hrev1, hboth1⟩ := both_frame (c := c) h1.staging.1 hsame
  have hact1 : c.fw.boots s1.dev.rev (s1.dev.mem .active) = true := by rw [h1.1]; exact h.active
  have hl1 : s1.ram.loaded = s1.dev.mem .active := by rw [h1.2.1, h1.1]; exact h.loaded
  refine Sat.getBind ?_
  dsimp only
  split
  · have hup : Sat ((updateRecovery c e src len).onlyIf (c.hasRecovery && !u)) s1 (fun x s' => Inv c s' ∧ AllSafe c s' ∧
        DevFrame (fun r => r = .recovery ∨ r = .backup ∨ r = .recBackup) s1 s' ∧
        (s'.ram.gen = s1.ram.gen → s'.ram.loaded = s1.ram.loaded) ∧
        (x = .ok () → s'.ram.recoveryBad = false ∧ c.fw.keyId (s'.dev.mem .recovery) = c.fw.keyId (s1.dev.mem .active))) := by
      unfold M.onlyIf
      split
      · refine (updateRecovery_sat hl src len s1 hsrc).mono fun x s' hh => ?_
        obtain ⟨hf, _, hload, _, hok, herr⟩ := hh
        refine ⟨⟨fun hb => ?_, fun _ => ?_⟩, allSafe_active hf (by simp) hact1 ha1, hf, hload, fun hx => ?_⟩
        · by_cases hx : x = .ok ()
          · obtain ⟨_, t, ht⟩ := hok hx
            rw [ht, hf.dev.1, h1.1, boots_copy hl h.size]; exact h.good
          · exact herr hpg hi1 hx hb
        · rw [boots_frame hf (by simp)]; exact hact1
        · obtain ⟨hb, t, ht⟩ := hok hx
          exact ⟨hb, by rw [ht, h1.1, keyId_copy hl h.size, h.key]⟩
      · rename_i hu
        have hut : u = true := by simpa [hr] using hu
        obtain ⟨g1, g2⟩ := h.updated hut
        refine Sat.pure ⟨hi1, ha1, .refl, fun _ => rfl, fun _ => ⟨by rw [h1.2.1, g1], by rw [h1.1, g2]⟩⟩
    refine Sat.bind hup (fun _ s2 h2 => ?_) (fun x s2 h2 => fun _ => ⟨⟨h2.1, h2.2.1⟩, hrev1 ▸ (both_frame h2.2.2.1 hsame1).2.2⟩)
    obtain ⟨hi2, ha2, hf2, hload2, hok2⟩ := h2
    obtain ⟨hb2, hk2⟩ := hok2 rfl
    obtain ⟨hsame2, hrev2, hboth2⟩ := both_frame (c := c) hf2 hsame1
    rw [hrev1] at hrev2 hboth2
    refine Sat.setRamBind ?_
    unfold M.onlyIf
    split
    · refine (revoke_sat s1.ram.gen _).mono fun x s3 h3 => fun hst => ?_
      obtain ⟨hm3, hs3, hmem3, h3⟩ := h3
      rw [hst] at hs3
      have hs3' := hs3.symm
      simp only [Bool.or_eq_false_iff, decide_eq_false_iff_not, ne_eq, Decidable.not_not] at hs3'
      have hlo : s2.ram.loaded = s1.dev.mem .active := (hload2 hs3'.2).trans hl1
      have hact2 : s2.dev.mem .active = s1.dev.mem .active := hf2.dev.2 .active (by simp)
      have hab2 : c.fw.boots s2.dev.rev (s2.dev.mem .active) = true := by rw [boots_frame hf2 (by simp)]; exact hact1
      have hrb2 : c.fw.boots s2.dev.rev (s2.dev.mem .recovery) = true := hi2.1 hb2
      rcases h3 with ⟨hrev, htr, _⟩ | ⟨hrev, htr⟩
      · refine ⟨⟨⟨fun _ => ?_, fun _ => ?_⟩, ?_⟩, ?_⟩
        · rw [hrev, hmem3]; exact hrb2
        · rw [hrev, hmem3]; exact hab2
        · intro d hd; rw [htr] at hd; exact ha2 d hd
        · rintro d (rfl | hd) hne
          · exact absurd (hrev.trans hrev2) hne
          · rw [htr] at hd
            exact absurd ((hsame2 d hd).trans hrev2) hne
      · have hkey : ∀ x, c.fw.boots s2.dev.rev x = true → c.fw.keyId x = c.fw.keyId (s1.dev.mem .active) → c.fw.boots s3.dev.rev x = true := by
          intro x hx hk
          simp only [Fw.boots, Bool.and_eq_true, decide_eq_true_eq] at hx ⊢
          refine ⟨hx.1, ?_⟩
          have hrev' : s3.dev.rev = max s2.dev.rev (c.fw.keyId (s1.dev.mem .active)) := by rw [← hlo]; exact hrev
          rw [hrev']; omega
        have hra : c.fw.boots s3.dev.rev (s3.dev.mem .active) = true := by
          rw [hmem3]; exact hkey _ hab2 (by rw [hact2])
        have hrr : c.fw.boots s3.dev.rev (s3.dev.mem .recovery) = true := by
          rw [hmem3]; exact hkey _ hrb2 hk2
        refine ⟨⟨⟨fun _ => hrr, fun _ => hra⟩, ?_⟩, ?_⟩
        · intro d hd
          rw [htr] at hd
          rcases List.mem_append.mp hd with hd | hd
          · exact ha2 d hd
          · rw [List.mem_singleton.mp hd]; exact .inl hra
        · rintro d (rfl | hd) hne
          · exact ⟨hra, hrr⟩
          · rw [htr] at hd
            rcases List.mem_append.mp hd with hd | hd
            · exact absurd ((hsame2 d hd).trans hrev2) hne
            · rw [List.mem_singleton.mp hd]; exact ⟨hra, hrr⟩
    · exact Sat.pure fun _ => ⟨⟨hi2, ha2⟩, hboth2⟩
  · exact Sat.pure fun _ => ⟨⟨hi1, ha1⟩, hboth1⟩

/-! ### Requests -/

theorem Still.staging {s s' : St} (h : Still s s') : StagingOnly s s' := ⟨h.toDev, h.2.1.1⟩

theorem runUpdate_safe (hl : c.fw.Local) (hr : c.hasRecovery = true) (hpg : ∀ n, e.page n = false) (s : St) (hi : Inv c s) (ha : AllSafe c s)
    (hsame : ∀ d ∈ s.trace, d.rev = s.dev.rev) :
    Sat (runUpdate c e) s (fun _ s' => s'.stale = false → (Inv c s' ∧ AllSafe c s') ∧ Both c s.dev.rev s') := by
  unfold runUpdate
  refine Sat.getBind ?_
  refine Sat.bind (loadAndVerify_sat .staging true false true true true s.ram.recoveryRev s) (fun r s1 h1 => ?_)
    (fun x s1 h1 => fun _ => ⟨h1.1.staging.safe hi ha, (both_frame h1.1.staging.1 hsame).2.2⟩)
  obtain ⟨n, v⟩ := r
  obtain ⟨hs1, hv⟩ := h1
  have hv := hv n v rfl
  obtain ⟨hi1, ha1⟩ := hs1.staging.safe hi ha
  obtain ⟨hsame1, hrev1, _⟩ := both_frame (c := c) hs1.staging.1 hsame
  rw [← hrev1]
  have hb1 : c.fw.boots s1.dev.rev (s1.dev.mem .staging) = true := by rw [hs1.1]; exact hv.boots
  have hz1 : c.fw.size (s1.dev.mem .staging) = some n := by rw [hs1.1]; exact hv.size rfl
  refine Sat.bind ((applyUpdate_sat hl n s1).and (applyUpdate_frame hl n s1)) (fun u s2 h2 => ?_) (fun x s2 h2 => fun _ => ⟨h2.1.1 hr hi1 ha1 hb1 hz1, (both_frame h2.2 hsame1).2.2⟩)
  obtain ⟨⟨hsafe2, _, h2⟩, hf2⟩ := h2
  obtain ⟨hsame2, hrev2, hboth2⟩ := both_frame (c := c) hf2 hsame1
  have hap := h2 u rfl
  obtain ⟨hi2, ha2⟩ := hsafe2 hr hi1 ha1 hb1 hz1
  refine Sat.bind (load_sat .active s2) (fun _ s3 h3 => ?_) (fun x s3 h3 => fun _ => ⟨h3.1.staging.safe hi2 ha2, hrev2 ▸ (both_frame h3.1.staging.1 hsame2).2.2⟩)
  obtain ⟨hi3, ha3⟩ := h3.1.staging.safe hi2 ha2
  obtain ⟨hsame3, hrev3, _⟩ := both_frame (c := c) h3.1.staging.1 hsame2
  rw [← hrev2, ← hrev3]
  obtain ⟨t, ht⟩ := hap.active
  refine processRevocation_sat hl hr hpg .staging n v u s3 (.inl rfl) ⟨hi3, ?_, ?_, ?_, ?_, ?_, ?_⟩ ha3 hsame3
  · rw [h3.1.1, ht, hap.rev, boots_copy hl hz1]; exact hb1
  · rw [h3.1.1, hap.staging, hap.rev]; exact hb1
  · rw [h3.1.1, hap.staging]; exact hz1
  · rw [h3.1.1, hap.staging, ht, keyId_copy hl hz1]
  · rw [(h3.2.1 rfl).1, h3.1.1]
  · intro hu
    obtain ⟨t', ht'⟩ := hap.recovery hu
    refine ⟨by rw [h3.1.2.1.1, hap.flag, hu]; rfl, ?_⟩
    rw [h3.1.1, ht, ht', keyId_copy hl hz1, keyId_copy hl hz1]

theorem runRevocation_safe (hl : c.fw.Local) (hr : c.hasRecovery = true) (hpg : ∀ n, e.page n = false) (s : St) (hi : Inv c s) (ha : AllSafe c s)
    (hsame : ∀ d ∈ s.trace, d.rev = s.dev.rev) :
    Sat (runRevocation c e) s (fun _ s' => s'.stale = false → (Inv c s' ∧ AllSafe c s') ∧ Both c s.dev.rev s') := by
  unfold runRevocation
  refine Sat.getBind ?_
  refine Sat.bind (loadAndVerify_sat .active false false false true true s.ram.recoveryRev s) (fun r s1 h1 => ?_)
    (fun x s1 h1 => fun _ => ⟨h1.1.staging.safe hi ha, (both_frame h1.1.staging.1 hsame).2.2⟩)
  obtain ⟨n, v⟩ := r
  obtain ⟨hs1, hv⟩ := h1
  have hv := hv n v rfl
  obtain ⟨hi1, ha1⟩ := hs1.staging.safe hi ha
  obtain ⟨hsame1, hrev1, _⟩ := both_frame (c := c) hs1.staging.1 hsame
  rw [← hrev1]
  have hb1 : c.fw.boots s1.dev.rev (s1.dev.mem .active) = true := by rw [hs1.1]; exact hv.boots
  have hz1 : c.fw.size (s1.dev.mem .active) = some n := by rw [hs1.1]; exact hv.size rfl
  exact processRevocation_sat hl hr hpg .active n v false s1 (.inr rfl) ⟨hi1, hb1, hb1, hz1, rfl, by rw [hv.loaded, hs1.1], by simp⟩ ha1 hsame1

theorem restoreImage_sat (hl : c.fw.Local) (dest src : Reg) (wr : Bool) (s : St) (hds : dest ≠ src) :
    Sat (restoreImage c e dest src wr) s (fun x s' => DevFrame (fun r => r = dest) s s' ∧ SameRam s.ram s'.ram ∧
      ∀ v, x = .ok v → c.fw.boots s.dev.rev (s.dev.mem src) = true ∧ ∃ n t, c.fw.size (s.dev.mem src) = some n ∧ s'.dev.mem dest = (s.dev.mem src).take n ++ t) := by
  unfold restoreImage
  refine Sat.bind (loadAndVerify_sat src false false false true wr none s) (fun r s1 h1 => ?_) (fun x s1 h1 => ⟨h1.1.toDev, h1.1.2.1, by simp⟩)
  obtain ⟨n, v⟩ := r
  obtain ⟨hs1, hv⟩ := h1
  have hv := hv n v rfl
  refine Sat.bind (writeImage_sat hl dest none src n s1 hds (by simp) (by simp)) (fun w s2 h2 => ?_) (fun x s2 h2 => by simp at h2)
  obtain ⟨st, good, hw, h2⟩ := h2
  simp only [Except.ok.injEq] at hw
  subst hw
  have hf : DevFrame (fun r => r = dest) s s2 := hs1.toDev.trans' (h2.frame.mono (fun r hr => by simpa using hr)).toDev
  have hm : SameRam s.ram s2.ram := hs1.2.1.trans h2.frame.ram
  refine Sat.bind (orFail_sat st s2) (fun _ s3 h3 => ?_) (fun x s3 h3 => ?_)
  · obtain ⟨rfl, h3⟩ := h3
    obtain ⟨_, t, ht⟩ := h2.done (h3.mp rfl)
    refine Sat.pure ⟨hf, hm, fun v' _ => ⟨hv.boots, n, t, hv.size rfl, ?_⟩⟩
    rw [ht, hs1.1]
  · obtain ⟨rfl, h3⟩ := h3
    exact ⟨hf, hm, by simp⟩

theorem restoreRecovery_safe (hl : c.fw.Local) (s : St) (hi : Inv c s) (ha : AllSafe c s) :
    Sat (restoreRecovery c e) s (fun _ s' => Inv c s' ∧ AllSafe c s' ∧ s'.stale = s.stale) := by
  unfold restoreRecovery
  split
  · exact Sat.throw ⟨hi, ha, rfl⟩
  · refine Sat.getBind ?_
    split
    · rename_i hbad
      refine Sat.bind (restoreImage_sat hl .recovery .active true s (by simp)) (fun v s1 h1 => ?_) (fun x s1 h1 => ?_)
      · obtain ⟨hf, hm, h1⟩ := h1
        obtain ⟨hb, n, t, hn, ht⟩ := h1 v rfl
        refine Sat.setRam ⟨⟨fun _ => ?_, by simp⟩, allSafe_active (hf.setRam _) (by simp) hb ha, hf.stale⟩
        show c.fw.boots s1.dev.rev (s1.dev.mem .recovery) = true
        rw [hf.dev.1, ht, boots_copy hl hn]; exact hb
      · obtain ⟨hf, hm, h1⟩ := h1
        refine ⟨⟨fun h => absurd h (by rw [hm.1, hbad]; simp), fun _ => ?_⟩, allSafe_active hf (by simp) (hi.2 hbad) ha, hf.stale⟩
        rw [boots_frame hf (by simp)]; exact hi.2 hbad
    · exact Sat.throw ⟨hi, ha, rfl⟩

theorem runUpdateNoRevocation_safe (hl : c.fw.Local) (hr : c.hasRecovery = true) (s : St) (hi : Inv c s) (ha : AllSafe c s) :
    Sat (runUpdateNoRevocation c e) s (fun _ s' => Inv c s' ∧ AllSafe c s' ∧ s'.stale = s.stale) := by
  unfold runUpdateNoRevocation
  refine Sat.getBind ?_
  have h0 : Sat ((restoreRecovery c e).onlyIf (c.hasRecovery && s.ram.recoveryBad)) s (fun _ s' => Inv c s' ∧ AllSafe c s' ∧ s'.stale = s.stale) := by
    unfold M.onlyIf
    split
    · exact restoreRecovery_safe hl s hi ha
    · exact Sat.pure ⟨hi, ha, rfl⟩
  refine Sat.bind h0 (fun _ s1 h1 => ?_) (fun x s1 h1 => h1)
  refine Sat.bind (loadAndVerify_sat .staging true false true true true none s1) (fun r s2 h2 => ?_)
    (fun x s2 h2 => ⟨(h2.1.staging.safe h1.1 h1.2.1).1, (h2.1.staging.safe h1.1 h1.2.1).2, h2.1.2.2.2.trans h1.2.2⟩)
  obtain ⟨n, v⟩ := r
  obtain ⟨hs2, hv⟩ := h2
  have hv := hv n v rfl
  obtain ⟨hi2, ha2⟩ := hs2.staging.safe h1.1 h1.2.1
  have hst : s2.stale = s.stale := hs2.2.2.2.trans h1.2.2
  have hb2 : c.fw.boots s2.dev.rev (s2.dev.mem .staging) = true := by rw [hs2.1]; exact hv.boots
  have hz2 : c.fw.size (s2.dev.mem .staging) = some n := by rw [hs2.1]; exact hv.size rfl
  refine Sat.bind (applyUpdate_sat hl n s2) (fun u s3 h3 => ?_) (fun x s3 h3 => ?_)
  · obtain ⟨k1, k2⟩ := h3.1 hr hi2 ha2 hb2 hz2
    exact Sat.pure ⟨k1, k2, h3.2.1.trans hst⟩
  · obtain ⟨k1, k2⟩ := h3.1 hr hi2 ha2 hb2 hz2
    exact ⟨k1, k2, h3.2.1.trans hst⟩

theorem runUpdateNoRevocation_frame (hl : c.fw.Local) (s : St) : Sat (runUpdateNoRevocation c e) s (fun _ s' => DevFrame (fun r => r ≠ .staging) s s') := by
  unfold runUpdateNoRevocation
  refine Sat.getBind ?_
  have h0 : Sat ((restoreRecovery c e).onlyIf (c.hasRecovery && s.ram.recoveryBad)) s (fun _ s' => DevFrame (fun r => r ≠ .staging) s s') := by
    unfold M.onlyIf restoreRecovery
    split
    · split
      · exact Sat.throw .refl
      · refine Sat.getBind ?_
        split
        · refine Sat.bind (restoreImage_sat hl .recovery .active true s (by simp)) (fun v s1 h1 => ?_) (fun x s1 h1 => h1.1.mono (by rintro r rfl; simp))
          exact Sat.setRam ((h1.1.mono (by rintro r rfl; simp)).setRam _)
        · exact Sat.throw .refl
    · exact Sat.pure .refl
  refine Sat.bind h0 (fun _ s1 h1 => ?_) (fun x s1 h1 => h1)
  refine Sat.bind (loadAndVerify_sat .staging true false true true true none s1) (fun r s2 h2 => ?_) (fun x s2 h2 => h1.trans' h2.1.toDev)
  refine Sat.bind (applyUpdate_frame hl r.1 s2) (fun u s3 h3 => ?_) (fun x s3 h3 => (h1.trans' h2.1.toDev).trans' h3)
  exact Sat.pure ((h1.trans' h2.1.toDev).trans' h3)

theorem exec_safe (hl : c.fw.Local) (hr : c.hasRecovery = true) (hpg : ∀ n, e.page n = false) (o : Op) (s : St) (hi : Inv c s) (ha : AllSafe c s)
    (hsame : ∀ d ∈ s.trace, d.rev = s.dev.rev) :
    Sat (exec c e o) s (fun _ s' => s'.stale = false → (Inv c s' ∧ AllSafe c s') ∧ Both c s.dev.rev s') := by
  cases o with
  | prepareStaging n => exact (prepareStaging_sat n s).mono fun _ _ h _ => ⟨h.safe hi ha, (both_frame h.1 hsame).2.2⟩
  | setDigest a d => exact (setDigest_sat a d s).mono fun _ _ h _ => ⟨h.safe hi ha, (both_frame h.1 hsame).2.2⟩
  | writeStaging l w => exact (writeStaging_sat l w s).mono fun _ _ h _ => ⟨h.safe hi ha, (both_frame h.1 hsame).2.2⟩
  | runUpdate => exact runUpdate_safe hl hr hpg s hi ha hsame
  | runUpdateNoRevocation =>
    exact ((runUpdateNoRevocation_safe hl hr s hi ha).and (runUpdateNoRevocation_frame hl s)).mono fun _ _ h _ => ⟨⟨h.1.1, h.1.2.1⟩, (both_frame h.2 hsame).2.2⟩
  | runRevocation => exact runRevocation_safe hl hr hpg s hi ha hsame

/-! ### Boot -/

theorem validateRecovery_safe (hr : c.hasRecovery = true) (s : St) (hb : c.fw.boots s.dev.rev (s.dev.mem .active) = true) (ht : s.trace = []) :
    Sat (validateRecovery c e) s (fun _ s' => Inv c s' ∧ AllSafe c s' ∧ s'.stale = s.stale) := by
  unfold validateRecovery
  rw [if_neg (by simp [hr])]
  refine Sat.getBind ?_
  refine Sat.bind (Sat.attempt (Q := fun r s' => ∃ r', r = .ok r' ∧ Still s s' ∧ ∀ n v, r' = .ok (n, v) → Verified c .recovery false false false true s.ram.recoveryRev s s' n v)
    ((loadAndVerify_sat .recovery false true false false true s.ram.recoveryRev s).mono fun r s' h => ⟨r, rfl, h⟩)) (fun r s1 h1 => ?_) (fun x s1 h1 => by simp at h1)
  obtain ⟨r', hr', hs1, hv⟩ := h1
  simp only [Except.ok.injEq] at hr'
  subst hr'
  have hal : AllSafe c s1 := by intro d hd; rw [hs1.2.2.1, ht] at hd; simp at hd
  cases r with
  | ok p =>
    obtain ⟨n, v⟩ := p
    have hv := hv n v rfl
    refine Sat.setRam ⟨⟨fun _ => ?_, by simp⟩, hal, hs1.2.2.2⟩
    show c.fw.boots s1.dev.rev (s1.dev.mem .recovery) = true
    rw [hs1.1]; exact hv.boots
  | error x =>
    refine Sat.setRam ⟨⟨by simp, fun _ => ?_⟩, hal, hs1.2.2.2⟩
    show c.fw.boots s1.dev.rev (s1.dev.mem .active) = true
    rw [hs1.1]; exact hb

theorem compareImages_sat (s : St) : Sat (compareImages c e) s (fun x s' => Still s s' ∧
    ∀ h, x = .ok (true, h) → ∃ n, c.fw.size (s.dev.mem .active) = some n ∧ c.fw.size (s.dev.mem .recovery) = some n ∧
      (s.dev.mem .active).take n = (s.dev.mem .recovery).take n) := by
  unfold compareImages
  refine Sat.bind (load_sat .active s) (fun _ s1 h1 => ?_) (fun x s1 h1 => ⟨h1.1, by simp⟩)
  refine Sat.bind (imageSize_sat s1) (fun n s2 h2 => ?_) (fun x s2 h2 => ⟨h1.1.trans h2.1.still, by simp⟩)
  have hs2 : Still s s2 := h1.1.trans h2.1.still
  have hn := h2.2 n rfl
  rw [(h1.2.1 rfl).1] at hn
  refine Sat.getBind ?_
  dsimp only
  have hc : Sat ((call e).onlyIf (c.fw.header s2.ram.loaded).isSome) s2 (fun _ s' => Quiet s2 s') := by
    unfold M.onlyIf
    split
    · exact call_sat s2
    · exact Sat.pure .refl
  refine Sat.bind hc (fun _ s3 h3 => ?_) (fun x s3 h3 => ⟨hs2.trans h3.still, by simp⟩)
  have hs3 : Still s s3 := hs2.trans h3.still
  refine Sat.bind (load_sat .recovery s3) (fun _ s4 h4 => ?_) (fun x s4 h4 => ⟨hs3.trans h4.1, by simp⟩)
  have hs4 : Still s s4 := hs3.trans h4.1
  refine Sat.bind (imageSize_sat s4) (fun k s5 h5 => ?_) (fun x s5 h5 => ⟨hs4.trans h5.1.still, by simp⟩)
  have hs5 : Still s s5 := hs4.trans h5.1.still
  have hk := h5.2 k rfl
  rw [(h4.2.1 rfl).1, hs3.1] at hk
  split
  · exact Sat.pure ⟨hs5, by simp⟩
  · rename_i hnk
    have hnk : n = k := by simpa using hnk
    subst hnk
    refine Sat.bind (call_sat s5) (fun _ s6 h6 => ?_) (fun x s6 h6 => ⟨hs5.trans h6.still, by simp⟩)
    refine Sat.pure ⟨hs5.trans h6.still, ?_⟩
    intro h hx
    simp only [Except.ok.injEq, Prod.mk.injEq, decide_eq_true_eq] at hx
    exact ⟨n, hn, hk, by rw [hs2.1] at hx; exact hx.1⟩

theorem recoveryMatches_safe (hl : c.fw.Local) (hr : c.hasRecovery = true) (s : St) (hb : c.fw.boots s.dev.rev (s.dev.mem .active) = true) :
    Sat (recoveryMatches c e) s (fun x s' => s'.dev = s.dev ∧ s'.trace = s.trace ∧ s'.stale = s.stale ∧
      (x = .ok true → s'.ram.recoveryBad = false ∧ c.fw.boots s.dev.rev (s.dev.mem .recovery) = true)) := by
  unfold recoveryMatches
  rw [if_neg (by simp [hr])]
  refine Sat.bind (compareImages_sat s) (fun r s1 h1 => ?_) (fun x s1 h1 => ⟨h1.1.1, h1.1.2.2.1, h1.1.2.2.2, by simp⟩)
  obtain ⟨b, h⟩ := r
  obtain ⟨hs1, h1⟩ := h1
  dsimp only
  split
  · rename_i hbt
    subst hbt
    obtain ⟨n, h2, h3, h4⟩ := h1 h rfl
    refine Sat.setRamBind (Sat.pure ⟨hs1.1, hs1.2.2.1, hs1.2.2.2, fun _ => ⟨rfl, ?_⟩⟩)
    have := boots_copy hl (rev := s.dev.rev) (t := (s.dev.mem .recovery).drop n) h2
    rw [h4, List.take_append_drop] at this
    rw [this]; exact hb
  · exact Sat.pure ⟨hs1.1, hs1.2.2.1, hs1.2.2.2, by simp⟩

theorem checkRecovery_safe (hl : c.fw.Local) (hr : c.hasRecovery = true) (s : St) (hb : c.fw.boots s.dev.rev (s.dev.mem .active) = true) (ht : s.trace = []) :
    Sat (checkRecovery c e) s (fun _ s' => Inv c s' ∧ AllSafe c s' ∧ s'.stale = s.stale) := by
  unfold checkRecovery
  refine Sat.getBind ?_
  split
  · rename_i hbad
    refine Sat.pure ⟨⟨fun h => absurd h (by simp [hbad]), fun _ => hb⟩, ?_, rfl⟩
    intro d hd; rw [ht] at hd; simp at hd
  · split
    · refine Sat.bind (Sat.attempt (Q := fun r s' => ∃ r', r = .ok r' ∧ s'.dev = s.dev ∧ s'.trace = s.trace ∧ s'.stale = s.stale ∧
        (r' = .ok true → s'.ram.recoveryBad = false ∧ c.fw.boots s.dev.rev (s.dev.mem .recovery) = true))
        ((recoveryMatches_safe hl hr s hb).mono fun r s' h => ⟨r, rfl, h⟩)) (fun r s1 h1 => ?_) (fun x s1 h1 => by simp at h1)
      obtain ⟨r', hr', hd, htr, hst, h1⟩ := h1
      simp only [Except.ok.injEq] at hr'
      subst hr'
      have hal : AllSafe c s1 := by intro d hd; rw [htr, ht] at hd; simp at hd
      split
      · obtain ⟨g1, g2⟩ := h1 rfl
        refine Sat.pure ⟨⟨fun _ => by rw [hd]; exact g2, fun h => absurd h (by simp [g1])⟩, hal, hst⟩
      · refine Sat.setRam ⟨⟨by simp, fun _ => ?_⟩, hal, hst⟩
        show c.fw.boots s1.dev.rev (s1.dev.mem .active) = true
        rw [hd]; exact hb
    · exact validateRecovery_safe hr s hb ht

theorem restoreActive_safe (hl : c.fw.Local) (s : St) (hb : c.fw.boots s.dev.rev (s.dev.mem .recovery) = true) (hf : s.ram.recoveryBad = false) (ha : AllSafe c s) :
    Sat (restoreActive c e) s (fun _ s' => Inv c s' ∧ AllSafe c s' ∧ s'.stale = s.stale) := by
  have hi : Inv c s := ⟨fun _ => hb, fun h => absurd h (by simp [hf])⟩
  unfold restoreActive
  split
  · exact Sat.throw ⟨hi, ha, rfl⟩
  · have key : ∀ s', DevFrame (fun r => r = .active) s s' → SameRam s.ram s'.ram → Inv c s' ∧ AllSafe c s' ∧ s'.stale = s.stale := by
      intro s' hf' hm
      refine ⟨⟨fun _ => by rw [boots_frame hf' (by simp)]; exact hb, fun h => absurd h (by rw [hm.1, hf]; simp)⟩, allSafe_recovery hf' (by simp) hb ha, hf'.stale⟩
    refine Sat.bind (restoreImage_sat hl .active .recovery false s (by simp)) (fun v s1 h1 => ?_) (fun x s1 h1 => key s1 h1.1 h1.2.1)
    exact Sat.pure (key s1 h1.1 h1.2.1)

theorem handlerPrepare_safe (hl : c.fw.Local) (hr : c.hasRecovery = true) (b : Bool) (d : Dev) (stale : Bool)
    (hb : c.fw.boots d.rev (d.mem (if b then .recovery else .active)) = true) :
    Sat (handlerPrepare c e b) (bootSt d stale) (fun _ s' => Inv c s' ∧ AllSafe c s' ∧ s'.stale = stale) := by
  unfold handlerPrepare
  cases b with
  | true =>
    simp only [if_true] at hb ⊢
    refine Sat.setRamBind ?_
    split
    · refine Sat.pure ⟨⟨fun _ => hb, by simp⟩, by simp [AllSafe, bootSt], rfl⟩
    · refine Sat.bind (Sat.attempt (Q := fun _ s' => Inv c s' ∧ AllSafe c s' ∧ s'.stale = stale)
        (restoreActive_safe hl _ hb rfl (by simp [AllSafe, bootSt]))) (fun r s1 h1 => Sat.pure h1) (fun x s1 h1 => h1)
  | false =>
    simp only [Bool.false_eq_true, if_false] at hb ⊢
    refine Sat.bind (checkRecovery_safe hl hr (bootSt d stale) hb rfl) (fun _ s1 h1 => ?_) (fun x s1 h1 => h1)
    refine Sat.bind (Sat.attempt (Q := fun _ s' => Inv c s' ∧ AllSafe c s' ∧ s'.stale = stale)
      ((restoreRecovery_safe hl s1 h1.1 h1.2.1).mono fun _ s' h => ⟨h.1, h.2.1, h.2.2.trans h1.2.2⟩)) (fun r s2 h2 => Sat.pure h2) (fun x s2 h2 => h2)

end Verif.FwUpdate
