import Verif.FwUpdate.Safe
namespace Verif.FwUpdate
variable {c : Cfg} {e : Env}

/-- The manifest is not used after another image was loaded, unless there is a backup region. -/
def Fresh (c : Cfg) (s s' : St) : Prop := (s.stale = true → s'.stale = true) ∧ (c.hasBackup = false → c.hasRecBackup = false → s'.stale = s.stale)

theorem Fresh.of_eq {s s' : St} (h : s'.stale = s.stale) : Fresh c s s' := ⟨fun hs => h.trans hs, fun _ _ => h⟩
theorem Fresh.trans {a b d : St} (h : Fresh c a b) (h' : Fresh c b d) : Fresh c a d :=
  ⟨fun x => h'.1 (h.1 x), fun x y => (h'.2 x y).trans (h.2 x y)⟩

/-- What processing the revocation establishes. -/
structure Processed (c : Cfg) (src : Reg) (len : Nat) (nr : Option Nat) (u : Bool) (s s' : St) : Prop where
  recovery : s.dev.rev < c.fw.keyId s.ram.loaded ∨ s.ram.recoveryBad = true ∨ s.ram.recoveryRev ≠ nr → c.hasRecovery = true → u = false →
    ∃ t, s'.dev.mem .recovery = (s.dev.mem src).take len ++ t
  kept : u = true → s'.dev.mem .recovery = s.dev.mem .recovery
  rev : s'.stale = false → s'.dev.rev = max s.dev.rev (c.fw.keyId s.ram.loaded)

theorem processRevocation_struct (hl : c.fw.Local) (src : Reg) (len : Nat) (nr : Option Nat) (u : Bool) (s : St) (hsrc : src = .staging ∨ src = .active) :
    Sat (processRevocation c e src len nr u) s (fun x s' => Fresh c s s' ∧ s'.dev.mem .active = s.dev.mem .active ∧ s'.ram.digest = s.ram.digest ∧
      (x = .ok () → Processed c src len nr u s s')) := by
  unfold processRevocation
  refine Sat.bind (call_sat s) (fun _ s0 h0 => ?_) (fun x s0 h0 => ⟨.of_eq h0.2.2.2, by rw [h0.1], by rw [h0.2.1], by simp⟩)
  refine Sat.bind (call_sat s0) (fun _ s1 h01 => ?_) (fun x s1 h01 => ⟨.of_eq (h0.trans h01).2.2.2, by rw [(h0.trans h01).1], by rw [(h0.trans h01).2.1], by simp⟩)
  have h1 : Quiet s s1 := h0.trans h01
  refine Sat.getBind ?_
  dsimp only
  split
  · have hup : Sat ((updateRecovery c e src len).onlyIf (c.hasRecovery && !u)) s1 (fun x s' =>
        DevFrame (fun r => r = .recovery ∨ r = .backup ∨ r = .recBackup) s1 s' ∧ s'.ram.digest = s1.ram.digest ∧
        (s'.ram.gen = s1.ram.gen → s'.ram.loaded = s1.ram.loaded) ∧
        (c.hasBackup = false → c.hasRecBackup = false → s'.ram.gen = s1.ram.gen) ∧
        (x = .ok () → c.hasRecovery = true → u = false → ∃ t, s'.dev.mem .recovery = (s1.dev.mem src).take len ++ t) ∧
        (u = true → s'.dev.mem .recovery = s1.dev.mem .recovery)) := by
      unfold M.onlyIf
      split
      · rename_i hcu
        have hd : Sat (updateRecovery c e src len) s1 (fun _ s' => s'.ram.digest = s1.ram.digest) := by
          unfold updateRecovery
          refine Sat.getBind ?_
          have hne : ∀ r, recoveryBackup c s1.ram = some r → r ≠ .recovery ∧ r ≠ src := by
            intro r hr
            rcases (recoveryBackup_eq _ _ hr).2 with rfl | rfl <;> rcases hsrc with rfl | rfl <;> simp
          refine Sat.bind (writeImage_sat hl .recovery (recoveryBackup c s1.ram) src len s1 (by rcases hsrc with rfl | rfl <;> simp)
            (fun h => (hne _ h).1 rfl) (fun h => (hne _ h).2 rfl)) (fun w s2 h2 => ?_) (fun x s2 h2 => by simp at h2)
          obtain ⟨st, good, hw, h2⟩ := h2
          refine Sat.setRamBind ((orFail_sat w.1 _).mono fun x s3 h3 => ?_)
          rw [h3.1]
          exact h2.frame.ram.2.2.2.1
        have := updateRecovery_sat (e := e) hl src len s1 hsrc
        unfold Sat at this
        refine ⟨this.1, hd, this.2.2.1, fun hb hrb => this.2.2.2.1 ?_, fun hx _ _ => (this.2.2.2.2.1 hx).2, fun hu => ?_⟩
        · simp [recoveryBackup, hb, hrb]
        · simp [hu] at hcu
      · rename_i hcu
        refine Sat.pure ⟨.refl, rfl, fun _ => rfl, fun _ _ => rfl, fun _ hr hu => ?_, fun _ => rfl⟩
        simp [hr, hu] at hcu
    refine Sat.bind hup (fun _ s2 h2 => ?_) (fun x s2 h2 =>
      ⟨.of_eq (h2.1.stale.trans h1.2.2.2), by rw [h2.1.dev.2 .active (by simp), h1.1], by rw [h2.2.1, h1.2.1], by simp⟩)
    obtain ⟨hf2, hd2, hload2, hgen2, hok2, hkeep2⟩ := h2
    refine Sat.setRamBind ?_
    have hst2 : s2.stale = s.stale := hf2.stale.trans h1.2.2.2
    have hact2 : s2.dev.mem .active = s.dev.mem .active := by rw [hf2.dev.2 .active (by simp), h1.1]
    have hrev2 : s2.dev.rev = s.dev.rev := by rw [hf2.dev.1, h1.1]
    unfold M.onlyIf
    split
    · refine (revoke_sat s1.ram.gen _).mono fun x s3 h3 => ?_
      obtain ⟨hm3, hs3, hmem3, h3⟩ := h3
      refine ⟨⟨fun h => ?_, fun hb hrb => ?_⟩, by rw [hmem3]; exact hact2, by rw [hm3, ← h1.2.1]; exact hd2, fun hx => ⟨fun _ hr hu => ?_, fun hu => ?_, fun hst => ?_⟩⟩
      · rw [hs3]; simp [hst2, h]
      · rw [hs3]; simp [hst2, hgen2 hb hrb]
      · rw [hmem3, ← h1.1]; exact hok2 rfl hr hu
      · rw [hmem3, ← h1.1]; exact hkeep2 hu
      · rw [hst] at hs3
        have hs3' := hs3.symm
        simp only [Bool.or_eq_false_iff, decide_eq_false_iff_not, ne_eq, Decidable.not_not] at hs3'
        rcases h3 with ⟨_, _, hn⟩ | ⟨hrev, _⟩
        · exact absurd hx hn
        · rw [hrev]
          show max s2.dev.rev (c.fw.keyId s2.ram.loaded) = _
          rw [hrev2, hload2 hs3'.2, h1.2.1]
    · rename_i hnr
      refine Sat.pure ⟨.of_eq hst2, hact2, by rw [← h1.2.1]; exact hd2, fun _ => ⟨fun _ hr hu => ?_, fun hu => ?_, fun _ => ?_⟩⟩
      · rw [← h1.1]; exact hok2 rfl hr hu
      · rw [← h1.1]; exact hkeep2 hu
      · have hnr : ¬ s1.dev.rev < c.fw.keyId s1.ram.loaded := by simpa using hnr
        show s2.dev.rev = _
        rw [h1.1, h1.2.1] at hnr
        rw [hrev2]; omega
  · rename_i hnn
    simp only [Bool.or_eq_true, decide_eq_true_eq, not_or] at hnn
    obtain ⟨⟨n1, n2⟩, n3⟩ := hnn
    rw [h1.1, h1.2.1] at n1
    rw [h1.2.1] at n2 n3
    refine Sat.pure ⟨.of_eq h1.2.2.2, by rw [h1.1], by rw [h1.2.1], fun _ => ⟨fun h => ?_, fun _ => by rw [h1.1], fun _ => ?_⟩⟩
    · rcases h with h | h | h
      · exact absurd h n1
      · exact absurd h n2
      · exact absurd h n3
    · rw [h1.1]; omega

/-- Every request only makes the flag go up, and not at all without backup regions. -/
theorem exec_fresh (hl : c.fw.Local) (o : Op) (s : St) : Sat (exec c e o) s (fun _ s' => Fresh c s s') := by
  cases o with
  | prepareStaging n => exact (prepareStaging_sat n s).mono fun _ _ h => .of_eq h.1.stale
  | setDigest a d => exact (setDigest_sat a d s).mono fun _ _ h => .of_eq h.1.stale
  | writeStaging l w => exact (writeStaging_sat l w s).mono fun _ _ h => .of_eq h.1.stale
  | runUpdate =>
    show Sat (runUpdate c e) s _
    unfold runUpdate
    refine Sat.getBind ?_
    refine Sat.bind (loadAndVerify_sat .staging true false true true true s.ram.recoveryRev s) (fun r s1 h1 => ?_) (fun x s1 h1 => .of_eq h1.1.2.2.2)
    refine Sat.bind (applyUpdate_sat hl r.1 s1) (fun u s2 h2 => ?_) (fun x s2 h2 => .of_eq (h2.2.1.trans h1.1.2.2.2))
    refine Sat.bind (load_sat .active s2) (fun _ s3 h3 => ?_) (fun x s3 h3 => .of_eq (h3.1.2.2.2.trans (h2.2.1.trans h1.1.2.2.2)))
    refine (processRevocation_struct hl .staging r.1 r.2 u s3 (.inl rfl)).mono fun x s4 h4 => ?_
    exact (Fresh.of_eq (h3.1.2.2.2.trans (h2.2.1.trans h1.1.2.2.2))).trans h4.1
  | runUpdateNoRevocation =>
    show Sat (runUpdateNoRevocation c e) s _
    unfold runUpdateNoRevocation
    refine Sat.getBind ?_
    have h0 : Sat ((restoreRecovery c e).onlyIf (c.hasRecovery && s.ram.recoveryBad)) s (fun _ s' => s'.stale = s.stale) := by
      unfold M.onlyIf restoreRecovery
      split
      · split
        · exact Sat.throw rfl
        · refine Sat.getBind ?_
          split
          · refine Sat.bind (restoreImage_sat hl .recovery .active true s (by simp)) (fun v s1 h1 => ?_) (fun x s1 h1 => h1.1.stale)
            exact Sat.setRam h1.1.stale
          · exact Sat.throw rfl
      · exact Sat.pure rfl
    refine Sat.bind h0 (fun _ s1 h1 => ?_) (fun x s1 h1 => .of_eq h1)
    refine Sat.bind (loadAndVerify_sat .staging true false true true true none s1) (fun r s2 h2 => ?_) (fun x s2 h2 => .of_eq (h2.1.2.2.2.trans h1))
    refine Sat.bind (applyUpdate_sat hl r.1 s2) (fun u s3 h3 => ?_) (fun x s3 h3 => .of_eq (h3.2.1.trans (h2.1.2.2.2.trans h1)))
    exact Sat.pure (.of_eq (h3.2.1.trans (h2.1.2.2.2.trans h1)))
  | runRevocation =>
    show Sat (runRevocation c e) s _
    unfold runRevocation
    refine Sat.getBind ?_
    refine Sat.bind (loadAndVerify_sat .active false false false true true s.ram.recoveryRev s) (fun r s1 h1 => ?_) (fun x s1 h1 => .of_eq h1.1.2.2.2)
    refine (processRevocation_struct hl .active r.1 r.2 false s1 (.inr rfl)).mono fun x s4 h4 => ?_
    exact (Fresh.of_eq h1.1.2.2.2).trans h4.1

theorem handlerPrepare_stale (hl : c.fw.Local) (b : Bool) (s : St) : Sat (handlerPrepare c e b) s (fun _ s' => s'.stale = s.stale) := by
  unfold handlerPrepare
  split
  · refine Sat.setRamBind ?_
    split
    · exact Sat.pure rfl
    · have h : Sat (restoreActive c e) { s with ram := { s.ram with recoveryBad := false } } (fun _ s' => s'.stale = s.stale) := by
        unfold restoreActive
        split
        · exact Sat.throw rfl
        · refine Sat.bind (restoreImage_sat hl .active .recovery false _ (by simp)) (fun v s1 h1 => ?_) (fun x s1 h1 => h1.1.stale)
          exact Sat.pure h1.1.stale
      refine Sat.bind (Sat.attempt (Q := fun _ s' => s'.stale = s.stale) h) (fun r s1 h1 => Sat.pure h1) (fun x s1 h1 => h1)
  · have hc : Sat (checkRecovery c e) s (fun _ s' => s'.stale = s.stale) := by
      unfold checkRecovery
      refine Sat.getBind ?_
      split
      · exact Sat.pure rfl
      · split
        · have hm : Sat (recoveryMatches c e) s (fun _ s' => s'.stale = s.stale) := by
            unfold recoveryMatches
            split
            · exact Sat.pure rfl
            · refine Sat.bind (compareImages_sat s) (fun r s1 h1 => ?_) (fun x s1 h1 => h1.1.2.2.2)
              split
              · exact Sat.setRamBind (Sat.pure h1.1.2.2.2)
              · exact Sat.pure h1.1.2.2.2
          refine Sat.bind (Sat.attempt (Q := fun _ s' => s'.stale = s.stale) hm) (fun r s1 h1 => ?_) (fun x s1 h1 => h1)
          split
          · exact Sat.pure h1
          · exact Sat.setRam h1
        · unfold validateRecovery
          split
          · exact Sat.pure rfl
          · refine Sat.getBind ?_
            refine Sat.bind (Sat.attempt (Q := fun _ s' => s'.stale = s.stale)
              ((loadAndVerify_sat .recovery false true false false true s.ram.recoveryRev s).mono fun _ _ h => h.1.2.2.2)) (fun r s1 h1 => ?_) (fun x s1 h1 => h1)
            cases r with
            | ok _ => exact Sat.setRam h1
            | error _ => exact Sat.setRam h1
    refine Sat.bind hc (fun _ s1 h1 => ?_) (fun x s1 h1 => h1)
    have h : Sat (restoreRecovery c e) s1 (fun _ s' => s'.stale = s.stale) := by
      unfold restoreRecovery
      split
      · exact Sat.throw h1
      · refine Sat.getBind ?_
        split
        · refine Sat.bind (restoreImage_sat hl .recovery .active true s1 (by simp)) (fun v s2 h2 => ?_) (fun x s2 h2 => h2.1.stale.trans h1)
          exact Sat.setRam (h2.1.stale.trans h1)
        · exact Sat.throw h1
    exact Sat.bind (Sat.attempt (Q := fun _ s' => s'.stale = s.stale) h) (fun r s2 h2 => Sat.pure h2) (fun x s2 h2 => h2)

end Verif.FwUpdate
