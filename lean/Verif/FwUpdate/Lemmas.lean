import Verif.FwUpdate.Spec
namespace Verif.FwUpdate

/-! ### A small program logic -/

def Sat {α : Type} (m : M α) (s : St) (Q : Except Err α → St → Prop) : Prop := Q (m s).1 (m s).2

theorem Sat.mono {α : Type} {m : M α} {s : St} {P Q : Except Err α → St → Prop} (h : Sat m s P) (hpq : ∀ r s', P r s' → Q r s') : Sat m s Q :=
  hpq _ _ h

theorem Sat.and {α : Type} {m : M α} {s : St} {P Q : Except Err α → St → Prop} (h : Sat m s P) (h' : Sat m s Q) : Sat m s (fun r s' => P r s' ∧ Q r s') := ⟨h, h'⟩

theorem Sat.bind {α β : Type} {m : M α} {f : α → M β} {s : St} {P : Except Err α → St → Prop} {Q : Except Err β → St → Prop} (h : Sat m s P)
    (hok : ∀ a s', P (.ok a) s' → Sat (f a) s' Q) (herr : ∀ x s', P (.error x) s' → Q (.error x) s') : Sat (m >>= f) s Q := by
  show Q (M.bind m f s).1 (M.bind m f s).2
  unfold Sat at h
  unfold M.bind
  rcases hm : m s with ⟨r, s'⟩
  rw [hm] at h
  cases r with
  | ok a => exact hok a s' h
  | error x => exact herr x s' h

theorem Sat.attempt {α : Type} {m : M α} {s : St} {Q : Except Err (Except Err α) → St → Prop} (h : Sat m s (fun r s' => Q (.ok r) s')) :
    Sat m.attempt s Q := h

theorem Sat.get {s : St} {Q : Except Err St → St → Prop} (h : Q (.ok s) s) : Sat get s Q := h
theorem Sat.pure {α : Type} {a : α} {s : St} {Q : Except Err α → St → Prop} (h : Q (.ok a) s) : Sat (Pure.pure a : M α) s Q := h
theorem Sat.throw {α : Type} {x : Err} {s : St} {Q : Except Err α → St → Prop} (h : Q (.error x) s) : Sat (M.throw x : M α) s Q := h
theorem Sat.getBind {β : Type} {f : St → M β} {s : St} {Q : Except Err β → St → Prop} (h : Sat (f s) s Q) : Sat (FwUpdate.get >>= f) s Q := h
theorem Sat.pureBind {α β : Type} {a : α} {f : α → M β} {s : St} {Q : Except Err β → St → Prop} (h : Sat (f a) s Q) :
    Sat ((Pure.pure a : M α) >>= f) s Q := h
theorem Sat.setRam {f : Ram → Ram} {s : St} {Q : Except Err Unit → St → Prop} (h : Q (.ok ()) { s with ram := f s.ram }) : Sat (setRam f) s Q := h
theorem Sat.setRamBind {β : Type} {f : Ram → Ram} {g : Unit → M β} {s : St} {Q : Except Err β → St → Prop} (h : Sat (g ()) { s with ram := f s.ram } Q) :
    Sat (FwUpdate.setRam f >>= g) s Q := h

/-! ### Frames -/

/-- The same device outside the regions `w`. -/
def Agree (w : Reg → Prop) (d d' : Dev) : Prop := d'.rev = d.rev ∧ ∀ r, ¬ w r → d'.mem r = d.mem r

theorem Agree.refl {w : Reg → Prop} {d : Dev} : Agree w d d := ⟨rfl, fun _ _ => rfl⟩
theorem Agree.trans {w w' v : Reg → Prop} {a b d : Dev} (h : Agree w a b) (h' : Agree w' b d) (hw : ∀ r, w r → v r) (hw' : ∀ r, w' r → v r) : Agree v a d :=
  ⟨h'.1.trans h.1, fun r hr => (h'.2 r (fun x => hr (hw' r x))).trans (h.2 r (fun x => hr (hw r x)))⟩

/-- Volatile state that is the same but for the loaded image. -/
def SameRam (m m' : Ram) : Prop :=
  m'.recoveryBad = m.recoveryBad ∧ m'.recoveryRev = m.recoveryRev ∧ m'.imgLength = m.imgLength ∧ m'.digest = m.digest ∧ m'.remaining = m.remaining ∧
  m'.writeOffset = m.writeOffset ∧ m.gen ≤ m'.gen ∧ (m'.gen = m.gen → m'.loaded = m.loaded)

theorem SameRam.refl {m : Ram} : SameRam m m := ⟨rfl, rfl, rfl, rfl, rfl, rfl, Nat.le_refl _, fun _ => rfl⟩
theorem SameRam.trans {a b d : Ram} (h : SameRam a b) (h' : SameRam b d) : SameRam a d := by
  obtain ⟨h1, h2, h3, h4, h5, h6, h7, h8⟩ := h
  obtain ⟨k1, k2, k3, k4, k5, k6, k7, k8⟩ := h'
  exact ⟨k1.trans h1, k2.trans h2, k3.trans h3, k4.trans h4, k5.trans h5, k6.trans h6, Nat.le_trans h7 k7,
    fun h => (k8 (by omega)).trans (h8 (by omega))⟩

/-- Only the regions `w` were written. -/
structure Frame (w : Reg → Prop) (s s' : St) : Prop where
  trace : ∃ t, s'.trace = s.trace ++ t ∧ ∀ d ∈ t, Agree w s.dev d
  dev : Agree w s.dev s'.dev
  ram : SameRam s.ram s'.ram
  stale : s'.stale = s.stale

theorem Frame.refl {w : Reg → Prop} {s : St} : Frame w s s := ⟨⟨[], by simp, by simp⟩, Agree.refl, SameRam.refl, rfl⟩

theorem Frame.trans {w w' v : Reg → Prop} {a b d : St} (h : Frame w a b) (h' : Frame w' b d) (hw : ∀ r, w r → v r) (hw' : ∀ r, w' r → v r) : Frame v a d := by
  obtain ⟨⟨t, ht, hta⟩, h2, h3, h4⟩ := h
  obtain ⟨⟨u, hu, hua⟩, k2, k3, k4⟩ := h'
  refine ⟨⟨t ++ u, by rw [hu, ht, List.append_assoc], ?_⟩, h2.trans k2 hw hw', h3.trans k3, k4.trans h4⟩
  intro x hx
  rcases List.mem_append.mp hx with h | h
  · exact (hta x h).trans (Agree.refl (w := w)) hw hw
  · exact h2.trans (hua x h) hw hw'

theorem Frame.trans' {w : Reg → Prop} {a b d : St} (h : Frame w a b) (h' : Frame w b d) : Frame w a d := h.trans h' (fun _ x => x) (fun _ x => x)
theorem Frame.mono {w v : Reg → Prop} {a b : St} (h : Frame w a b) (hw : ∀ r, w r → v r) : Frame v a b := h.trans (Frame.refl (w := v)) hw (fun _ x => x)

/-- Nothing but the count of choices changed. -/
def Quiet (s s' : St) : Prop := s'.dev = s.dev ∧ s'.ram = s.ram ∧ s'.trace = s.trace ∧ s'.stale = s.stale

theorem Quiet.frame {w : Reg → Prop} {s s' : St} (h : Quiet s s') : Frame w s s' := by
  obtain ⟨h1, h2, h3, h4⟩ := h
  exact ⟨⟨[], by simp [h3], by simp⟩, h1 ▸ Agree.refl, h2 ▸ SameRam.refl, h4⟩

theorem Quiet.refl {s : St} : Quiet s s := ⟨rfl, rfl, rfl, rfl⟩
theorem Quiet.trans {a b d : St} (h : Quiet a b) (h' : Quiet b d) : Quiet a d :=
  ⟨h'.1.trans h.1, h'.2.1.trans h.2.1, h'.2.2.1.trans h.2.2.1, h'.2.2.2.trans h.2.2.2⟩

/-- Nothing but the loaded image changed. -/
def Still (s s' : St) : Prop := s'.dev = s.dev ∧ SameRam s.ram s'.ram ∧ s'.trace = s.trace ∧ s'.stale = s.stale

theorem Still.refl {s : St} : Still s s := ⟨rfl, SameRam.refl, rfl, rfl⟩
theorem Quiet.still {s s' : St} (h : Quiet s s') : Still s s' := ⟨h.1, h.2.1 ▸ SameRam.refl, h.2.2.1, h.2.2.2⟩
theorem Still.trans {a b d : St} (h : Still a b) (h' : Still b d) : Still a d :=
  ⟨h'.1.trans h.1, h.2.1.trans h'.2.1, h'.2.2.1.trans h.2.2.1, h'.2.2.2.trans h.2.2.2⟩
theorem Still.frame {w : Reg → Prop} {s s' : St} (h : Still s s') : Frame w s s' := by
  obtain ⟨h1, h2, h3, h4⟩ := h
  exact ⟨⟨[], by simp [h3], by simp⟩, h1 ▸ Agree.refl, h2, h4⟩

variable {c : Cfg} {e : Env}

theorem call_sat (s : St) : Sat (call e) s (fun _ s' => Quiet s s') := ⟨rfl, rfl, rfl, rfl⟩
theorem choose_sat (s : St) : Sat (choose e) s (fun r s' => (∃ j, r = .ok j) ∧ Quiet s s') := ⟨⟨_, rfl⟩, rfl, rfl, rfl, rfl⟩
theorem pageSize_sat (s : St) : Sat (pageSize e) s (fun r s' => Quiet s s' ∧ ((∀ n, e.page n = false) → r = .ok ())) := by
  refine ⟨⟨rfl, rfl, rfl, rfl⟩, fun h => ?_⟩
  simp [pageSize, h]

theorem setDev_sat (f : Dev → Dev) (w : Reg → Prop) (s : St) (h : Agree w s.dev (f s.dev)) :
    Sat (setDev f) s (fun r s' => r = .ok () ∧ Frame w s s' ∧ s'.dev = f s.dev ∧ s'.ram = s.ram) := by
  refine ⟨rfl, ⟨⟨[f s.dev], rfl, ?_⟩, h, SameRam.refl, rfl⟩, rfl, rfl⟩
  intro d hd
  rw [List.mem_singleton.mp hd]
  exact h

theorem agree_set (d : Dev) (r : Reg) (x : Bytes) : Agree (fun y => y = r) d (d.set r x) :=
  ⟨rfl, fun y hy => by simp [Dev.set, hy]⟩

theorem set_same (d : Dev) (r : Reg) (x : Bytes) : (d.set r x).mem r = x := by simp [Dev.set]
theorem set_other (d : Dev) (r y : Reg) (x : Bytes) (h : y ≠ r) : (d.set r x).mem y = d.mem y := by simp [Dev.set, h]

/-- What holds of a computation that only writes a region and does not load an image. -/
def Only (w : Reg → Prop) (s s' : St) : Prop := Frame w s s' ∧ s'.ram = s.ram

theorem Only.trans {w v : Reg → Prop} {a b d : St} (h : Only w a b) (h' : Only v b d) (hw : ∀ r, w r → v r) : Only v a d :=
  ⟨h.1.trans h'.1 hw (fun _ x => x), h'.2.trans h.2⟩
theorem Only.trans' {w : Reg → Prop} {a b d : St} (h : Only w a b) (h' : Only w b d) : Only w a d := h.trans h' (fun _ x => x)
theorem Quiet.only {w : Reg → Prop} {s s' : St} (h : Quiet s s') : Only w s s' := ⟨h.frame, h.2.1⟩

theorem erase_sat (r : Reg) (s : St) : Sat (erase e r) s (fun _ s' => Only (fun y => y = r) s s') := by
  unfold erase
  refine Sat.bind (choose_sat s) (fun j s1 h1 => ?_) (fun x s1 h1 => ?_)
  · refine Sat.bind (setDev_sat _ (fun y => y = r) s1 (agree_set _ r j)) (fun _ s2 h2 => ?_) (fun x s2 h2 => by simp at h2)
    refine (call_sat s2).mono fun r' s3 h3 => ?_
    exact (h1.2.only.trans' (b := s1) ⟨h2.2.1, h2.2.2.2⟩).trans' h3.only
  · simp at h1

theorem copy_sat (dest src : Reg) (len : Nat) (s : St) (hds : dest ≠ src) :
    Sat (copy e dest src len) s (fun r s' => Only (fun y => y = dest) s s' ∧ (r = .ok () → ∃ t, s'.dev.mem dest = (s.dev.mem src).take len ++ t)) := by
  unfold copy
  refine Sat.bind (choose_sat s) (fun j s1 h1 => ?_) (fun x s1 h1 => by simp at h1)
  refine Sat.bind (setDev_sat _ (fun y => y = dest) s1 (agree_set _ dest j)) (fun _ s2 h2 => ?_) (fun x s2 h2 => by simp at h2)
  have h12 : Only (fun y => y = dest) s s2 := h1.2.only.trans' ⟨h2.2.1, h2.2.2.2⟩
  refine Sat.bind (call_sat s2) (fun _ s3 h3 => ?_) (fun x s3 h3 => ⟨h12.trans' h3.only, by simp⟩)
  refine Sat.bind (choose_sat s3) (fun t s4 h4 => ?_) (fun x s4 h4 => by simp at h4)
  have h14 : Only (fun y => y = dest) s s4 := (h12.trans' h3.only).trans' h4.2.only
  refine (setDev_sat _ (fun y => y = dest) s4 (agree_set _ dest _)).mono fun r s5 h5 => ⟨h14.trans' ⟨h5.2.1, h5.2.2.2⟩, fun _ => ⟨t, ?_⟩⟩
  rw [h5.2.2.1, set_same, h14.1.dev.2 src (fun h => hds h.symm)]

theorem load_sat (r : Reg) (s : St) : Sat (load c e r) s (fun x s' => Still s s' ∧
    (x = .ok () → s'.ram.loaded = s.dev.mem r ∧ s'.ram.gen = s.ram.gen + 1 ∧ c.fw.size (s.dev.mem r) ≠ none) ∧
    (x ≠ .ok () → s'.ram = s.ram)) := by
  unfold load
  refine Sat.bind (call_sat s) (fun _ s1 h1 => ?_) (fun x s1 h1 => ⟨h1.still, by simp, fun _ => h1.2.1⟩)
  refine Sat.getBind ?_
  split
  · exact Sat.throw ⟨h1.still, by simp, fun _ => h1.2.1⟩
  · rename_i hz
    refine Sat.setRam ⟨?_, fun _ => ⟨?_, ?_, ?_⟩, by simp⟩
    · exact h1.still.trans ⟨rfl, ⟨rfl, rfl, rfl, rfl, rfl, rfl, Nat.le_succ _, fun h => absurd h (Nat.succ_ne_self _)⟩, rfl, rfl⟩
    · simp [h1.1]
    · simp [h1.2.1]
    · rw [← h1.1]; exact hz

theorem imageSize_sat (s : St) : Sat (imageSize c e) s (fun x s' => Quiet s s' ∧ ∀ n, x = .ok n → c.fw.size s.ram.loaded = some n) := by
  unfold imageSize
  refine Sat.bind (call_sat s) (fun _ s1 h1 => ?_) (fun x s1 h1 => ⟨h1, by simp⟩)
  refine Sat.getBind ?_
  split
  · rename_i n hn
    refine Sat.pure ⟨h1, fun m hm => ?_⟩
    rw [← h1.2.1, hn]; simpa using hm
  · exact Sat.throw ⟨h1, by simp⟩

theorem verify_sat (s : St) : Sat (verify c e) s (fun x s' => Quiet s s' ∧ (x = .ok () → c.fw.boots s.dev.rev s.ram.loaded = true)) := by
  unfold verify
  refine Sat.bind (call_sat s) (fun _ s1 h1 => ?_) (fun x s1 h1 => ⟨h1, by simp⟩)
  refine Sat.getBind ?_
  split
  · rename_i h
    refine Sat.pure ⟨h1, fun _ => ?_⟩
    rw [← h1.1, ← h1.2.1]; exact h
  · exact Sat.throw ⟨h1, by simp⟩

/-- What the checks on the received bytes establish. -/
def BytesOk (c : Cfg) (m : Ram) (x : Bytes) : Prop :=
  m.remaining = 0 ∧ ∀ alg dig, m.digest = some (alg, dig) → c.hash alg (x.take m.imgLength) = dig

theorem checkBytes_sat (r : Reg) (s : St) : Sat (checkBytes c e r) s (fun x s' => Quiet s s' ∧ (x = .ok () → BytesOk c s.ram (s.dev.mem r))) := by
  unfold checkBytes
  refine Sat.getBind ?_
  split
  · exact Sat.throw ⟨.refl, by simp⟩
  · split
    · exact Sat.throw ⟨.refl, by simp⟩
    · have h0 : s.ram.remaining = 0 := by omega
      split
      · rename_i hd
        exact Sat.pure ⟨.refl, fun _ => ⟨h0, by simp [hd]⟩⟩
      · rename_i alg dig hd
        refine Sat.bind (call_sat s) (fun _ s1 h1 => ?_) (fun x s1 h1 => ⟨h1, by simp⟩)
        split
        · rename_i hh
          refine Sat.pure ⟨h1, fun _ => ⟨h0, ?_⟩⟩
          intro a b hab
          rw [hd] at hab
          simp only [Option.some.injEq, Prod.mk.injEq] at hab
          rw [← hab.1, ← hab.2]; exact hh
        · exact Sat.throw ⟨h1, by simp⟩

/-- What the check of the revision establishes. -/
def RevOk (c : Cfg) (rollback : Bool) (x : Bytes) : Prop :=
  (c.fw.header x = none → c.noFwHeader = true) ∧ ∀ v, c.fw.header x = some v → rollback = true → c.antiRollback = true → c.minRev ≤ v

theorem checkRevision_sat (rb : Bool) (old : Option Nat) (s : St) : Sat (checkRevision c e rb old) s (fun x s' => Quiet s s' ∧
    ∀ v, x = .ok v → RevOk c rb s.ram.loaded ∧ v = (c.fw.header s.ram.loaded).or old) := by
  unfold checkRevision
  refine Sat.getBind ?_
  split
  · rename_i v hv
    refine Sat.bind (call_sat s) (fun _ s1 h1 => ?_) (fun x s1 h1 => ⟨h1, by simp⟩)
    split
    · exact Sat.throw ⟨h1, by simp⟩
    · rename_i hn
      refine Sat.pure ⟨h1, fun w hw => ⟨⟨by simp [hv], ?_⟩, ?_⟩⟩
      · intro v' hv' hr ha
        rw [hv] at hv'
        simp only [Option.some.injEq] at hv'
        subst hv'
        simp only [hr, ha, Bool.and_self, Bool.true_and, decide_eq_true_eq] at hn
        omega
      · rw [hv]; simpa using hw.symm
  · rename_i hv
    split
    · rename_i hh
      refine Sat.pure ⟨.refl, fun w hw => ⟨⟨fun _ => hh, by simp [hv]⟩, ?_⟩⟩
      rw [hv]; simpa using hw.symm
    · exact Sat.throw ⟨.refl, by simp⟩

/-- What `loadAndVerify` establishes. -/
structure Verified (c : Cfg) (r : Reg) (bytes rollback wantSize wantRev : Bool) (old : Option Nat) (s s' : St) (n : Nat) (v : Option Nat) : Prop where
  loaded : s'.ram.loaded = s.dev.mem r
  boots : c.fw.boots s.dev.rev (s.dev.mem r) = true
  size : wantSize = true → c.fw.size (s.dev.mem r) = some n
  bytes : bytes = true → BytesOk c s.ram (s.dev.mem r)
  rev : wantRev = true → RevOk c rollback (s.dev.mem r) ∧ v = (c.fw.header (s.dev.mem r)).or old

theorem loadAndVerify_sat (r : Reg) (bytes bi rb ws wr : Bool) (old : Option Nat) (s : St) :
    Sat (loadAndVerify c e r bytes bi rb ws wr old) s (fun x s' => Still s s' ∧ ∀ n v, x = .ok (n, v) → Verified c r bytes rb ws wr old s s' n v) := by
  unfold loadAndVerify
  have hb : Sat ((checkBytes c e r).onlyIf bytes) s (fun x s' => Quiet s s' ∧ (x = .ok () → bytes = true → BytesOk c s.ram (s.dev.mem r))) := by
    unfold M.onlyIf
    split
    · exact (checkBytes_sat r s).mono fun x s' h => ⟨h.1, fun hx _ => h.2 hx⟩
    · rename_i hf
      exact Sat.pure ⟨.refl, fun _ ht => absurd ht hf⟩
  refine Sat.bind hb (fun _ s1 h1 => ?_) (fun x s1 h1 => ⟨h1.1.still, by simp⟩)
  have hby := h1.2 rfl
  refine Sat.bind (load_sat r s1) (fun _ s2 h2 => ?_) (fun x s2 h2 => ⟨h1.1.still.trans h2.1, by simp⟩)
  have hs2 : Still s s2 := h1.1.still.trans h2.1
  have hl2 : s2.ram.loaded = s.dev.mem r := by rw [(h2.2.1 rfl).1, h1.1.1]
  refine Sat.bind (verify_sat s2) (fun _ s3 h3 => ?_) (fun x s3 h3 => ⟨hs2.trans h3.1.still, by simp⟩)
  have hs3 : Still s s3 := hs2.trans h3.1.still
  have hv : c.fw.boots s.dev.rev (s.dev.mem r) = true := by
    have := h3.2 rfl
    rwa [hl2, hs2.1] at this
  have hi : Sat ((call e).onlyIf bi) s3 (fun _ s' => Quiet s3 s') := by
    unfold M.onlyIf
    split
    · exact call_sat s3
    · exact Sat.pure .refl
  refine Sat.bind hi (fun _ s4 h4 => ?_) (fun x s4 h4 => ⟨hs3.trans h4.still, by simp⟩)
  have hs4 : Still s s4 := hs3.trans h4.still
  have hl4 : s4.ram.loaded = s.dev.mem r := by rw [h4.2.1, h3.1.2.1, hl2]
  have hz : Sat (askSize c e ws) s4 (fun x s' => Quiet s4 s' ∧ ∀ n, x = .ok n → ws = true → c.fw.size s4.ram.loaded = some n) := by
    unfold askSize
    split
    · exact (imageSize_sat s4).mono fun x s' h => ⟨h.1, fun n hn _ => h.2 n hn⟩
    · rename_i hf
      exact Sat.pure ⟨.refl, fun n _ ht => absurd ht hf⟩
  refine Sat.bind hz (fun n s5 h5 => ?_) (fun x s5 h5 => ⟨hs4.trans h5.1.still, by simp⟩)
  have hs5 : Still s s5 := hs4.trans h5.1.still
  have hsz := h5.2 n rfl
  rw [hl4] at hsz
  have hl5 : s5.ram.loaded = s.dev.mem r := by rw [h5.1.2.1, hl4]
  split
  · refine Sat.bind (checkRevision_sat rb old s5) (fun v s6 h6 => ?_) (fun x s6 h6 => ⟨hs5.trans h6.1.still, by simp⟩)
    have hr := h6.2 v rfl
    rw [hl5] at hr
    refine Sat.pure ⟨hs5.trans h6.1.still, ?_⟩
    intro n' v' hnv
    simp only [Except.ok.injEq, Prod.mk.injEq] at hnv
    rw [← hnv.1, ← hnv.2]
    exact ⟨by rw [h6.1.2.1, hl5], hv, hsz, hby, fun _ => hr⟩
  · rename_i hf
    refine Sat.pure ⟨hs5, ?_⟩
    intro n' v' hnv
    simp only [Except.ok.injEq, Prod.mk.injEq] at hnv
    rw [← hnv.1, ← hnv.2]
    exact ⟨hl5, hv, hsz, hby, fun ht => absurd ht hf⟩

/-! ### Writing an image -/

/-- What `writeImage` establishes for a status and the flag. -/
structure Written (c : Cfg) (e : Env) (dest : Reg) (backup : Option Reg) (src : Reg) (len : Nat) (s s' : St) (st : Option Err) (good : Bool) : Prop where
  frame : Frame (fun r => r = dest ∨ backup = some r) s s'
  done : st = none → good = true ∧ ∃ t, s'.dev.mem dest = (s.dev.mem src).take len ++ t
  kept : st ≠ none → good = true → s'.dev.mem dest = s.dev.mem dest ∨
    (backup ≠ none ∧ ∃ n t, c.fw.size (s.dev.mem dest) = some n ∧ s'.dev.mem dest = (s.dev.mem dest).take n ++ t)
  noBackup : backup = none → s'.ram = s.ram ∧ ((∀ n, e.page n = false) → st ≠ none → good = false)

theorem install_sat (dest src : Reg) (len : Nat) (s : St) (hds : dest ≠ src) :
    Sat (install e dest src len) s (fun r s' => Only (fun y => y = dest) s s' ∧ (r = .ok () → ∃ t, s'.dev.mem dest = (s.dev.mem src).take len ++ t)) := by
  unfold install
  refine Sat.bind (copy_sat dest src len s hds) (fun _ s1 h1 => ?_) (fun x s1 h1 => ⟨h1.1, by simp⟩)
  refine (call_sat s1).mono fun r s2 h2 => ⟨h1.1.trans' h2.only, fun _ => ?_⟩
  obtain ⟨t, ht⟩ := h1.2 rfl
  exact ⟨t, by rw [h2.1, ht]⟩

theorem restoreBackup_sat (dest b : Reg) (n : Nat) (s : St) (hdb : dest ≠ b) :
    Sat (restoreBackup e dest b n) s (fun r s' => Only (fun y => y = dest) s s' ∧ (r = .ok () → ∃ t, s'.dev.mem dest = (s.dev.mem b).take n ++ t)) := by
  unfold restoreBackup
  refine Sat.bind (erase_sat dest s) (fun _ s1 h1 => ?_) (fun x s1 h1 => ⟨h1, by simp⟩)
  refine Sat.bind (copy_sat dest b n s1 hdb) (fun _ s2 h2 => ?_) (fun x s2 h2 => ⟨h1.trans' h2.1, by simp⟩)
  refine (call_sat s2).mono fun r s3 h3 => ⟨(h1.trans' h2.1).trans' h3.only, fun _ => ?_⟩
  obtain ⟨t, ht⟩ := h2.2 rfl
  exact ⟨t, by rw [h3.1, ht, h1.1.dev.2 b (fun h => hdb h.symm)]⟩

theorem writeRest_sat (dest : Reg) (bk : Option (Reg × Nat)) (src : Reg) (len : Nat) (s : St) (hds : dest ≠ src)
    (hdb : ∀ b n, bk = some (b, n) → dest ≠ b) :
    Sat (writeRest e dest bk src len) s (fun x s' => ∃ st good, x = .ok (st, good) ∧ Only (fun y => y = dest) s s' ∧
      (st = none → good = true ∧ ∃ t, s'.dev.mem dest = (s.dev.mem src).take len ++ t) ∧
      (st ≠ none → good = true → s'.dev.mem dest = s.dev.mem dest ∨ ∃ b n t, bk = some (b, n) ∧ s'.dev.mem dest = (s.dev.mem b).take n ++ t) ∧
      (bk = none → (∀ n, e.page n = false) → st ≠ none → good = false)) := by
  unfold writeRest
  refine Sat.bind (Sat.attempt (Q := fun r s' => ∃ r', r = .ok r' ∧ Quiet s s' ∧ ((∀ n, e.page n = false) → r' = .ok ()))
    ((pageSize_sat s).mono fun r s' h => ⟨r, rfl, h⟩)) (fun r1 s1 h1 => ?_) (fun x s1 h1 => by simp at h1)
  obtain ⟨r1', hr1, h1, hp⟩ := h1
  simp only [Except.ok.injEq] at hr1
  subst hr1
  cases r1 with
  | error x =>
    refine Sat.pure ⟨some x, true, rfl, h1.only, by simp, fun _ _ => .inl (by rw [h1.1]), fun _ hpg => absurd (hp hpg) (by simp)⟩
  | ok _ =>
    refine Sat.bind (Sat.attempt (Q := fun r s' => ∃ r', r = .ok r' ∧ Only (fun y => y = dest) s1 s')
      ((erase_sat dest s1).mono fun r s' h => ⟨r, rfl, h⟩)) (fun r2 s2 h2 => ?_) (fun x s2 h2 => by simp at h2)
    obtain ⟨_, _, h2⟩ := h2
    have h12 : Only (fun y => y = dest) s s2 := h1.only.trans' h2
    cases r2 with
    | error x => exact Sat.pure ⟨some x, false, rfl, h12, by simp, by simp, by simp⟩
    | ok _ =>
      refine Sat.bind (Sat.attempt (Q := fun r s' => ∃ r', r = .ok r' ∧ Only (fun y => y = dest) s2 s' ∧
        (r' = .ok () → ∃ t, s'.dev.mem dest = (s2.dev.mem src).take len ++ t))
        ((install_sat dest src len s2 hds).mono fun r s' h => ⟨r, rfl, h⟩)) (fun r3 s3 h3 => ?_) (fun x s3 h3 => by simp at h3)
      obtain ⟨r3', hr3, h3, hi⟩ := h3
      simp only [Except.ok.injEq] at hr3
      subst hr3
      have h13 : Only (fun y => y = dest) s s3 := h12.trans' h3
      cases r3 with
      | ok _ =>
        obtain ⟨t, ht⟩ := hi rfl
        refine Sat.pure ⟨none, true, rfl, h13, fun _ => ⟨rfl, t, ?_⟩, by simp, by simp⟩
        rw [ht, h12.1.dev.2 src (fun h => hds h.symm)]
      | error x =>
        cases bk with
        | none => exact Sat.pure ⟨some x, false, rfl, h13, by simp, by simp, by simp⟩
        | some bn =>
          obtain ⟨b, n⟩ := bn
          have hb := hdb b n rfl
          refine Sat.bind (Sat.attempt (Q := fun r s' => ∃ r', r = .ok r' ∧ Only (fun y => y = dest) s3 s' ∧
            (r' = .ok () → ∃ t, s'.dev.mem dest = (s3.dev.mem b).take n ++ t))
            ((restoreBackup_sat dest b n s3 hb).mono fun r s' h => ⟨r, rfl, h⟩)) (fun r4 s4 h4 => ?_) (fun x s4 h4 => by simp at h4)
          obtain ⟨r4', hr4, h4, hi4⟩ := h4
          simp only [Except.ok.injEq] at hr4
          subst hr4
          cases r4 with
          | ok _ =>
            obtain ⟨t, ht⟩ := hi4 rfl
            refine Sat.pure ⟨some x, true, rfl, h13.trans' h4, by simp, fun _ _ => .inr ⟨b, n, t, rfl, ?_⟩, by simp⟩
            rw [ht, h13.1.dev.2 b (fun h => hb h.symm)]
          | error y => exact Sat.pure ⟨some x, false, rfl, h13.trans' h4, by simp, by simp, by simp⟩

theorem makeBackup_sat (dest b : Reg) (s : St) (hdb : dest ≠ b) :
    Sat (makeBackup c e dest b) s (fun x s' => Frame (fun r => r = b) s s' ∧
      ∀ n, x = .ok n → c.fw.size (s.dev.mem dest) = some n ∧ ∃ t, s'.dev.mem b = (s.dev.mem dest).take n ++ t) := by
  unfold makeBackup
  refine Sat.bind (load_sat dest s) (fun _ s1 h1 => ?_) (fun x s1 h1 => ⟨h1.1.frame, by simp⟩)
  refine Sat.bind (imageSize_sat s1) (fun n s2 h2 => ?_) (fun x s2 h2 => ⟨h1.1.frame.trans' h2.1.frame, by simp⟩)
  have hs2 : Still s s2 := h1.1.trans h2.1.still
  have hn := h2.2 n rfl
  rw [(h1.2.1 rfl).1] at hn
  refine Sat.bind (copy_sat b dest n s2 (fun h => hdb h.symm)) (fun _ s3 h3 => ?_) (fun x s3 h3 => ⟨hs2.frame.trans' h3.1.1, by simp⟩)
  refine Sat.pure ⟨hs2.frame.trans' h3.1.1, ?_⟩
  intro m hm
  simp only [Except.ok.injEq] at hm
  subst hm
  obtain ⟨t, ht⟩ := h3.2 rfl
  exact ⟨hn, t, by rw [ht, hs2.1]⟩

theorem writeImage_sat (hl : c.fw.Local) (dest : Reg) (backup : Option Reg) (src : Reg) (len : Nat) (s : St) (hds : dest ≠ src)
    (hdb : backup ≠ some dest) (hsb : backup ≠ some src) :
    Sat (writeImage c e dest backup src len) s (fun x s' => ∃ st good, x = .ok (st, good) ∧ Written c e dest backup src len s s' st good) := by
  unfold writeImage
  cases backup with
  | none =>
    refine (writeRest_sat dest none src len s hds (by simp)).mono fun x s' h => ?_
    obtain ⟨st, good, hx, ho, h1, h2, h3⟩ := h
    refine ⟨st, good, hx, ho.1.mono (fun r hr => .inl hr), h1, fun a b => ?_, fun _ => ⟨ho.2, h3 rfl⟩⟩
    rcases h2 a b with h | ⟨b, n, t, hb, _⟩
    · exact .inl h
    · simp at hb
  | some b =>
    have hdb' : dest ≠ b := fun h => hdb (by rw [h])
    have hsb' : src ≠ b := fun h => hsb (by rw [h])
    refine Sat.bind (Sat.attempt (Q := fun r s' => ∃ r', r = .ok r' ∧ Frame (fun r => r = b) s s' ∧
      ∀ n, r' = .ok n → c.fw.size (s.dev.mem dest) = some n ∧ ∃ t, s'.dev.mem b = (s.dev.mem dest).take n ++ t)
      ((makeBackup_sat dest b s hdb').mono fun r s' h => ⟨r, rfl, h⟩)) (fun r1 s1 h1 => ?_) (fun x s1 h1 => by simp at h1)
    obtain ⟨r1', hr1, hf1, hb1⟩ := h1
    simp only [Except.ok.injEq] at hr1
    subst hr1
    have hdest : s1.dev.mem dest = s.dev.mem dest := hf1.dev.2 dest hdb'
    have hsrc : s1.dev.mem src = s.dev.mem src := hf1.dev.2 src hsb'
    cases r1 with
    | error x => exact Sat.pure ⟨some x, true, rfl, hf1.mono (fun r hr => .inr (by rw [hr])), by simp, fun _ _ => .inl hdest, by simp⟩
    | ok n =>
      obtain ⟨hn, t0, ht0⟩ := hb1 n rfl
      refine (writeRest_sat dest (some (b, n)) src len s1 hds (by simp only [Option.some.injEq, Prod.mk.injEq]; rintro _ _ ⟨rfl, _⟩; exact hdb')).mono
        fun x s' h => ?_
      obtain ⟨st, good, hx, ho, h1, h2, h3⟩ := h
      refine ⟨st, good, hx, hf1.trans ho.1 (fun r hr => .inr (by rw [hr])) (fun r hr => .inl hr), fun a => ?_, fun a g => ?_, by simp⟩
      · obtain ⟨hg, t, ht⟩ := h1 a
        exact ⟨hg, t, by rw [ht, hsrc]⟩
      · rcases h2 a g with h | ⟨b', n', t, hb, h⟩
        · exact .inl (h.trans hdest)
        · simp only [Option.some.injEq, Prod.mk.injEq] at hb
          obtain ⟨rfl, rfl⟩ := hb
          refine .inr ⟨by simp, n, t, hn, ?_⟩
          have hlen := (hl _ _ hn).1
          rw [h, ht0, List.take_append_of_le_length (by rw [List.length_take]; omega), List.take_take, Nat.min_self]

end Verif.FwUpdate
