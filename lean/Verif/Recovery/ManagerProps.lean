import Verif.Recovery.ManagerLemmas
/-! C83 and C84: the recovery image manager. -/
namespace Verif.Recovery
open Flash (Mem Dev FS Touched Updater bytesAt)

variable {lay : Layout} {dv : Dev} {env env0 : Env} {s : Mgr}

/-! ### The same bytes are the same image -/

/-- Two memories agree on `[a, e)`. -/
def Agree (m m' : Mem) (a e : Nat) : Prop := ∀ i, a ≤ i → i < e → m' i = m i

theorem Agree.bytes {m m' : Mem} {a e b n : Nat} (h : Agree m m' a e) (h1 : a ≤ b) (h2 : b + n ≤ e) : bytesAt m' b n = bytesAt m b n :=
  Flash.bytesAt_congr fun i hi => h _ (by omega) (by omega)

theorem Agree.u16 {m m' : Mem} {a e b : Nat} (h : Agree m m' a e) (h1 : a ≤ b) (h2 : b + 2 ≤ e) : u16At m' b = u16At m b := by unfold u16At; rw [h.bytes h1 h2]
theorem Agree.u32 {m m' : Mem} {a e b : Nat} (h : Agree m m' a e) (h1 : a ≤ b) (h2 : b + 4 ≤ e) : u32At m' b = u32At m b := by unfold u32At; rw [h.bytes h1 h2]

theorem IsHeader.agree {m m' : Mem} {a hlen imgLen sigLen : Nat} (hh : IsHeader m a hlen imgLen sigLen) (h : Agree m m' a (a + hlen)) : IsHeader m' a hlen imgLen sigLen := by
  obtain ⟨h1, h2, h3, h4, h5, h6⟩ := hh
  refine ⟨?_, ?_, h3, ?_, ?_, ?_⟩
  · rw [h.u32 (by omega) (by omega)]; exact h1
  · rw [h.u16 (by omega) (by omega)]; exact h2
  · rw [h.u32 (by omega) (by omega)]; exact h4
  · rw [h.u32 (by omega) (by omega)]; exact h5
  · rw [h.u16 (by omega) (by omega)]
    intro h0
    obtain ⟨⟨v, v1, v2, v3, v4⟩, p, p1, p2, p3, p4⟩ := h6 h0
    exact ⟨⟨v, v1, v2, v3, by rw [h.bytes (by omega) (by omega)]; exact v4⟩, p, p1, p2, by rw [h _ (by omega) (by omega)]; exact p3, by rw [h.bytes (by omega) (by omega)]; exact p4⟩

theorem IsSection.agree {m m' : Mem} {a e : Nat} {s : Sec} (hs : IsSection m a s) (h : Agree m m' a e) (he : a + s.hlen ≤ e) : IsSection m' a s := by
  obtain ⟨h1, h2, h3, h4, h5, h6⟩ := hs
  refine ⟨?_, ?_, h3, ?_, ?_, ?_⟩
  · rw [h.u32 (by omega) (by omega)]; exact h1
  · rw [h.u16 (by omega) (by omega)]; exact h2
  · rw [h.u16 (by omega) (by omega)]; exact h4
  · rw [h.u32 (by omega) (by omega)]; exact h5
  · rw [h.u32 (by omega) (by omega)]; exact h6

theorem Tiled.agree {m m' : Mem} {a e : Nat} {l : List (Nat × Sec)} (ht : Tiled m a e l) (h : Agree m m' a e) : Tiled m' a e l := by
  induction ht with
  | nil a => exact .nil a
  | cons a e s l hs ht ih =>
    have := ht.le
    exact .cons a e s l (hs.agree h (by omega)) (ih fun i h1 h2 => h i (by omega) h2)

theorem WellFormed.agree {m m' : Mem} {size a hlen imgLen sigLen : Nat} {l : List (Nat × Sec)} (hw : WellFormed m size a hlen imgLen sigLen l) (h : Agree m m' a (a + imgLen)) :
    WellFormed m' size a hlen imgLen sigLen l := by
  obtain ⟨h1, h2, h3, h4, h5⟩ := hw
  have := h2.room
  exact ⟨h1.agree fun i a b => h i a (by omega), h2, h3.agree fun i a b => h i (by omega) (by omega), h4, h5⟩

theorem digest_agree {sha : Bytes → Bytes} {m m' : Mem} {a imgLen sigLen : Nat} (h : Agree m m' a (a + imgLen)) : digest sha m' a imgLen sigLen = digest sha m a imgLen sigLen := by
  unfold digest
  rw [h.bytes (Nat.le_refl _) (by omega)]

theorem Authentic.agree {sha : Bytes → Bytes} {sigOk : Bytes → Bytes → Bool} {m m' : Mem} {a imgLen sigLen : Nat} (hs : sigLen ≤ imgLen) (ha : Authentic sha sigOk m a imgLen sigLen)
    (h : Agree m m' a (a + imgLen)) : Authentic sha sigOk m' a imgLen sigLen := by
  unfold Authentic
  rw [digest_agree h, h.bytes (by omega) (by omega)]
  exact ha

/-! ### C83 -/

/-- C83: after every history of operations, failures of the flash, resets and changes of the PFM, the image handed out as active has been verified, and its region has not changed since. -/
theorem active_verified (hl : LayoutOk lay dv env0) {s : Mgr} (h : Reach lay dv env0 s) {g : Reg} (hg : activeImage lay s = some g) :
    ∃ d, (s.r g).cache = some d ∧ VerifiedAs lay dv env0 s.fs.mem g d := by
  unfold activeImage at hg
  split at hg
  · rename_i hv
    cases hg
    exact ((h.inv hl).valid _ hv).2
  · cases hg

/-- C83: what this means for an image that fits its region (on a device of at most 1 GiB): it is still authentic, `d` is its digest, and it is well formed unless a section is too long. -/
theorem verified_intact_partial {m : Mem} {g : Reg} {d : Bytes} (hw : 32 ≤ env0.w) (hsz : env0.size ≤ 2 ^ 30) (hv : VerifiedAs lay dv env0 m g d) :
    ∃ hlen imgLen sigLen, imgLen ≤ lay.max →
      IsHeader m (lay.base g) hlen imgLen sigLen ∧ Bounds env0.size (lay.base g) hlen imgLen sigLen ∧ Authentic env0.sha env0.sigOk m (lay.base g) imgLen sigLen ∧
      d = digest env0.sha m (lay.base g) imgLen sigLen ∧
      ((∃ l, WellFormed m env0.size (lay.base g) hlen imgLen sigLen l) ∨
       ∃ m0 b s, (∀ i, InRegion lay dv g i → m i = m0 i) ∧ IsSection m0 b s ∧ ¬ Sane s) := by
  obtain ⟨env, m0, fuel, ⟨e1, e2, e3, e4⟩, hver, hm⟩ := hv
  obtain ⟨hlen, imgLen, sigLen, a1, a2, a3, _, a5, a6⟩ := verify_ok_partial (by omega) (by omega) hver
  refine ⟨hlen, imgLen, sigLen, fun hfit => ?_⟩
  have hag : Agree m0 m (lay.base g) (lay.base g + imgLen) := fun i h1 h2 => hm i (.of_mem h1 (by omega))
  have hroom := a2.room
  rw [e2] at a2 a6
  rw [e3, e4] at a3
  rw [e3] at a5
  refine ⟨a1.agree fun i x y => hag i x (by omega), a2, a3.agree (by omega) hag, ?_, ?_⟩
  · rw [digest_agree hag]
    exact Option.some.inj a5
  · rcases a6 with ⟨l, hl⟩ | ⟨l, b, s, _, _, h3, h4⟩
    · exact .inl ⟨l, hl.agree hag⟩
    · exact .inr ⟨m0, b, s, hm, h3, h4⟩

/-- Which bytes an operation can change: those of regions that are not in use. -/
theorem step_frame (hl : LayoutOk lay dv env0) (he : Same env env0) {s : Mgr} (hi : Inv lay dv env0 s) {op : Op} (hf : op.Fits lay env0) {i : Nat}
    (hin : ∀ g, Legit lay g → (s.r g).ref = 0 → ¬ InRegion lay dv g i) : (step lay dv env s op).2.fs.mem i = s.fs.mem i := by
  have hset : ∀ (t : Mgr) g x, (t.set g x).fs = t.fs := fun _ _ _ => rfl
  have hde : ∀ b (t : Mgr), (deactivated b t).fs = t.fs := fun b t => by unfold deactivated; split <;> rfl
  have hfree : ∀ (t : Mgr) g, (free t g).fs = t.fs := fun t g => by unfold free; split <;> rfl
  have hacq : ∀ (t : Mgr), (getActive lay t).2.fs = t.fs := fun t => by unfold getActive acquire; simp only; split <;> rfl
  have hreset : ∀ fuel, (reset lay dv env s fuel).2.fs = s.fs := fun fuel => by
    unfold reset
    split
    · rfl
    · split <;> rfl
  have herase : ∀ (t : Mgr) g, Legit lay g → Inv lay dv env0 t → t.fs.mem i = s.fs.mem i → ((t.r g).ref = 0 → (s.r g).ref = 0) → (eraseRecovery dv t g).2.fs.mem i = s.fs.mem i := by
    intro t g hg ht hm hr
    rcases eraseRecovery_form hl (ht.upd g) with ⟨h, _⟩ | ⟨h0, fs, h, ho⟩
    · rw [h]; exact hm
    · rw [h]
      exact (ho i (hin g hg (hr h0))).trans hm
  cases hu : s.up
  · cases op <;> simp only [step, hu, Bool.not_false, if_true]
    rw [hreset]
  · cases op <;> simp only [step, hu, Bool.not_true, Bool.false_eq_true, if_false]
    · rw [hacq]
    · rw [hfree]
    · rename_i size
      unfold clear
      simp only
      by_cases h1 : (s.r (region lay s false)).ref ≠ 0
      · rw [if_pos h1]
      rw [if_neg h1]
      by_cases h2 : Flash.checkUpdateSize (s.r (region lay s false)).upd size ≠ .ok
      · rw [if_pos h2]
      rw [if_neg h2, hde]
      obtain ⟨u, fs, e1, e2, e3⟩ := prepareRegion_form hl (s := { s with updating := some (region lay s false) }.set (region lay s false) { s.r (region lay s false) with valid := false })
        (g := region lay s false) (by rw [set_same]; exact hi.upd (region lay s false)) size
      rw [e1]
      exact e3 i (hin _ (legit_region s false) (by omega))
    · rename_i d
      cases hg : s.updating with
      | none => unfold writeData; rw [hg]
      | some g =>
        obtain ⟨j1, j2, j3⟩ := hi.updating g hg
        obtain ⟨u, fs, e1, e2, e3⟩ := writeData_form hl he hg (hi.upd g) hf
        rw [e1]
        exact e3 i (hin _ (j1 ▸ legit_region s false) j2)
    · rename_i fuel
      unfold activate
      split
      · rfl
      simp only
      split
      · rfl
      split
      · rfl
      split
      · rfl
      · unfold activated
        have h1 : ∀ (t : Mgr) g, (makeActive lay t g).fs = t.fs := fun t g => by unfold makeActive; split <;> rfl
        have h2 : ∀ (t : Mgr) g, (updateActive lay t g).fs = t.fs := fun t g => by unfold updateActive; rw [h1]; rfl
        split
        · rename_i t hga
          have := congrArg (fun x => x.2.fs) hga
          simp only [hacq, h2] at this
          rw [← this]; rfl
        · rename_i g t hga
          have := congrArg (fun x => x.2.fs) hga
          simp only [hacq, h2] at this
          split
          · rw [hfree, ← this]; rfl
          · rw [hfree, ← this]; rfl
    · have h1 := hi.eraseRecovery hl (legit_region s false)
      have h2 := herase s _ (legit_region s false) hi rfl id
      unfold eraseAll
      simp only
      rcases eraseRecovery_form hl (hi.upd (region lay s false)) with ⟨h, _⟩ | ⟨h0, fs, h, ho⟩
      · rw [h]
        simp only
        rw [hde]
      · cases hx : eraseRecovery dv s (region lay s false) with
        | mk r t =>
          rw [hx] at h1 h2 h
          simp only at h1 h2 h
          cases r with
          | error e => simp only; rw [hde]; exact h2
          | ok u =>
            simp only
            split
            · rw [hde]
              have hl2 := legit_region (lay := lay) t true
              generalize region lay t true = g2 at hl2 ⊢
              refine herase _ g2 hl2 h1.idle h2 fun hr => ?_
              by_cases hq : g2 = region lay s false
              · rw [hq]; exact h0
              · rw [h] at hr
                simp only [Mgr.set, if_neg hq] at hr
                exact hr
            · rw [hde]; exact h2
    · rename_i o l
      unfold measuredData
      split
      · rfl
      split
      · rename_i hga
        have := congrArg (fun x => x.2.fs) hga
        simp only [hacq] at this
        rw [← this]
      · rename_i hga
        have := congrArg (fun x => x.2.fs) hga
        simp only [hacq] at this
        split
        · rw [hfree, ← this]
        · rw [hfree, ← this]
    · rw [hreset]

/-- C83: no operation changes a region while an image in it is in use. -/
theorem in_use_unchanged (hl : LayoutOk lay dv env0) {s : Mgr} (h : Reach lay dv env0 s) (he : Same env env0) {op : Op} (hf : op.Fits lay env0) {g : Reg} (hg : (s.r g).ref ≠ 0) {i : Nat}
    (hi : InRegion lay dv g i) : (step lay dv env s op).2.fs.mem i = s.fs.mem i := by
  have hinv := h.inv hl
  refine step_frame hl he hinv hf fun g' hl' h0 => ?_
  exact apart_of hl (hinv.used g hg) hl' (fun hc => hg (hc ▸ h0)) hi

/-! ### What operations do to the active image -/

/-- The same active image, measurement and saved region. -/
structure Sees (s t : Mgr) : Prop where
  active : t.active = s.active
  saved : t.saved = s.saved
  told : t.told = s.told
  valid : ∀ g, (t.r g).valid = (s.r g).valid
  cache : ∀ g, (t.r g).cache = (s.r g).cache

theorem Sees.refl (s : Mgr) : Sees s s := ⟨rfl, rfl, rfl, fun _ => rfl, fun _ => rfl⟩
theorem Sees.trans {s t u : Mgr} (h : Sees s t) (k : Sees t u) : Sees s u :=
  ⟨k.active.trans h.active, k.saved.trans h.saved, k.told.trans h.told, fun g => (k.valid g).trans (h.valid g), fun g => (k.cache g).trans (h.cache g)⟩

theorem Sees.set {s : Mgr} {fs : FS} {u : Option Reg} {g : Reg} {x : Region} (hv : x.valid = (s.r g).valid) (hc : x.cache = (s.r g).cache) : Sees s ({ s with fs := fs, updating := u }.set g x) := by
  refine ⟨rfl, rfl, rfl, fun h => ?_, fun h => ?_⟩
  · by_cases hx : h = g
    · subst hx; rw [set_same]; exact hv
    · rw [set_other _ _ _ _ hx]
  · by_cases hx : h = g
    · subst hx; rw [set_same]; exact hc
    · rw [set_other _ _ _ _ hx]

theorem Sees.region {s t : Mgr} (h : Sees s t) (b : Bool) : region lay t b = region lay s b := by unfold Recovery.region; rw [h.active]
theorem Sees.activeImage {s t : Mgr} (h : Sees s t) : activeImage lay t = activeImage lay s := by unfold Recovery.activeImage; rw [h.region, h.valid]

theorem sees_acquire (s : Mgr) : Sees s (acquire lay s).2 := by
  unfold acquire
  simp only
  split
  · exact Sees.set rfl rfl
  · exact .refl _

theorem sees_free (s : Mgr) (g : Reg) : Sees s (free s g) := by
  unfold free
  split
  · exact Sees.set rfl rfl
  · exact .refl _

/-- What is measured now: the digest of the active image when it was verified, or 32 zeros. -/
def value (lay : Layout) (s : Mgr) : Bytes :=
  match activeImage lay s with
  | none => zeros
  | some g => (s.r g).cache.getD zeros

theorem Sees.value {s t : Mgr} (h : Sees s t) : value lay t = value lay s := by
  unfold Recovery.value
  rw [h.activeImage]
  split
  · rfl
  · rw [h.cache]

/-- `get_active`: the active image, with one more reference. -/
theorem getActive_exact (s : Mgr) :
    (getActive lay s).1 = activeImage lay s ∧
    ∀ g, ((getActive lay s).2.r g).ref = (s.r g).ref + (if activeImage lay s = some g then 1 else 0) := by
  unfold getActive acquire acquired activeImage
  simp only
  by_cases hv : (s.r (region lay s true)).valid
  · simp only [if_pos hv]
    refine ⟨by rw [set_same]; simp only; rw [if_pos hv], fun g => ?_⟩
    by_cases hg : g = region lay s true
    · subst hg
      rw [set_same, if_pos rfl]
    · rw [set_other _ _ _ _ hg, if_neg (fun h => hg (Option.some.inj h).symm)]
      rfl
  · simp only [if_neg hv]
    exact ⟨trivial, fun g => by simp⟩

theorem measuredData_eq (hi : Inv lay dv env0 s) (o l : Nat) : (measuredData lay env s o l).1 = .ok (((value lay s).drop o).take (min (32 - o) l)) ∧ Sees s (measuredData lay env s o l).2 := by
  have hs := sees_acquire (lay := lay) s
  unfold measuredData
  by_cases ho : o > 31
  · rw [if_pos ho]
    refine ⟨?_, .refl _⟩
    have : 32 - o = 0 := by omega
    simp [this]
  rw [if_neg ho]
  have hg := (getActive_exact (lay := lay) s).1
  split
  · rename_i t hga
    rw [hga] at hg
    have ht : (acquire lay s).2 = t := congrArg Prod.snd hga
    rw [ht] at hs
    unfold value
    rw [← hg]
    exact ⟨rfl, hs⟩
  · rename_i g t hga
    rw [hga] at hg
    have ht : (acquire lay s).2 = t := congrArg Prod.snd hga
    rw [ht] at hs
    unfold value
    rw [← hg]
    have hv : (s.r g).valid = true ∧ True := by
      unfold activeImage at hg
      split at hg
      · rename_i h; cases hg; exact ⟨h, trivial⟩
      · cases hg
    obtain ⟨_, h, hc, _⟩ := hi.valid g hv.1
    simp only [hs.cache, hc, getHash]
    exact ⟨rfl, hs.trans (sees_free _ _)⟩

theorem hashMeasuredData_eq (hi : Inv lay dv env0 s) : (hashMeasuredData lay env s).1 = .ok (value lay s) ∧ Sees s (hashMeasuredData lay env s).2 := by
  have hs := sees_acquire (lay := lay) s
  unfold hashMeasuredData
  have hg := (getActive_exact (lay := lay) s).1
  split
  · rename_i t hga
    rw [hga] at hg
    have ht : (acquire lay s).2 = t := congrArg Prod.snd hga
    rw [ht] at hs
    unfold value
    rw [← hg]
    exact ⟨rfl, hs⟩
  · rename_i g t hga
    rw [hga] at hg
    have ht : (acquire lay s).2 = t := congrArg Prod.snd hga
    rw [ht] at hs
    unfold value
    rw [← hg]
    have hv : (s.r g).valid = true ∧ True := by
      unfold activeImage at hg
      split at hg
      · rename_i h; cases hg; exact ⟨h, trivial⟩
      · cases hg
    obtain ⟨_, h, hc, _⟩ := hi.valid g hv.1
    simp only [hs.cache, hc, getHash]
    exact ⟨rfl, hs.trans (sees_free _ _)⟩

theorem sees_write (hl : LayoutOk lay dv env0) (he : Same env env0) (hi : Inv lay dv env0 s) {d : Bytes} (hd : lay.max + d.length < 2 ^ env0.w) : Sees s (writeData dv env s d).2 := by
  cases hg : s.updating with
  | none => unfold writeData; rw [hg]; exact .refl _
  | some g =>
    obtain ⟨u, fs, e1, _⟩ := writeData_form hl he hg (hi.upd g) hd
    rw [e1]
    exact Sees.set rfl rfl

/-- What an operation that is not an activation or a reset can do: images can become invalid. -/
structure Less (s t : Mgr) : Prop where
  active : t.active = s.active
  valid : ∀ g, (t.r g).valid = true → (s.r g).valid = true
  cache : ∀ g, (t.r g).cache = (s.r g).cache

theorem Sees.less {s t : Mgr} (h : Sees s t) : Less s t := ⟨h.active, fun g hg => (h.valid g) ▸ hg, h.cache⟩
theorem Less.trans {s t u : Mgr} (h : Less s t) (k : Less t u) : Less s u := ⟨k.active.trans h.active, fun g hg => h.valid g (k.valid g hg), fun g => (k.cache g).trans (h.cache g)⟩
theorem Less.deact {s t : Mgr} (h : Less s t) (b : Bool) : Less s (deactivated b t) := by unfold deactivated; split <;> exact ⟨h.active, h.valid, h.cache⟩
theorem Less.inv {s : Mgr} {fs : FS} {u : Option Reg} (g : Reg) (x : Updater) : Less s ({ s with fs := fs, updating := u }.set g { s.r g with valid := false, upd := x }) := by
  refine ⟨rfl, fun h hh => ?_, fun h => ?_⟩
  · by_cases hx : h = g
    · subst hx; rw [set_same] at hh; cases hh
    · rw [set_other _ _ _ _ hx] at hh; exact hh
  · by_cases hx : h = g
    · subst hx; rw [set_same]
    · rw [set_other _ _ _ _ hx]

theorem Less.activeImage {s t : Mgr} (h : Less s t) {g : Reg} (hg : activeImage lay t = some g) : activeImage lay s = some g := by
  have hr : region lay t true = region lay s true := by unfold region; rw [h.active]
  unfold Recovery.activeImage at hg ⊢
  rw [hr] at hg
  split at hg
  · rename_i hv
    rw [if_pos (h.valid _ hv)]
    exact hg
  · cases hg

theorem clear_form (hl : LayoutOk lay dv env0) (hi : Inv lay dv env0 s) (size : Nat) :
    (clear lay dv s size).2 = s ∨ ((s.r (region lay s false)).ref = 0 ∧ ∃ fs u, (clear lay dv s size).2 = deactivated (!lay.two && (s.r (region lay s false)).valid)
      ({ s with fs := fs, updating := some (region lay s false) }.set (region lay s false) { s.r (region lay s false) with valid := false, upd := u })) := by
  unfold clear
  simp only
  by_cases h1 : (s.r (region lay s false)).ref ≠ 0
  · rw [if_pos h1]; exact .inl rfl
  rw [if_neg h1]
  by_cases h2 : Flash.checkUpdateSize (s.r (region lay s false)).upd size ≠ .ok
  · rw [if_pos h2]; exact .inl rfl
  rw [if_neg h2]
  obtain ⟨u, fs, e1, e2, e3⟩ := prepareRegion_form hl (s := { s with updating := some (region lay s false) }.set (region lay s false) { s.r (region lay s false) with valid := false })
    (g := region lay s false) (by rw [set_same]; exact hi.upd (region lay s false)) size
  refine .inr ⟨by omega, fs, u, ?_⟩
  rw [e1, set_same]
  congr 1
  simp only [Mgr.set]
  have : ∀ x y : Region, (fun h => if h = region lay s false then x else if h = region lay s false then y else s.r h) = fun h => if h = region lay s false then x else s.r h := by
    intro x y
    funext h
    by_cases hx : h = region lay s false
    · rw [if_pos hx, if_pos hx]
    · rw [if_neg hx, if_neg hx, if_neg hx]
  rw [this]

theorem eraseRecovery_less (hl : LayoutOk lay dv env0) (hi : Inv lay dv env0 s) (g : Reg) : Less s (eraseRecovery dv s g).2 := by
  rcases eraseRecovery_form hl (hi.upd g) with ⟨h, _⟩ | ⟨h0, fs, h, ho⟩
  · rw [h]; exact (Sees.refl s).less
  · rw [h]; exact Less.inv (u := s.updating) g (s.r g).upd

theorem eraseAll_less (hl : LayoutOk lay dv env0) (hi : Inv lay dv env0 s) : Less s (eraseAll lay dv s).2 := by
  have h1 := eraseRecovery_less hl hi (region lay s false)
  have h2 := hi.eraseRecovery hl (legit_region s false)
  unfold eraseAll
  simp only
  cases hx : eraseRecovery dv s (region lay s false) with
  | mk r t =>
    rw [hx] at h1 h2
    simp only at h1 h2
    cases r with
    | error e => exact h1.deact _
    | ok u =>
      simp only
      split
      · have h3 : Less t { t with updating := none } := ⟨rfl, fun _ h => h, fun _ => rfl⟩
        exact (h1.trans (h3.trans (eraseRecovery_less hl h2.idle _))).deact _
      · have h3 : Less t { t with updating := none } := ⟨rfl, fun _ h => h, fun _ => rfl⟩
        exact (h1.trans h3).deact _

theorem sees_activated (hi : Inv lay dv env0 s) : (activated lay env s).told = value lay s ∧ Sees { s with told := value lay s } (activated lay env s) := by
  have hs := sees_acquire (lay := lay) s
  have hg := (getActive_exact (lay := lay) s).1
  have key : ∀ t : Mgr, Sees s t → Sees { s with told := value lay s } { t with told := value lay s } := fun t h => ⟨h.active, h.saved, rfl, h.valid, h.cache⟩
  unfold activated
  split
  · rename_i t hga
    rw [hga] at hg
    have ht : (acquire lay s).2 = t := congrArg Prod.snd hga
    rw [ht] at hs
    have hval : value lay s = zeros := by unfold value; rw [← hg]
    rw [hval] at key ⊢
    exact ⟨rfl, key _ hs⟩
  · rename_i g t hga
    rw [hga] at hg
    have ht : (acquire lay s).2 = t := congrArg Prod.snd hga
    rw [ht] at hs
    have hv : (s.r g).valid = true ∧ True := by
      unfold activeImage at hg
      split at hg
      · rename_i h; cases hg; exact ⟨h, trivial⟩
      · cases hg
    obtain ⟨_, h, hc, _⟩ := hi.valid g hv.1
    have hval : value lay s = h := by unfold value; rw [← hg]; simp only; rw [hc]; rfl
    rw [hs.cache, hc]
    simp only [getHash]
    rw [hval] at key ⊢
    exact ⟨(sees_free _ _).told, (key _ hs).trans (sees_free _ _)⟩

theorem updateActive_image (s : Mgr) : activeImage lay (updateActive lay s (region lay s false)) = some (region lay s false) := by
  cases ht : lay.two with
  | false =>
    rw [region_single ht]
    unfold updateActive makeActive
    rw [if_neg (by rw [region_single ht]; simp)]
    unfold activeImage
    rw [region_single ht, set_same]
    rfl
  | true =>
    rw [(region_two ht s).2]
    unfold updateActive makeActive
    rw [if_pos (by rw [(region_two ht _).1]; exact other_ne _)]
    unfold activeImage
    rw [(region_two ht _).1]
    simp [Mgr.set, other_ne]

/-- C83: activation. It succeeds only if everything that was announced has been written, and the image is active already or was cleared, written and verified. Then this image is active. If it fails the active image is the same as before. -/
theorem activate_exact (hl : LayoutOk lay dv env0) (h : Reach lay dv env0 s) (he : Same env env0) (hu : s.up = true) (fuel : Nat) :
    match step lay dv env s (.activate fuel) with
    | (.ok _, t) => remaining s ≤ 0 ∧ activeImage lay t = some (region lay s false) ∧
        (activeImage lay s = some (region lay s false) ∨ (s.updating = some (region lay s false) ∧ ∃ d, verify env s.fs.mem fuel (lay.base (region lay s false)) = (.ok (), some d)))
    | (.error _, t) => activeImage lay t = activeImage lay s := by
  have hi := h.inv hl
  simp only [step, hu, Bool.not_true, Bool.false_eq_true, if_false]
  unfold activate
  by_cases h1 : remaining s > 0
  · rw [if_pos h1]
  rw [if_neg h1]
  simp only
  by_cases h2 : (s.r (region lay s false)).valid = true
  · rw [if_pos h2]
    have : activeImage lay s = some (region lay s false) := by
      have := (hi.valid _ h2).1
      unfold activeImage
      rw [← this, if_pos h2]
    exact ⟨by omega, this, .inl this⟩
  rw [if_neg h2]
  by_cases h3 : s.updating = none
  · rw [if_pos h3]
  rw [if_neg h3]
  have h4 : s.updating = some (region lay s false) := by
    cases hq : s.updating with
    | none => exact (h3 hq).elim
    | some g => rw [(hi.updating g hq).1]
  cases hver : verify env s.fs.mem fuel (lay.base (region lay s false)) with
  | mk r c =>
    cases r with
    | error e =>
      simp only
      unfold activeImage
      have : ∀ (x : Region), x.valid = false → ∀ g, (({ s with updating := none }.set (region lay s false) x).r g).valid = (s.r g).valid := by
        intro x hx g
        by_cases hg : g = region lay s false
        · subst hg; rw [set_same, hx]; exact (Bool.not_eq_true _ ▸ h2).symm
        · rw [set_other _ _ _ _ hg]
      rw [this _ (by simpa using h2)]
      rfl
    | ok u =>
      obtain ⟨d, rfl⟩ := verify_digest hver
      refine ⟨by omega, ?_, .inr ⟨h4, d, rfl⟩⟩
      have := hi.updateActive ⟨env, s.fs.mem, fuel, he, hver, fun _ _ => rfl⟩
      exact (sees_activated this).2.activeImage.trans (updateActive_image (s.set (region lay s false) { s.r (region lay s false) with cache := some d }))

/-- C83: an image becomes active only by an activation or a reset. -/
theorem active_only_activated (hl : LayoutOk lay dv env0) (h : Reach lay dv env0 s) (he : Same env env0) {op : Op} (hf : op.Fits lay env0) {g : Reg}
    (hg : activeImage lay (step lay dv env s op).2 = some g) : activeImage lay s = some g ∨ ∃ fuel, op = .activate fuel ∨ op = .reset fuel := by
  have hi := h.inv hl
  cases hu : s.up
  · cases op <;> simp only [step, hu, Bool.not_false, if_true] at hg
    case reset f => exact .inr ⟨f, .inr rfl⟩
    all_goals exact .inl hg
  · cases op <;> simp only [step, hu, Bool.not_true, Bool.false_eq_true, if_false] at hg
    case reset f => exact .inr ⟨f, .inr rfl⟩
    case activate f => exact .inr ⟨f, .inl rfl⟩
    case getActive => exact .inl ((sees_acquire s).less.activeImage hg)
    case free => exact .inl ((sees_free s _).less.activeImage hg)
    case measure => exact .inl ((measuredData_eq hi _ _).2.less.activeImage hg)
    case write => exact .inl ((sees_write hl he hi hf).less.activeImage hg)
    case eraseAll => exact .inl ((eraseAll_less hl hi).activeImage hg)
    case persist => exact .inl hg
    case clear size =>
      rcases clear_form hl hi size with h | ⟨_, fs, u, h⟩
      · rw [h] at hg; exact .inl hg
      · rw [h] at hg
        exact .inl (((Less.inv (fs := fs) (u := some (region lay s false)) (region lay s false) u).deact _).activeImage hg)

/-- With two regions an update does not touch the active image, whatever fails: until an activation succeeds it stays active. -/
theorem update_keeps_active (hl : LayoutOk lay dv env0) (ht : lay.two = true) (h : Reach lay dv env0 s) (he : Same env env0) {op : Op} (hf : op.Fits lay env0)
    (hop : op ≠ .eraseAll) (hoa : ∀ f, op ≠ .activate f) (hor : ∀ f, op ≠ .reset f) :
    activeImage lay (step lay dv env s op).2 = activeImage lay s ∧ (step lay dv env s op).2.active = s.active ∧ ∀ i, InRegion lay dv s.active i → (step lay dv env s op).2.fs.mem i = s.fs.mem i := by
  have hi := h.inv hl
  have hsees : ∀ t : Mgr, Sees s t → activeImage lay t = activeImage lay s ∧ t.active = s.active := fun t ht => ⟨ht.activeImage, ht.active⟩
  rw [← and_assoc]
  constructor
  · cases hu : s.up
    · cases op <;> simp only [step, hu, Bool.not_false, if_true]
      case reset f => exact (hor f rfl).elim
      all_goals exact ⟨trivial, trivial⟩
    · cases op <;> simp only [step, hu, Bool.not_true, Bool.false_eq_true, if_false]
      case reset f => exact (hor f rfl).elim
      case activate f => exact (hoa f rfl).elim
      case eraseAll => exact (hop rfl).elim
      case getActive => exact hsees _ (sees_acquire s)
      case free => exact hsees _ (sees_free s _)
      case measure => exact hsees _ (measuredData_eq hi _ _).2
      case write => exact hsees _ (sees_write hl he hi hf)
      case persist => exact ⟨rfl, trivial⟩
      case clear size =>
        rcases clear_form hl hi size with h | ⟨_, fs, u, h⟩
        · rw [h]; exact ⟨rfl, rfl⟩
        · rw [h, ht]
          refine ⟨?_, rfl⟩
          unfold activeImage
          rw [(region_two ht s).1, (region_two ht _).1]
          simp only [deactivated, Bool.not_true, Bool.false_and, Bool.false_eq_true, if_false]
          simp only [Mgr.set, (region_two ht s).2, (other_ne s.active).symm, if_false]
  · intro i hin
    have key : ∀ j, InRegion lay dv s.active j → ¬ InRegion lay dv (region lay s false) j := fun j hj =>
      apart_of hl (.inl ht) (.inl ht) (by rw [(region_two ht s).2]; exact (other_ne _).symm) hj
    cases hu : s.up
    · cases op <;> simp only [step, hu, Bool.not_false, if_true]
      case reset f => exact (hor f rfl).elim
    · cases op
      case reset f => exact (hor f rfl).elim
      case activate f => exact (hoa f rfl).elim
      case eraseAll => exact (hop rfl).elim
      case write d =>
        simp only [step, hu, Bool.not_true, Bool.false_eq_true, if_false]
        cases hg : s.updating with
        | none => unfold writeData; rw [hg]
        | some g =>
          obtain ⟨u, fs, e1, _, e3⟩ := writeData_form hl he hg (hi.upd g) hf
          rw [e1]
          exact e3 i ((hi.updating g hg).1 ▸ key i hin)
      case clear size =>
        simp only [step, hu, Bool.not_true, Bool.false_eq_true, if_false]
        unfold clear
        simp only
        by_cases h1 : (s.r (region lay s false)).ref ≠ 0
        · rw [if_pos h1]
        rw [if_neg h1]
        by_cases h2 : Flash.checkUpdateSize (s.r (region lay s false)).upd size ≠ .ok
        · rw [if_pos h2]
        rw [if_neg h2]
        obtain ⟨u, fs, e1, e2, e3⟩ := prepareRegion_form hl (s := { s with updating := some (region lay s false) }.set (region lay s false) { s.r (region lay s false) with valid := false })
          (g := region lay s false) (by rw [set_same]; exact hi.upd (region lay s false)) size
        rw [e1]
        have hde : ∀ b (t : Mgr), (deactivated b t).fs = t.fs := fun b t => by unfold deactivated; split <;> rfl
        rw [hde]
        exact e3 i (key i hin)
      all_goals simp only [step, hu, Bool.not_true, Bool.false_eq_true, if_false]
      case getActive => unfold getActive acquire; simp only; split <;> rfl
      case free => unfold free; split <;> rfl
      case measure o l =>
        have hacq : (getActive lay s).2.fs = s.fs := by unfold getActive acquire; simp only; split <;> rfl
        have hfree : ∀ (t : Mgr) g, (free t g).fs = t.fs := fun t g => by unfold free; split <;> rfl
        unfold measuredData
        split
        · rfl
        split
        · rename_i hga
          rw [hga] at hacq
          rw [← hacq]
        · rename_i hga
          rw [hga] at hacq
          split
          · rw [hfree, ← hacq]
          · rw [hfree, ← hacq]

/-- What a reset without read failures finds when the saved region has an image that is good and fits its region. -/
theorem reset_finds {hlen imgLen sigLen : Nat} {l : List (Nat × Sec)} {fuel : Nat} (hw : 32 ≤ env.w) (hsz : env.size ≤ 2 ^ 30) (hf : ∀ k, env.fault k = false) (hfuel : l.length < fuel)
    (h1 : WellFormed s.fs.mem env.size (lay.base (bootRegion lay s)) hlen imgLen sigLen l) (h2 : Authentic env.sha env.sigOk s.fs.mem (lay.base (bootRegion lay s)) imgLen sigLen)
    (h3 : ∀ id, env.pfm = some id → ForPlatform s.fs.mem (lay.base (bootRegion lay s)) id ∧ 50 + id.length ≤ hlen) :
    (reset lay dv env s fuel).1 = .ok () ∧ activeImage lay (reset lay dv env s fuel).2 = some (bootRegion lay s) ∧
    value lay (reset lay dv env s fuel).2 = digest env.sha s.fs.mem (lay.base (bootRegion lay s)) imgLen sigLen := by
  unfold reset
  rw [verify_complete hw hsz hf h1 h2 h3 hfuel]
  refine ⟨rfl, ?_⟩
  have hr : ∀ u v c, region lay (booted lay dv s u v c) true = bootRegion lay s := fun _ _ _ => rfl
  have ha : activeImage lay (booted lay dv s true true (some (digest env.sha s.fs.mem (lay.base (bootRegion lay s)) imgLen sigLen))) = some (bootRegion lay s) := by
    unfold activeImage
    rw [hr]
    simp [booted, fresh]
  refine ⟨ha, ?_⟩
  unfold value
  rw [ha]
  simp [booted, fresh]

/-- C83: with two regions, power loss during an update keeps the recovery image. The active region is the one in flash and has a good image that fits; after any operation except erasing everything, with
any failure on the way, a reset without read failures finds the same image. -/
theorem crash_keeps_image (hl : LayoutOk lay dv env0) (ht : lay.two = true) (h : Reach lay dv env0 s) {env1 : Env} (he1 : Same env1 env0) {op : Op} (hfit : op.Fits lay env0) (hop : op ≠ .eraseAll)
    (hor : ∀ f, op ≠ .reset f) (hsaved : s.saved = s.active) {hlen imgLen sigLen : Nat} {l : List (Nat × Sec)} {fuel : Nat} (he : Same env env0) (hsz : env0.size ≤ 2 ^ 30)
    (hf : ∀ k, env.fault k = false) (hfuel : l.length < fuel) (hmax : imgLen ≤ lay.max) (h1 : WellFormed s.fs.mem env0.size (lay.base s.active) hlen imgLen sigLen l)
    (h2 : Authentic env0.sha env0.sigOk s.fs.mem (lay.base s.active) imgLen sigLen) (h3 : ∀ id, env.pfm = some id → ForPlatform s.fs.mem (lay.base s.active) id ∧ 50 + id.length ≤ hlen) :
    let t := (step lay dv env1 s op).2
    (reset lay dv env t fuel).1 = .ok () ∧ activeImage lay (reset lay dv env t fuel).2 = some s.active ∧
    value lay (reset lay dv env t fuel).2 = digest env0.sha s.fs.mem (lay.base s.active) imgLen sigLen := by
  intro t
  obtain ⟨e1, e2, e3, e4⟩ := he
  have hw := hl.width
  have hi := h.inv hl
  -- the region in flash and its contents are the same
  have hkeep : t.saved = s.active ∧ ∀ i, InRegion lay dv s.active i → t.fs.mem i = s.fs.mem i := by
    by_cases hoa : ∃ f, op = .activate f
    · obtain ⟨f, rfl⟩ := hoa
      refine ⟨?_, fun i hin => ?_⟩
      · show (step lay dv env1 s (.activate f)).2.saved = s.active
        cases hu : s.up
        · simp only [step, hu, Bool.not_false, if_true]; exact hsaved
        · simp only [step, hu, Bool.not_true, Bool.false_eq_true, if_false]
          unfold activate
          split
          · exact hsaved
          simp only
          split
          · exact hsaved
          split
          · exact hsaved
          cases hver : verify env1 s.fs.mem f (lay.base (region lay s false)) with
          | mk r c =>
            cases r with
            | error e => exact hsaved
            | ok u =>
              obtain ⟨d, rfl⟩ := verify_digest hver
              have := hi.updateActive ⟨env1, s.fs.mem, f, he1, hver, fun _ _ => rfl⟩
              refine (sees_activated this).2.saved.trans ?_
              show (updateActive lay _ _).saved = _
              unfold updateActive makeActive
              split <;> exact hsaved
      · show (step lay dv env1 s (.activate f)).2.fs.mem i = _
        cases hu : s.up
        · simp only [step, hu, Bool.not_false, if_true]
        · simp only [step, hu, Bool.not_true, Bool.false_eq_true, if_false]
          have hacq : ∀ (t : Mgr), (getActive lay t).2.fs = t.fs := fun t => by unfold getActive acquire; simp only; split <;> rfl
          have hfree : ∀ (t : Mgr) g, (free t g).fs = t.fs := fun t g => by unfold free; split <;> rfl
          unfold activate
          split
          · rfl
          simp only
          split
          · rfl
          split
          · rfl
          split
          · rfl
          · unfold activated
            have h1 : ∀ (t : Mgr) g, (makeActive lay t g).fs = t.fs := fun t g => by unfold makeActive; split <;> rfl
            have h2 : ∀ (t : Mgr) g, (updateActive lay t g).fs = t.fs := fun t g => by unfold updateActive; rw [h1]; rfl
            split
            · rename_i t hga
              have := congrArg (fun x => x.2.fs) hga
              simp only [hacq, h2] at this
              rw [← this]; rfl
            · rename_i g t hga
              have := congrArg (fun x => x.2.fs) hga
              simp only [hacq, h2] at this
              split
              · rw [hfree, ← this]; rfl
              · rw [hfree, ← this]; rfl
    · have hoa' : ∀ f, op ≠ .activate f := fun f hf => hoa ⟨f, hf⟩
      obtain ⟨k1, k2, k3⟩ := update_keeps_active hl ht h he1 hfit hop hoa' hor
      refine ⟨?_, k3⟩
      show (step lay dv env1 s op).2.saved = s.active
      cases hu : s.up
      · cases op <;> simp only [step, hu, Bool.not_false, if_true]
        case reset f => exact (hor f rfl).elim
        all_goals exact hsaved
      · cases op <;> simp only [step, hu, Bool.not_true, Bool.false_eq_true, if_false]
        case reset f => exact (hor f rfl).elim
        case activate f => exact (hoa' f rfl).elim
        case eraseAll => exact (hop rfl).elim
        case getActive => exact (sees_acquire s).saved.trans hsaved
        case free => exact (sees_free s _).saved.trans hsaved
        case measure => exact (measuredData_eq hi _ _).2.saved.trans hsaved
        case write => exact (sees_write hl he1 hi hfit).saved.trans hsaved
        case clear size =>
          rcases clear_form hl hi size with h | ⟨_, fs, u, h⟩
          · rw [h]; exact hsaved
          · rw [h, ht]; exact hsaved
  obtain ⟨hs, hm⟩ := hkeep
  have hb : bootRegion lay t = s.active := by unfold bootRegion; rw [ht, if_pos rfl]; exact hs
  have hroom := h1.bounds.room
  have hag : Agree s.fs.mem t.fs.mem (lay.base s.active) (lay.base s.active + imgLen) := fun i x y => hm i (.of_mem x (by omega))
  rw [← e2] at h1
  rw [← e3, ← e4] at h2
  rw [← e2] at hsz
  have := reset_finds (lay := lay) (dv := dv) (env := env) (s := t) (hlen := hlen) (imgLen := imgLen) (sigLen := sigLen) (l := l) (fuel := fuel) (by omega) hsz hf hfuel
    (by rw [hb]; exact h1.agree hag) (by rw [hb]; exact h2.agree (by omega) hag)
    (by
      rw [hb]
      intro id hid
      obtain ⟨p1, p2⟩ := h3 id hid
      refine ⟨?_, p2⟩
      unfold ForPlatform at p1 ⊢
      rw [hag.bytes (by omega) (by omega)]
      exact p1)
  rw [hb, digest_agree hag, e3] at this
  exact this

/-! ### C84 -/

/-- C84: after every history, the measured data is the slice that was asked for of one 32-byte value: the digest that was verified for the active image, or zeros if there is no active image. No flash failure changes it. -/
theorem measured_exact (hl : LayoutOk lay dv env0) (h : Reach lay dv env0 s) (hsha : ∀ b, (env0.sha b).length = 32) (hsz : env0.size ≤ 2 ^ 30) :
    ∃ v : Bytes, v.length = 32 ∧ (activeImage lay s = none → v = List.replicate 32 0) ∧ (∀ g, activeImage lay s = some g → VerifiedAs lay dv env0 s.fs.mem g v) ∧
      (∀ (env : Env) o n, (measuredData lay env s o n).1 = .ok ((v.drop o).take n)) ∧ ∀ env : Env, (hashMeasuredData lay env s).1 = .ok v := by
  have hi := h.inv hl
  have hv : ∀ g, activeImage lay s = some g → VerifiedAs lay dv env0 s.fs.mem g (value lay s) := fun g hg => by
    obtain ⟨d, h1, h2⟩ := active_verified hl h hg
    unfold value
    rw [hg]
    simp only
    rw [h1]
    exact h2
  have hlen : (value lay s).length = 32 := by
    cases hg : activeImage lay s with
    | none => unfold value; rw [hg]; rfl
    | some g =>
      obtain ⟨env, m0, fuel, ⟨e1, e2, e3, e4⟩, hver, _⟩ := hv g hg
      have := hl.width
      obtain ⟨hlen, imgLen, sigLen, _, _, _, _, a5, _⟩ := verify_ok_partial (by omega) (by omega) hver
      rw [Option.some.inj a5]
      unfold digest
      rw [e3]
      exact hsha _
  refine ⟨value lay s, hlen, fun hn => by unfold value; rw [hn]; rfl, hv, fun env o n => ?_, fun env => (hashMeasuredData_eq hi).1⟩
  rw [(measuredData_eq hi o n).1]
  congr 1
  rw [Nat.min_comm, ← List.take_take, List.take_of_length_le (l := List.drop o _) (by simp [hlen])]

/-- Reading the measurement changes nothing: the reference it takes is given back. -/
theorem measure_no_effect (o n : Nat) : (measuredData lay env s o n).2 = s := by
  have hfa : ∀ g, activeImage lay s = some g → free (getActive lay s).2 g = s := fun g hg => by
    unfold activeImage at hg
    split at hg
    · rename_i hv
      cases hg
      simp only [getActive, acquire, if_pos hv, free]
      rw [set_same, if_pos (by simp)]
      cases s
      simp only [Mgr.set, Mgr.mk.injEq, true_and, and_true]
      funext h
      split
      · rename_i hx; subst hx; simp
      · rfl
    · cases hg
  have hno : activeImage lay s = none → (getActive lay s).2 = s := fun hn => by
    unfold activeImage at hn
    split at hn
    · cases hn
    · rename_i hv
      simp only [getActive, acquire, if_neg hv]
  have hg := (getActive_exact (lay := lay) s).1
  unfold measuredData
  split
  · rfl
  split
  · rename_i t hga
    rw [hga] at hg hno
    exact hno hg.symm
  · rename_i g t hga
    rw [hga] at hg hfa
    split <;> exact hfa g hg.symm

/-- What the observer was last told is what is measured. -/
def Told (lay : Layout) (s : Mgr) : Prop := s.told = value lay s

/-- Histories in which erasing everything never fails because an image is in use. -/
inductive ReachFree (lay : Layout) (dv : Dev) (env0 : Env) : Mgr → Prop
  | init (s : Mgr) (env : Env) (fuel : Nat) : Same env env0 → ReachFree lay dv env0 (reset lay dv env s fuel).2
  | step (s : Mgr) (env : Env) (op : Op) : ReachFree lay dv env0 s → Same env env0 → op.Fits lay env0 → (op = .eraseAll → (step lay dv env s op).1 ≠ .error .inUse) →
      ReachFree lay dv env0 (step lay dv env s op).2

theorem ReachFree.reach {s : Mgr} (h : ReachFree lay dv env0 s) : Reach lay dv env0 s := by
  induction h with
  | init s env fuel he => exact .init s env fuel he
  | step s env op _ he hf _ ih => exact .step s env op ih he hf

theorem value_none {t : Mgr} (h : (t.r (region lay t true)).valid = false) : value lay t = zeros := by
  unfold value activeImage
  rw [h]
  rfl

/-- An image that is not the active one can be marked invalid. -/
theorem value_other {t : Mgr} {fs : FS} {u : Option Reg} {g : Reg} {x : Region} (h : g ≠ region lay t true) : value lay ({ t with fs := fs, updating := u }.set g x) = value lay t := by
  unfold value activeImage
  have hr : region lay ({ t with fs := fs, updating := u }.set g x) true = region lay t true := rfl
  rw [hr, set_other _ _ _ _ h.symm]
  by_cases hv : (t.r (region lay t true)).valid
  · rw [if_pos hv]
    simp only
    rw [set_other _ _ _ _ h.symm]
  · rw [if_neg hv]

theorem told_erase (hl : LayoutOk lay dv env0) (hi : Inv lay dv env0 s) (ht : Told lay s) (hn : (eraseAll lay dv s).1 ≠ .error .inUse) : Told lay (eraseAll lay dv s).2 := by
  have h2 := hi.eraseRecovery hl (legit_region s false)
  unfold eraseAll at hn ⊢
  simp only at hn ⊢
  rcases eraseRecovery_form hl (hi.upd (region lay s false)) with ⟨h, _⟩ | ⟨h0, fs, h, _⟩
  · rw [h] at hn
    exact (hn rfl).elim
  cases hx : eraseRecovery dv s (region lay s false) with
  | mk r t =>
    rw [hx] at h hn h2
    simp only at h h2
    cases htwo : lay.two with
    | false =>
      rw [region_single htwo] at h ⊢
      have hval : ∀ (u : Option Reg), Told lay (deactivated (s.r .r1).valid { t with updating := u }) := by
        intro u
        have hz : ∀ told, value lay { t with updating := u, told := told } = zeros := fun told => value_none (by
          rw [region_single htwo, h]; simp [Mgr.set])
        cases hv : (s.r .r1).valid with
        | true => exact (hz zeros).symm
        | false =>
          show t.told = value lay { t with updating := u }
          rw [show value lay { t with updating := u } = zeros from hz t.told, h]
          exact ht.trans (value_none (by rw [region_single htwo]; exact hv))
      cases r with
      | error e => exact hval t.updating
      | ok u =>
        simp only
        rw [if_neg (by rw [region_single htwo]; simp)]
        exact hval none
    | true =>
      have hne : region lay s false ≠ region lay s true := by rw [(region_two htwo s).1, (region_two htwo s).2]; exact other_ne _
      have hinv : (s.r (region lay s false)).valid = false := by
        cases hv : (s.r (region lay s false)).valid with
        | false => rfl
        | true => exact (hne (hi.valid _ hv).1).elim
      have htt : Told lay t := by
        unfold Told
        rw [h]
        exact Eq.trans ht (value_other (fs := fs) (u := s.updating) hne).symm
      cases r with
      | error e =>
        simp only
        rw [hinv]
        exact htt
      | ok u =>
        simp only at hn ⊢
        have hrt : region lay t true = region lay s true := by rw [h]; rfl
        rw [if_pos (by rw [hrt]; exact hne)] at hn ⊢
        rcases eraseRecovery_form hl (h2.idle.upd (region lay t true)) with ⟨k, _⟩ | ⟨_, fs', k, _⟩
        · rw [k] at hn
          exact (hn rfl).elim
        · rw [k, hinv, Bool.false_or]
          have hz : ∀ told, value lay ({ t with updating := none, fs := fs', told := told }.set (region lay t true) { t.r (region lay t true) with valid := false }) = zeros := fun told =>
            value_none (by
              show (({ t with updating := none, fs := fs', told := told }.set (region lay t true) { t.r (region lay t true) with valid := false }).r (region lay t true)).valid = false
              rw [set_same])
          cases hv : (t.r (region lay t true)).valid with
          | true => exact (hz zeros).symm
          | false =>
            exact (Eq.trans htt (value_none hv)).trans (hz t.told).symm

/-- C84: in those histories, what the measurement observer was last told (by an activation, a deactivation or at start) is always what is measured. -/
theorem told_exact_partial (hl : LayoutOk lay dv env0) (h : ReachFree lay dv env0 s) : Told lay s := by
  have hreset : ∀ (s : Mgr) (env : Env) fuel, Told lay (reset lay dv env s fuel).2 := by
    intro s env fuel
    have hb : ∀ u v c, Told lay (booted lay dv s u v c) := by
      intro u v c
      have hr : region lay (booted lay dv s u v c) true = bootRegion lay s := rfl
      unfold Told value activeImage
      rw [hr]
      cases v <;> simp [booted, fresh]
    unfold reset
    cases verify env s.fs.mem fuel (lay.base (bootRegion lay s)) with
    | mk r c =>
      cases r with
      | ok _ => exact hb _ _ _
      | error e =>
        simp only
        split <;> exact hb _ _ _
  have hsees : ∀ {s t : Mgr}, Told lay s → Sees s t → Told lay t := fun hs h => by
    unfold Told at *
    rw [h.told, h.value]
    exact hs
  induction h with
  | init s env fuel he => exact hreset s env fuel
  | step s env op hr he hf hn ih =>
    have hi := hr.reach.inv hl
    cases hu : s.up
    · cases op <;> simp only [Recovery.step, hu, Bool.not_false, if_true]
      case reset f => exact hreset s env f
      all_goals exact ih
    · cases op <;> simp only [Recovery.step, hu, Bool.not_true, Bool.false_eq_true, if_false]
      case reset f => exact hreset s env f
      case getActive => exact hsees ih (sees_acquire s)
      case free => exact hsees ih (sees_free s _)
      case measure => exact hsees ih (measuredData_eq hi _ _).2
      case write => exact hsees ih (sees_write hl he hi hf)
      case persist => exact ih
      case eraseAll =>
        refine told_erase hl hi ih ?_
        have := hn rfl
        simp only [Recovery.step, hu, Bool.not_true, Bool.false_eq_true, if_false] at this
        exact this
      case clear size =>
        rcases clear_form hl hi size with h | ⟨_, fs, u, h⟩
        · rw [h]; exact ih
        · rw [h]
          cases htwo : lay.two with
          | true =>
            simp only [deactivated, Bool.not_true, Bool.false_and, Bool.false_eq_true, if_false]
            unfold Told
            rw [value_other (by rw [(region_two htwo s).1, (region_two htwo s).2]; exact other_ne _)]
            exact ih
          | false =>
            rw [region_single htwo]
            have hz : ∀ told, value lay ({ s with fs := fs, updating := some .r1, told := told }.set .r1 { s.r .r1 with valid := false, upd := u }) = zeros := fun told =>
              value_none (by rw [region_single htwo, set_same])
            cases hv : (s.r .r1).valid with
            | true => exact (hz zeros).symm
            | false =>
              exact (Eq.trans ih (value_none (by rw [region_single htwo]; exact hv))).trans (hz s.told).symm
      case activate f =>
        unfold Recovery.activate
        split
        · exact ih
        simp only
        split
        · exact ih
        rename_i hv
        split
        · exact ih
        cases hver : verify env s.fs.mem f (lay.base (region lay s false)) with
        | mk r c =>
          cases r with
          | error e =>
            simp only
            cases htwo : lay.two with
            | true =>
              unfold Told
              exact Eq.trans ih (value_other (fs := s.fs) (u := none) (by rw [(region_two htwo s).1, (region_two htwo s).2]; exact other_ne _)).symm
            | false =>
              rw [region_single htwo] at hv ⊢
              have hv' : (s.r .r1).valid = false := by simpa using hv
              unfold Told
              rw [value_none (by rw [region_single htwo, set_same]; exact hv')]
              exact Eq.trans ih (value_none (by rw [region_single htwo]; exact hv'))
          | ok u =>
            obtain ⟨d, rfl⟩ := verify_digest hver
            have := hi.updateActive ⟨env, s.fs.mem, f, he, hver, fun _ _ => rfl⟩
            obtain ⟨k1, k2⟩ := sees_activated (env := env) this
            exact k1.trans k2.value.symm

/-! ### Concrete cases and counterexamples -/

def demoDev : Dev := ⟨64, 16, 16, fun _ => .ok⟩

/-- Two regions of 128 bytes, or one. -/
def demoLay (two : Bool) : Layout := ⟨two, fun | .r1 => 0 | .r2 => 128, 128⟩

def demoMgr (m : Mem) : Mgr := ⟨false, fun _ => fresh 0 0 0 false none, .r1, .r1, none, ⟨m, 0⟩, []⟩

theorem demo_layout (two : Bool) : LayoutOk (demoLay two) demoDev demoEnv :=
  ⟨by decide, fun g => by cases g <;> simp [demoLay], fun _ i h1 h2 => by
    obtain ⟨k1, h1⟩ := h1
    obtain ⟨k2, h2⟩ := h2
    simp only [demoLay, demoDev] at h1 h2
    omega, by decide⟩

/-- A history. -/
def run (lay : Layout) (s : Mgr) (ops : List Op) : Mgr := ops.foldl (fun s op => (step lay demoDev demoEnv s op).2) s

theorem reach_run {lay : Layout} (m : Mem) (f : Nat) (ops : List Op) (h : ∀ op ∈ ops, op.Fits lay demoEnv) : Reach lay demoDev demoEnv (run lay (reset lay demoDev demoEnv (demoMgr m) f).2 ops) := by
  have : ∀ (l : List Op) (s : Mgr), Reach lay demoDev demoEnv s → (∀ op ∈ l, op.Fits lay demoEnv) → Reach lay demoDev demoEnv (run lay s l) := by
    intro l
    induction l with
    | nil => intro s hs _; exact hs
    | cons op l ih =>
      intro s hs hh
      exact ih _ (.step s demoEnv op hs ⟨rfl, rfl, rfl, rfl⟩ (hh op (by simp))) fun o ho => hh o (by simp [ho])
  exact this ops _ (.init _ _ f ⟨rfl, rfl, rfl, rfl⟩) h

def mErrIs (e : MErr) : Except MErr Unit → Bool
  | .ok _ => false
  | .error x => x = e

def mOk : Except MErr Unit → Bool
  | .ok _ => true
  | .error _ => false

/-- The flash has the image in the first region at the start. -/
def start (two : Bool) : Mgr := (reset (demoLay two) demoDev demoEnv (demoMgr (memOf demoImage)) 5).2

/-- Then the other (or the only) region is cleared and the image is written to it. -/
def loaded (two : Bool) : Mgr := run (demoLay two) (start two) [.clear 90, .write demoImage]

theorem loaded_reach (two : Bool) : Reach (demoLay two) demoDev demoEnv (loaded two) :=
  reach_run _ _ _ (by
    intro op h
    simp at h
    rcases h with rfl | rfl
    · trivial
    · simp only [Op.Fits, demoLay]; decide)

/-- The theorems apply: an update with two regions where the old image stays active until the new one is activated. -/
example : (activeImage (demoLay true) (start true) = some .r1 ∧ activeImage (demoLay true) (loaded true) = some .r1 ∧ remaining (loaded true) = 0 ∧
    activeImage (demoLay true) (step (demoLay true) demoDev demoEnv (loaded true) (.activate 5)).2 = some .r2) := by decide_cbv

/-- With one region the image goes away while it is replaced. -/
example : (activeImage (demoLay false) (start false) = some .r1 ∧ activeImage (demoLay false) (loaded false) = none ∧
    activeImage (demoLay false) (step (demoLay false) demoDev demoEnv (loaded false) (.activate 5)).2 = some .r1) := by decide_cbv

/-- An activation before everything is written is refused. -/
example : mErrIs .incomplete (step (demoLay true) demoDev demoEnv (run (demoLay true) (start true) [.clear 90, .write (demoImage.take 89)]) (.activate 5)).1 = true := by decide_cbv

/-- `crash_keeps_image` applies to the start: the image in the first region is good and fits. -/
example : (start true).saved = (start true).active ∧ WellFormed (start true).fs.mem demoEnv.size ((demoLay true).base (start true).active) 50 90 4 [(50, ⟨16, 2, 3⟩), (69, ⟨16, 0x10, 1⟩)] ∧
    90 ≤ (demoLay true).max ∧ Authentic demoEnv.sha demoEnv.sigOk (start true).fs.mem ((demoLay true).base (start true).active) 90 4 ∧
    ∀ id, demoEnv.pfm = some id → ForPlatform (start true).fs.mem ((demoLay true).base (start true).active) id ∧ 50 + id.length ≤ 50 := by
  have h1 : (start true).fs.mem = memOf demoImage := by
    unfold start reset
    split
    · rfl
    · split <;> rfl
  have h2 : (start true).active = .r1 := by decide_cbv
  rw [h1, h2]
  refine ⟨by decide_cbv, demo_wellFormed, by decide, by unfold Authentic; decide_cbv, ?_⟩
  intro id h
  cases h
  exact ⟨by unfold ForPlatform; decide_cbv, by decide⟩

/-- Measured data: some bytes of the digest. -/
example : (match (measuredData (demoLay true) demoEnv (start true) 4 4).1 with | .ok b => b = [0x29, 0x7c, 0x14, 0x8a] | .error _ => false) = true := by decide_cbv

/-- Getting the active image while another task activates an image: the function looks at the region again after it released the lock. The image that was active is not returned, but its reference
was taken: nothing can ever give it back and the region can never be written again. -/
theorem get_active_race_leak :
    let s1 := (acquire (demoLay true) (loaded true)).2
    let g := (acquire (demoLay true) (loaded true)).1
    let s2 := (step (demoLay true) demoDev demoEnv s1 (.activate 5)).2
    (acquired s2 g = none ∧ (s2.r g).ref = 1 ∧ mErrIs .inUse (step (demoLay true) demoDev demoEnv s2 (.clear 90)).1 = true) := by decide_cbv

/-- The same with one region: an image is returned without a reference, and can be erased while it is used. -/
theorem get_active_race_unheld :
    let s1 := (acquire (demoLay false) (loaded false)).2
    let g := (acquire (demoLay false) (loaded false)).1
    let s2 := (step (demoLay false) demoDev demoEnv s1 (.activate 5)).2
    let s3 := step (demoLay false) demoDev demoEnv s2 (.clear 90)
    (acquired s2 g = some g ∧ mOk s3.1 = true ∧ s3.2.fs.mem 0 = 0xff ∧ s2.fs.mem 0 = 50) := by decide_cbv

/-- An activation is not saved by the manager itself. If the new image is activated, the next update starts, and power is lost before the host state was saved, there is no recovery image after the
reset, although the last one that was activated is still in its region. -/
theorem activation_not_saved :
    let s := run (demoLay true) (loaded true) [.activate 5, .clear 90]
    let t := (reset (demoLay true) demoDev demoEnv s 5).2
    (activeImage (demoLay true) s = some .r2 ∧ activeImage (demoLay true) t = none ∧ okIs (verify demoEnv t.fs.mem 5 128).1 = true) := by decide_cbv

/-- A header with an image length of 2^24 bytes, more than the flash has. -/
def longHeader : Bytes := [50, 0, 0, 0, 0x29, 0x7c, 0x14, 0x8a] ++ (0x31 :: List.replicate 31 0) ++ [0, 0, 0, 1] ++ [4, 0, 0, 0] ++ [1, 0]

/-- What is written before an activation has not been checked, but the next reset reads it: a header that says the image is larger than the flash gives a read error there, and the manager does not start. -/
theorem unchecked_data_stops_boot :
    let s := run (demoLay false) (start false) [.clear 50, .write longHeader]
    (s.up = true ∧ mErrIs (.image .flash) (reset (demoLay false) demoDev demoEnv s 5).1 = true ∧ (reset (demoLay false) demoDev demoEnv s 5).2.up = false) := by decide_cbv

/-- Two regions of 64 bytes, one after the other. -/
def smallLay : Layout := ⟨true, fun | .r1 => 0 | .r2 => 64, 64⟩

/-- The image does not have to fit its region: an image of 90 bytes in a region of 64 bytes is active, and clearing the other region destroys it while it stays active. -/
theorem image_larger_than_region :
    let s := (reset smallLay demoDev demoEnv (demoMgr (memOf demoImage)) 5).2
    let t := (step smallLay demoDev demoEnv s (.clear 64)).2
    (activeImage smallLay s = some .r1 ∧ activeImage smallLay t = some .r1 ∧ okIs (verify demoEnv s.fs.mem 5 0).1 = true ∧ okIs (verify demoEnv t.fs.mem 5 0).1 = false) := by decide_cbv

/-- Erasing everything while the image is in use fails and the image stays active, but the observers are told that there is no image any more: the measurement that was recorded is wrong. -/
theorem erase_in_use_told_wrong :
    let s := run (demoLay false) (start false) [.getActive]
    let t := step (demoLay false) demoDev demoEnv s .eraseAll
    (mErrIs .inUse t.1 = true ∧ activeImage (demoLay false) t.2 = some .r1 ∧ s.told = value (demoLay false) s ∧ t.2.told ≠ value (demoLay false) t.2) := by decide_cbv

end Verif.Recovery
