import Verif.Recovery.ManagerSpec
import Verif.Recovery.Props
/-! The invariant of the recovery image manager. -/
namespace Verif.Recovery
open Flash (Mem Dev FS Touched Updater)

variable {lay : Layout} {dv : Dev} {env env0 : Env}

/-- A region that exists. -/
def Legit (lay : Layout) (g : Reg) : Prop := lay.two = true ∨ g = .r1

theorem apart_of (hl : LayoutOk lay dv env0) {g h : Reg} (hg : Legit lay g) (hh : Legit lay h) (hne : g ≠ h) {i : Nat} (hi : InRegion lay dv g i) : ¬ InRegion lay dv h i := by
  cases g <;> cases h
  · exact (hne rfl).elim
  · rcases hh with h2 | h2
    · exact hl.apart h2 i hi
    · cases h2
  · rcases hg with h2 | h2
    · exact fun hc => hl.apart h2 i hc hi
    · cases h2
  · exact (hne rfl).elim

theorem legit_region (s : Mgr) (b : Bool) : Legit lay (region lay s b) := by
  unfold region Legit
  cases h : lay.two
  · right; rfl
  · left; rfl

structure UpdOk (lay : Layout) (dv : Dev) (g : Reg) (u : Updater) : Prop where
  base : u.base = lay.base g
  max : u.maxSize = lay.max
  erase : u.eraseSize = dv.block
  offset : u.writeOffset ≤ lay.max

/-- Only bytes of the region differ. -/
def OnlyRegion (lay : Layout) (dv : Dev) (g : Reg) (m m' : Mem) : Prop := ∀ i, ¬ InRegion lay dv g i → m' i = m i

theorem prepareRegion_form (hl : LayoutOk lay dv env0) {s : Mgr} {g : Reg} (hu : UpdOk lay dv g (s.r g).upd) (size : Nat) :
    ∃ u fs, (prepareRegion dv s g size).2 = { s with fs := fs }.set g { s.r g with upd := u } ∧ UpdOk lay dv g u ∧ OnlyRegion lay dv g s.fs.mem fs.mem := by
  obtain ⟨u1, u2, u3, u4⟩ := hu
  have hf := hl.fits g
  obtain ⟨p1, p2, p3⟩ := Flash.prepare_spec dv (s.r g).upd s.fs size size (by rw [u3]; exact hl.block) id (by omega)
  have hsz : (Flash.prepare dv (s.r g).upd s.fs size size).2.2 = s.fs ∨ size ≤ lay.max := by
    by_cases h : size ≤ lay.max
    · exact .inr h
    · left
      unfold Flash.prepare
      rw [if_pos (by omega)]
  cases hp : Flash.prepare dv (s.r g).upd s.fs size size with
  | mk st x =>
    obtain ⟨u, fs⟩ := x
    rw [hp] at p1 p2 p3 hsz
    simp only at p1 p2 p3 hsz
    refine ⟨u, fs, ?_, ?_, ?_⟩
    · unfold prepareRegion
      rw [hp]
      cases st <;> rfl
    · by_cases hst : st = .ok
      · rw [(p3 hst).2.1]
        exact ⟨u1, u2, u3, Nat.zero_le _⟩
      · rw [p2 hst]
        exact ⟨u1, u2, u3, u4⟩
    · intro i hi
      rcases hsz with h | h
      · rw [h]
      · refine p1 i fun ht => hi ?_
        rw [u3, u1] at ht
        exact ht.mono (Nat.le_refl _) (by omega)

theorem writeData_form (hl : LayoutOk lay dv env0) (he : Same env env0) {s : Mgr} {g : Reg} (hg : s.updating = some g) (hu : UpdOk lay dv g (s.r g).upd) {d : Bytes}
    (hd : lay.max + d.length < 2 ^ env0.w) :
    ∃ u fs, (writeData dv env s d).2 = { s with fs := fs }.set g { s.r g with upd := u } ∧ UpdOk lay dv g u ∧ OnlyRegion lay dv g s.fs.mem fs.mem := by
  obtain ⟨u1, u2, u3, u4⟩ := hu
  have hf := hl.fits g
  rw [← he.1] at hd
  obtain ⟨p1, ⟨n, n1, n2, n3⟩, _⟩ := Flash.writeUpdate_spec env.w dv (s.r g).upd s.fs d (by omega) (by omega)
  cases hp : Flash.writeUpdate env.w dv (s.r g).upd s.fs d with
  | mk st x =>
    obtain ⟨u, fs⟩ := x
    rw [hp] at p1 n2
    simp only at p1 n2
    refine ⟨u, fs, ?_, ?_, ?_⟩
    · unfold writeData
      rw [hg]
      simp only
      rw [hp]
      cases st <;> rfl
    · rw [n2]
      refine ⟨u1, u2, u3, ?_⟩
      simp only
      by_cases h0 : n = 0
      · omega
      · have := n3 h0; omega
    · intro i hi
      refine p1 i ?_
      apply Classical.byContradiction
      intro hc
      exact hi (.of_mem (by omega) (by omega))

theorem eraseRecovery_form (hl : LayoutOk lay dv env0) {s : Mgr} {g : Reg} (hu : UpdOk lay dv g (s.r g).upd) :
    (eraseRecovery dv s g = (.error .inUse, s) ∧ (s.r g).ref ≠ 0) ∨
    ((s.r g).ref = 0 ∧ ∃ fs, (eraseRecovery dv s g).2 = { s with fs := fs }.set g { s.r g with valid := false } ∧ OnlyRegion lay dv g s.fs.mem fs.mem) := by
  obtain ⟨u1, u2, u3, u4⟩ := hu
  have hf := hl.fits g
  unfold eraseRecovery
  by_cases h0 : (s.r g).ref ≠ 0
  · rw [if_pos h0]
    exact .inl ⟨rfl, h0⟩
  · rw [if_neg h0]
    refine .inr ⟨by omega, ?_⟩
    obtain ⟨p1, _⟩ := Flash.eraseRegion_spec dv dv.block hl.block s.fs (s.r g).upd.base (s.r g).upd.maxSize (by omega)
    cases hp : Flash.eraseRegion dv dv.block s.fs (s.r g).upd.base (s.r g).upd.maxSize with
    | mk st fs =>
      rw [hp] at p1
      refine ⟨fs, by cases st <;> rfl, fun i hi => p1 i ?_⟩
      rw [u1, u2]
      exact hi

/-- The invariant: regions are as laid out; only the active region is valid, and its image was verified and is in the cache; the region being updated is not the active one (with two regions), is not in use and not valid. -/
structure Inv (lay : Layout) (dv : Dev) (env0 : Env) (s : Mgr) : Prop where
  upd : ∀ g, UpdOk lay dv g (s.r g).upd
  used : ∀ g, (s.r g).ref ≠ 0 → Legit lay g
  valid : ∀ g, (s.r g).valid = true → g = region lay s true ∧ ∃ h, (s.r g).cache = some h ∧ VerifiedAs lay dv env0 s.fs.mem g h
  updating : ∀ g, s.updating = some g → g = region lay s false ∧ (s.r g).ref = 0 ∧ (s.r g).valid = false

theorem set_same (s : Mgr) (g : Reg) (x : Region) : (s.set g x).r g = x := by simp [Mgr.set]
theorem set_other (s : Mgr) (g h : Reg) (x : Region) (hne : h ≠ g) : (s.set g x).r h = s.r h := by simp [Mgr.set, hne]
theorem region_set (s : Mgr) (g : Reg) (x : Region) (b : Bool) : region lay (s.set g x) b = region lay s b := rfl

theorem VerifiedAs.keep (hl : LayoutOk lay dv env0) {m m' : Mem} {g h : Reg} {d : Bytes} (hv : VerifiedAs lay dv env0 m h d) (hg : Legit lay g) (hh : Legit lay h) (hne : g ≠ h)
    (ho : OnlyRegion lay dv g m m') : VerifiedAs lay dv env0 m' h d := by
  obtain ⟨e, m0, f, a, b, c⟩ := hv
  exact ⟨e, m0, f, a, b, fun i hi => by rw [ho i (fun hc => apart_of hl hg hh hne hc hi), c i hi]⟩

/-- A change of the flash in a region that is not valid, with a new updater. -/
theorem Inv.rewrite (hl : LayoutOk lay dv env0) {s : Mgr} (hi : Inv lay dv env0 s) {g : Reg} (hg : Legit lay g) (hv : (s.r g).valid = false) {u : Updater} {fs : FS}
    (hu : UpdOk lay dv g u) (ho : OnlyRegion lay dv g s.fs.mem fs.mem) : Inv lay dv env0 ({ s with fs := fs }.set g { s.r g with upd := u }) := by
  obtain ⟨i1, i2, i3, i4⟩ := hi
  refine ⟨fun h => ?_, fun h => ?_, fun h hh => ?_, fun h hh => ?_⟩
  · by_cases he : h = g
    · subst he; rw [set_same]; exact hu
    · rw [set_other _ _ _ _ he]; exact i1 h
  · by_cases he : h = g
    · subst he; rw [set_same]; exact i2 h
    · rw [set_other _ _ _ _ he]; exact i2 h
  · by_cases he : h = g
    · subst he
      rw [set_same] at hh
      simp only at hh
      rw [hv] at hh
      cases hh
    · rw [set_other _ _ _ _ he] at hh ⊢
      obtain ⟨j1, d, j2, j3⟩ := i3 h hh
      exact ⟨j1, d, j2, j3.keep hl hg (j1 ▸ legit_region s true) (fun e => he e.symm) ho⟩
  · by_cases he : h = g
    · subst he; rw [set_same]; exact i4 h hh
    · rw [set_other _ _ _ _ he]; exact i4 h hh

/-- A region becomes invalid and its flash changes. -/
theorem Inv.invalidate (hl : LayoutOk lay dv env0) {s : Mgr} (hi : Inv lay dv env0 s) {g : Reg} (hg : Legit lay g) {fs : FS} (ho : OnlyRegion lay dv g s.fs.mem fs.mem) :
    Inv lay dv env0 ({ s with fs := fs }.set g { s.r g with valid := false }) := by
  obtain ⟨i1, i2, i3, i4⟩ := hi
  refine ⟨fun h => ?_, fun h => ?_, fun h hh => ?_, fun h hh => ?_⟩
  · by_cases he : h = g
    · subst he; rw [set_same]; exact i1 h
    · rw [set_other _ _ _ _ he]; exact i1 h
  · by_cases he : h = g
    · subst he; rw [set_same]; exact i2 h
    · rw [set_other _ _ _ _ he]; exact i2 h
  · by_cases he : h = g
    · subst he
      rw [set_same] at hh
      cases hh
    · rw [set_other _ _ _ _ he] at hh ⊢
      obtain ⟨j1, d, j2, j3⟩ := i3 h hh
      exact ⟨j1, d, j2, j3.keep hl hg (j1 ▸ legit_region s true) (fun e => he e.symm) ho⟩
  · obtain ⟨j1, j2, j3⟩ := i4 h hh
    by_cases he : h = g
    · subst he; rw [set_same]; exact ⟨j1, j2, rfl⟩
    · rw [set_other _ _ _ _ he]; exact ⟨j1, j2, j3⟩

theorem Inv.idle {s : Mgr} (hi : Inv lay dv env0 s) : Inv lay dv env0 { s with updating := none } := ⟨hi.upd, hi.used, hi.valid, nofun⟩
theorem Inv.tell {s : Mgr} (hi : Inv lay dv env0 s) (t : Bytes) : Inv lay dv env0 { s with told := t } := ⟨hi.upd, hi.used, hi.valid, hi.updating⟩
theorem Inv.deactivated {s : Mgr} (hi : Inv lay dv env0 s) (b : Bool) : Inv lay dv env0 (deactivated b s) := by
  unfold Recovery.deactivated
  split
  · exact hi.tell _
  · exact hi

theorem Inv.reref {s : Mgr} (hi : Inv lay dv env0 s) {g : Reg} {n : Nat} (hl : n ≠ 0 → Legit lay g) (hn : s.updating = some g → n = 0) :
    Inv lay dv env0 (s.set g { s.r g with ref := n }) := by
  obtain ⟨i1, i2, i3, i4⟩ := hi
  refine ⟨fun h => ?_, fun h hr => ?_, fun h hh => ?_, fun h hh => ?_⟩
  · by_cases he : h = g
    · subst he; rw [set_same]; exact i1 h
    · rw [set_other _ _ _ _ he]; exact i1 h
  · by_cases he : h = g
    · subst he; rw [set_same] at hr; exact hl hr
    · rw [set_other _ _ _ _ he] at hr; exact i2 h hr
  · by_cases he : h = g
    · subst he; rw [set_same] at hh ⊢; exact i3 h hh
    · rw [set_other _ _ _ _ he] at hh ⊢; exact i3 h hh
  · obtain ⟨j1, j2, j3⟩ := i4 h hh
    by_cases he : h = g
    · subst he; rw [set_same]; exact ⟨j1, hn hh, j3⟩
    · rw [set_other _ _ _ _ he]; exact ⟨j1, j2, j3⟩

theorem Inv.acquire {s : Mgr} (hi : Inv lay dv env0 s) : Inv lay dv env0 (Recovery.acquire lay s).2 := by
  unfold Recovery.acquire
  simp only
  split
  · rename_i hv
    exact hi.reref (fun _ => legit_region s true) fun hu => by
      obtain ⟨_, _, h⟩ := hi.updating _ hu
      rw [hv] at h
      cases h
  · exact hi

theorem Inv.free {s : Mgr} (hi : Inv lay dv env0 s) (g : Reg) : Inv lay dv env0 (Recovery.free s g) := by
  unfold Recovery.free
  split
  · rename_i h
    exact hi.reref (fun _ => hi.used g (by omega)) fun hu => by
      obtain ⟨_, h', _⟩ := hi.updating _ hu
      omega
  · exact hi

theorem Inv.measure {s : Mgr} (hi : Inv lay dv env0 s) (o l : Nat) : Inv lay dv env0 (measuredData lay env s o l).2 := by
  unfold measuredData
  split
  · exact hi
  split
  · rename_i h
    have := hi.acquire
    rw [show (Recovery.acquire lay s).2 = (getActive lay s).2 from rfl, h] at this
    exact this
  · rename_i h
    have := hi.acquire
    rw [show (Recovery.acquire lay s).2 = (getActive lay s).2 from rfl, h] at this
    split
    · exact this.free _
    · exact this.free _

theorem Inv.clear (hl : LayoutOk lay dv env0) {s : Mgr} (hi : Inv lay dv env0 s) (size : Nat) : Inv lay dv env0 (Recovery.clear lay dv s size).2 := by
  unfold Recovery.clear
  simp only
  by_cases h1 : (s.r (region lay s false)).ref ≠ 0
  · rw [if_pos h1]; exact hi
  rw [if_neg h1]
  by_cases h2 : Flash.checkUpdateSize (s.r (region lay s false)).upd size ≠ .ok
  · rw [if_pos h2]; exact hi
  rw [if_neg h2]
  apply Inv.deactivated
  have hi2 : Inv lay dv env0 ({ s with updating := some (region lay s false) }.set (region lay s false) { s.r (region lay s false) with valid := false }) := by
    have := (hi.invalidate hl (legit_region s false) (fs := s.fs) (fun _ _ => rfl))
    refine ⟨this.upd, this.used, this.valid, ?_⟩
    rintro g hg
    cases hg
    rw [set_same]
    exact ⟨rfl, by simpa using h1, rfl⟩
  obtain ⟨u, fs, e1, e2, e3⟩ := prepareRegion_form hl (hi2.upd (region lay s false)) size
  rw [e1]
  refine hi2.rewrite hl (legit_region s false) ?_ e2 e3
  rw [set_same]

theorem Inv.write (hl : LayoutOk lay dv env0) (he : Same env env0) {s : Mgr} (hi : Inv lay dv env0 s) {d : Bytes} (hd : lay.max + d.length < 2 ^ env0.w) :
    Inv lay dv env0 (writeData dv env s d).2 := by
  cases hu : s.updating with
  | none => unfold writeData; rw [hu]; exact hi
  | some g =>
    obtain ⟨j1, j2, j3⟩ := hi.updating g hu
    obtain ⟨u, fs, e1, e2, e3⟩ := writeData_form hl he hu (hi.upd g) hd
    rw [e1]
    exact hi.rewrite hl (j1 ▸ legit_region s false) j3 e2 e3

theorem Inv.eraseRecovery (hl : LayoutOk lay dv env0) {s : Mgr} (hi : Inv lay dv env0 s) {g : Reg} (hg : Legit lay g) : Inv lay dv env0 (Recovery.eraseRecovery dv s g).2 := by
  rcases eraseRecovery_form hl (hi.upd g) with ⟨h, _⟩ | ⟨_, fs, h, ho⟩
  · rw [h]; exact hi
  · rw [h]; exact hi.invalidate hl hg ho

theorem Inv.eraseAll (hl : LayoutOk lay dv env0) {s : Mgr} (hi : Inv lay dv env0 s) : Inv lay dv env0 (Recovery.eraseAll lay dv s).2 := by
  have h1 := hi.eraseRecovery hl (legit_region s false)
  unfold Recovery.eraseAll
  simp only
  cases he : Recovery.eraseRecovery dv s (region lay s false) with
  | mk r t =>
    rw [he] at h1
    simp only at h1
    cases r with
    | error e => exact h1.deactivated _
    | ok u =>
      simp only
      split
      · exact (h1.idle.eraseRecovery hl (legit_region t true)).deactivated _
      · exact h1.idle.deactivated _

theorem other_ne (g : Reg) : g.other ≠ g := by cases g <;> nofun
theorem other_other (g : Reg) : g.other.other = g := by cases g <;> rfl
theorem eq_other {g h : Reg} (hne : g ≠ h) : g = h.other := by cases g <;> cases h <;> first | rfl | exact (hne rfl).elim

theorem Inv.activated {s : Mgr} (hi : Inv lay dv env0 s) : Inv lay dv env0 (Recovery.activated lay env s) := by
  unfold Recovery.activated
  split
  · rename_i h
    have := hi.acquire
    rw [show (Recovery.acquire lay s).2 = (getActive lay s).2 from rfl, h] at this
    exact this.tell _
  · rename_i h
    have := hi.acquire
    rw [show (Recovery.acquire lay s).2 = (getActive lay s).2 from rfl, h] at this
    split
    · exact (this.tell _).free _
    · exact this.free _

theorem region_single (ht : lay.two = false) (t : Mgr) (b : Bool) : region lay t b = .r1 := by unfold region; rw [ht]; rfl
theorem region_two (ht : lay.two = true) (t : Mgr) : region lay t true = t.active ∧ region lay t false = t.active.other := by unfold region; rw [ht]; exact ⟨rfl, rfl⟩

/-- What `updateActive` gives for the region that is not active. -/
theorem Inv.updateActive {s : Mgr} (hi : Inv lay dv env0 s) {h : Bytes} (hv : VerifiedAs lay dv env0 s.fs.mem (region lay s false) h) :
    Inv lay dv env0 { Recovery.updateActive lay (s.set (region lay s false) { s.r (region lay s false) with cache := some h }) (region lay s false) with updating := none } := by
  obtain ⟨i1, i2, i3, i4⟩ := hi
  cases ht : lay.two with
  | false =>
    rw [region_single ht] at hv ⊢
    unfold Recovery.updateActive makeActive
    rw [if_neg (by rw [region_single ht]; simp)]
    refine ⟨fun g => ?_, fun g => ?_, fun g hg => ?_, nofun⟩
    · cases g
      · exact i1 .r1
      · exact i1 .r2
    · cases g
      · exact i2 .r1
      · exact i2 .r2
    · cases g
      · exact ⟨(region_single ht _ _).symm, h, rfl, hv⟩
      · have := (i3 .r2 hg).1
        rw [region_single ht] at this
        cases this
  | true =>
    rw [(region_two ht s).2] at hv ⊢
    unfold Recovery.updateActive makeActive
    rw [if_pos (by rw [(region_two ht _).1]; exact other_ne _)]
    have r1 : ∀ g, g = s.active ∨ g = s.active.other := fun g => by
      by_cases hc : g = s.active
      · exact .inl hc
      · exact .inr (eq_other hc)
    have k1 : s.active ≠ s.active.other := fun h => other_ne _ h.symm
    refine ⟨fun g => ?_, fun g => ?_, fun g hg => ?_, nofun⟩
    · rcases r1 g with rfl | rfl
      · simp [Mgr.set, k1]; exact i1 _
      · simp [Mgr.set, other_ne]; exact i1 _
    · rcases r1 g with rfl | rfl
      · simp [Mgr.set, k1]; exact fun h => i2 _ h
      · simp [Mgr.set, other_ne]; exact fun h => i2 _ h
    · rcases r1 g with rfl | rfl
      · simp [Mgr.set] at hg
      · refine ⟨?_, h, ?_, hv⟩
        · rw [(region_two ht _).1]; simp [Mgr.set]
        · simp [Mgr.set, other_ne]

theorem verify_digest {env : Env} {m : Mem} {fuel a : Nat} {c : Option Bytes} (h : verify env m fuel a = (.ok (), c)) : ∃ d, c = some d := by
  unfold verify at h
  cases ha : authenticate env m a with
  | mk r c' =>
    rw [ha] at h
    cases r with
    | error e => cases h
    | ok g =>
      simp only at h
      have hc : c = c' := by
        cases hp : checkPlatform env g with
        | error e => rw [hp] at h; cases h
        | ok u => rw [hp] at h; exact (congrArg Prod.snd h).symm
      subst hc
      unfold authenticate at ha
      split at ha
      · cases ha
      split at ha
      · cases ha
      split at ha
      · cases ha
      unfold contentsVerification at ha
      split at ha
      · cases ha
      rename_i hx
      cases ha
      split at hx
      · cases hx
      split at hx
      · cases hx
      split at hx
      · cases hx
      split at hx
      · cases hx; exact ⟨_, rfl⟩
      · cases hx

theorem Inv.activate (he : Same env env0) {s : Mgr} (hi : Inv lay dv env0 s) (fuel : Nat) : Inv lay dv env0 (Recovery.activate lay env s fuel).2 := by
  unfold Recovery.activate
  split
  · exact hi
  simp only
  split
  · exact hi.idle
  rename_i hv
  split
  · exact hi
  cases hver : verify env s.fs.mem fuel (lay.base (region lay s false)) with
  | mk r c =>
    cases r with
    | error e =>
      obtain ⟨i1, i2, i3, i4⟩ := hi
      refine ⟨fun h => ?_, fun h => ?_, fun h hh => ?_, nofun⟩
      · simp only [Mgr.set]; split <;> rename_i hx
        · subst hx; exact i1 _
        · exact i1 _
      · simp only [Mgr.set]; split <;> rename_i hx
        · subst hx; exact i2 _
        · exact i2 _
      · simp only [Mgr.set] at hh ⊢
        split at hh
        · rename_i hx
          exact (hv hh).elim
        · rename_i hx
          rw [if_neg hx]
          exact i3 h hh
    | ok u =>
      obtain ⟨d, rfl⟩ := verify_digest hver
      simp only
      apply Inv.activated
      exact hi.updateActive ⟨env, s.fs.mem, fuel, he, hver, fun _ _ => rfl⟩

theorem Inv.booted (he : Same env env0) {s : Mgr} {fuel : Nat} {r : Except Err Unit} {c : Option Bytes} (hver : verify env s.fs.mem fuel (lay.base (bootRegion lay s)) = (r, c))
    (up v : Bool) (hv : v = true → r = .ok ()) : Inv lay dv env0 (Recovery.booted lay dv s up v c) := by
  have hfresh : ∀ g v c, UpdOk lay dv g (fresh (lay.base g) lay.max dv.block v c).upd := fun g v c => ⟨rfl, rfl, rfl, Nat.zero_le _⟩
  unfold Recovery.booted
  refine ⟨fun g => ?_, fun g hg => ?_, fun g hg => ?_, nofun⟩
  · by_cases hx : g = bootRegion lay s
    · simp only [if_pos hx]; exact hfresh _ _ _
    · simp only [if_neg hx]; exact hfresh _ _ _
  · by_cases hx : g = bootRegion lay s
    · simp only [if_pos hx] at hg; exact (hg rfl).elim
    · simp only [if_neg hx] at hg; exact (hg rfl).elim
  · by_cases hx : g = bootRegion lay s
    · simp only [if_pos hx] at hg ⊢
      have := hv hg
      subst this
      obtain ⟨d, rfl⟩ := verify_digest hver
      exact ⟨hx, d, rfl, env, s.fs.mem, fuel, he, hx ▸ hver, fun i _ => rfl⟩
    · simp only [if_neg hx] at hg; cases hg

theorem Inv.reset (he : Same env env0) (s : Mgr) (fuel : Nat) : Inv lay dv env0 (Recovery.reset lay dv env s fuel).2 := by
  unfold Recovery.reset
  cases hver : verify env s.fs.mem fuel (lay.base (bootRegion lay s)) with
  | mk r c =>
    cases r with
    | ok u => exact .booted he hver true true fun _ => rfl
    | error e =>
      simp only
      split
      · exact .booted he hver true false nofun
      · exact .booted he hver false false nofun

theorem Inv.step (hl : LayoutOk lay dv env0) (he : Same env env0) {s : Mgr} (hi : Inv lay dv env0 s) (op : Op) (hf : op.Fits lay env0) : Inv lay dv env0 (Recovery.step lay dv env s op).2 := by
  cases hu : s.up
  · cases op <;> simp only [Recovery.step, hu, Bool.not_false, if_true] <;> first | exact hi | exact .reset he s _
  · cases op <;> simp only [Recovery.step, hu, Bool.not_true, Bool.false_eq_true, if_false]
    · exact hi.acquire
    · exact hi.free _
    · exact hi.clear hl _
    · exact hi.write hl he hf
    · exact hi.activate he _
    · exact hi.eraseAll hl
    · exact hi.measure _ _
    · exact ⟨hi.upd, hi.used, hi.valid, hi.updating⟩
    · exact .reset he s _

theorem Reach.inv (hl : LayoutOk lay dv env0) {s : Mgr} (h : Reach lay dv env0 s) : Inv lay dv env0 s := by
  induction h with
  | init s env fuel he => exact .reset he s fuel
  | step s env op _ he hf ih => exact ih.step hl he op hf

end Verif.Recovery
