import Verif.HostFlash.Lemmas
/-! Properties of validating host flash. -/
namespace Verif.HostFlash
open Verif.Flash Verif.HostFw

/-! ### C73: validation -/

/-- What is left when a triple ends well. -/
theorem Tri.ok {P : St → Prop} {m : M α} {Q : α → St → Prop} {E : Err → St → Prop} (h : Tri P m Q E) {s t : St} {a : α} (hs : P s)
    (e : m s = (.ok a, t)) : Q a t := by
  have := h s hs
  rw [e] at this; exact this

theorem verifyEntries_boot {env : Env} {w : Bool} {off : Nat} {xs : List Entry} {c : Mem} (hg : ∀ x ∈ xs, x.images.Good env.eg off) :
    Tri (On c) (verifyEntries env false w off xs) (fun _ s => (∀ x ∈ xs, x.images.BootAuthentic env.eg c off) ∧ On c s) (fun _ s => On c s) := by
  unfold verifyEntries
  simp only [Bool.false_eq_true, if_false]
  have hg' : ∀ l ∈ xs.map (·.images), l.Good env.eg off := by
    intro l hl; obtain ⟨x, hx, rfl⟩ := List.mem_map.1 hl; exact hg x hx
  refine lift_on fun fs hfs => ?_
  have hm := eachUntil_mem (f := verifyOnFlash env.dv env.eg env.stack false off) (l := xs.map (·.images))
      (fun l hl s => verifyOnFlash_mem env.dv env.eg env.stack false off l s (hg' l hl)) fs
  refine ⟨hm.trans hfs, fun _ h x hx => ?_⟩
  have := (boot_verification_sound env.dv env.eg env.stack off (xs.map (·.images)) fs _ hg' (Prod.ext h rfl)).2 x.images (List.mem_map.2 ⟨x, hx, rfl⟩)
  rw [hfs] at this; exact this

/-- C73: if flash is validated at a boot, then for each firmware that the PFM lists, a version that it supports is on the flash, and the images of that version
that are to be checked at each boot are authentic. The read/write regions that are reported are those of that version. The flash is not changed. -/
theorem validation_sound {env : Env} {p : Pfm} {w : Bool} {off : Nat} (hp : p.WellFormed env.eg off) {s t : St} {xs : List Entry}
    (h : validateFlash env p false w off s = (.ok xs, t)) :
    t.fs.mem = s.fs.mem ∧ ∃ ids, p.firmware = some ids ∧
      Each (fun id x => x.Of p s.fs.mem off id ∧ x.images.BootAuthentic env.eg s.fs.mem off ∧ (w = true → x.Regions p id)) ids xs := by
  have key : Tri (On s.fs.mem) (validateFlash env p false w off)
      (fun xs t => (∃ ids, p.firmware = some ids ∧
        Each (fun id x => x.Of p s.fs.mem off id ∧ (w = true → x.Regions p id)) ids xs ∧ ∀ x ∈ xs, x.images.BootAuthentic env.eg s.fs.mem off) ∧
        On s.fs.mem t) (fun _ s' => On s.fs.mem s') := by
    unfold validateFlash
    refine firmwareTypes_on.bind fun ids => Tri.pull fun hids => ?_
    refine (entriesLoop_on hp ids 0).bind fun xs => Tri.pull fun hxs => ?_
    refine (finish_on (verifyEntries_boot ?_)).bind fun _ => Tri.pull fun hv => Tri.ret fun s' hs' => ⟨⟨ids, hids, hxs, hv⟩, hs'⟩
    intro x hx
    obtain ⟨id, _, ho, _⟩ := hxs.mem x hx
    exact (hp.images id _ _ ho.images).1
  obtain ⟨⟨ids, hids, he, hv⟩, ht⟩ := key.ok rfl h
  refine ⟨ht, ids, hids, ?_⟩
  clear h key hids
  induction ids generalizing xs with
  | nil => cases xs with | nil => trivial | cons => exact he.elim
  | cons id ids ih =>
    cases xs with
    | nil => exact he.elim
    | cons x xs => exact ⟨⟨he.1.1, hv x (by simp), he.1.2⟩, ih he.2 fun y hy => hv y (by simp [hy])⟩

theorem readBlank_on {env : Env} {xs : List Entry} {c : Mem} (hst : ∀ b, env.stale b = some b) :
    Tri (On c) (readBlank env xs) (fun b s => (∃ x, xs.getLast? = some x ∧ b = x.version.blank) ∧ On c s) (fun _ s => On c s) := by
  intro s hs
  unfold readBlank
  cases hx : xs.getLast? with
  | none => exact hs
  | some x =>
    dsimp only
    by_cases h : s.live (.versions (xs.length - 1)) = true
    · rw [if_pos h]; exact ⟨⟨x, rfl, rfl⟩, hs⟩
    · rw [if_neg h, hst]; exact ⟨⟨x, rfl, rfl⟩, hs⟩

/-- C73: if the whole flash is validated, then all images are authentic, and every byte outside of images and read/write regions is blank: it has the value that
the version of the *last* firmware of the PFM gives. That the value is read from freed memory is ignored here (`hst`: the memory still holds it). -/
theorem full_validation_sound_partial {env : Env} {p : Pfm} (hst : ∀ b, env.stale b = some b) (hp : p.WellFormed env.eg 0) (hsz : env.size < 2 ^ 32)
    {s t : St} {xs : List Entry} (h : validateFlash env p true true 0 s = (.ok xs, t)) :
    t.fs.mem = s.fs.mem ∧ ∃ ids, p.firmware = some ids ∧
      Each (fun id x => x.Of p s.fs.mem 0 id ∧ x.images.AllAuthentic env.eg s.fs.mem 0 ∧ x.Regions p id) ids xs ∧
      ∃ x, xs.getLast? = some x ∧ ∀ a, a < env.size → Used xs a ∨ s.fs.mem a = x.version.blank := by
  have key : Tri (On s.fs.mem) (validateFlash env p true true 0)
      (fun xs t => (∃ ids, p.firmware = some ids ∧
        Each (fun id x => x.Of p s.fs.mem 0 id ∧ (true = true → x.Regions p id)) ids xs ∧ (∀ x ∈ xs, x.images.AllAuthentic env.eg s.fs.mem 0) ∧
        ∃ x, xs.getLast? = some x ∧ ∀ a, a < env.size → Used xs a ∨ s.fs.mem a = x.version.blank) ∧
        On s.fs.mem t) (fun _ s' => On s.fs.mem s') := by
    unfold validateFlash
    refine firmwareTypes_on.bind fun ids => Tri.pull fun hids => ?_
    refine (entriesLoop_on hp ids 0).bind fun xs => Tri.pull fun hxs => ?_
    refine (finish_on (R := (∀ x ∈ xs, x.images.AllAuthentic env.eg s.fs.mem 0) ∧
        ∃ x, xs.getLast? = some x ∧ ∀ a, a < env.size → Used xs a ∨ s.fs.mem a = x.version.blank) ?_).bind
      fun _ => Tri.pull fun hv => Tri.ret fun s' hs' => ⟨⟨ids, hids, hxs, hv⟩, hs'⟩
    unfold verifyEntries
    rw [if_pos rfl, if_pos rfl]
    refine (readBlank_on hst).bind fun b => Tri.pull fun hb => ?_
    obtain ⟨y, hy, rfl⟩ := hb
    have hg' : ∀ l ∈ xs.map (·.images), l.Good env.eg 0 := by
      intro l hl; obtain ⟨x, hx, rfl⟩ := List.mem_map.1 hl
      obtain ⟨id, _, ho, _⟩ := hxs.mem x hx
      exact (hp.images id _ _ ho.images).1
    have hfit : ∀ r ∈ imageRegions (xs.map (·.images)) ++ (xs.map (·.rw)).flatten, r.Fits := by
      intro r hr
      rcases List.mem_append.1 hr with hr | hr
      · simp only [imageRegions, List.mem_flatten, List.mem_flatMap, List.mem_map] at hr
        obtain ⟨g, ⟨l, ⟨x, hx, rfl⟩, hg⟩, hr⟩ := hr
        obtain ⟨id, _, ho, _⟩ := hxs.mem x hx
        exact (hp.images id _ _ ho.images).2 r (List.mem_flatten.2 ⟨g, hg, hr⟩)
      · simp only [List.mem_flatten, List.mem_map] at hr
        obtain ⟨g, ⟨x, hx, rfl⟩, hr⟩ := hr
        obtain ⟨id, _, _, ho⟩ := hxs.mem x hx
        exact hp.rw id _ _ (ho rfl) r hr
    refine liftOpt_on fun fs hfs r t e => ⟨(full_verification_reads_only _ _ _ _ _ _ _ _ _ _ _ hg' e).trans hfs, fun _ hr => ?_⟩
    subst hr
    obtain ⟨_, h2, h3⟩ := full_verification_sound _ _ _ _ _ _ _ _ _ _ hg' hsz hfit e
    rw [hfs] at h2 h3
    refine ⟨fun x hx => h2 _ (List.mem_map.2 ⟨x, hx, rfl⟩), y, hy, fun a ha => ?_⟩
    rcases h3 a ha with ⟨r, hr, hra⟩ | ⟨r, hr, hra⟩ | h
    · left
      simp only [imageRegions, List.mem_flatten, List.mem_flatMap, List.mem_map] at hr
      obtain ⟨g, ⟨l, ⟨x, hx, rfl⟩, hg⟩, hr⟩ := hr
      exact ⟨x, hx, .inl ⟨r, List.mem_flatten.2 ⟨g, hg, hr⟩, hra⟩⟩
    · left
      simp only [List.mem_flatten, List.mem_map] at hr
      obtain ⟨g, ⟨x, hx, rfl⟩, hr⟩ := hr
      exact ⟨x, hx, .inr ⟨r, hr, hra⟩⟩
    · exact .inr h
  obtain ⟨⟨ids, hids, he, hv, hb⟩, ht⟩ := key.ok rfl h
  refine ⟨ht, ids, hids, ?_, hb⟩
  clear h key hids hb
  induction ids generalizing xs with
  | nil => cases xs with | nil => trivial | cons => exact he.elim
  | cons id ids ih =>
    cases xs with
    | nil => exact he.elim
    | cons x xs => exact ⟨⟨he.1.1, hv x (by simp), he.1.2 rfl⟩, ih he.2 fun y hy => hv y (by simp [hy])⟩

/-- C73: asked for a full validation, the flash manager does it, also if there is a PFM that is known to be good. -/
theorem read_only_full_validation_partial {env : Env} {p : Pfm} {good : Option Pfm} (hst : ∀ b, env.stale b = some b) (hp : p.WellFormed env.eg 0)
    (hsz : env.size < 2 ^ 32) {s t : St} {xs : List Entry} (h : validateReadOnly env p good true s = (.ok xs, t)) :
    t.fs.mem = s.fs.mem ∧ ∃ ids, p.firmware = some ids ∧
      Each (fun id x => x.Of p s.fs.mem 0 id ∧ x.images.AllAuthentic env.eg s.fs.mem 0 ∧ x.Regions p id) ids xs ∧
      ∃ x, xs.getLast? = some x ∧ ∀ a, a < env.size → Used xs a ∨ s.fs.mem a = x.version.blank := by
  refine full_validation_sound_partial hst hp hsz (t := t) ?_
  cases good <;> exact h

/-- The heap when the verification starts: no list of versions is there any more. -/
theorem verify_without_versions {env : Env} {p : Pfm} {w : Bool} {off : Nat} {ids : List Bytes} :
    Tri (Heap (held w 0)) (entriesLoop env p off w 0 ids) (fun _ s => ∀ i, s.live (.versions i) = false) (fun _ _ => True) :=
  (entriesLoop_heap ids 0).conseq (fun _ h => h) (fun _ s h i => by rw [h.2.1]; rfl) (fun _ _ _ => trivial)

/-- C73, disagreement: a validation of the whole flash never succeeds without using memory after it was freed (host_flash_manager.c:220, 225), whatever
the PFM and the flash are. `h` says that such a use can have any effect. -/
theorem full_validation_uses_freed_memory {env : Env} {p : Pfm} {w : Bool} {off : Nat} (h : ∀ b, env.stale b = none) {s : St} (hs : Clean s) :
    ∀ xs t, validateFlash env p true w off s ≠ (.ok xs, t) := by
  have key : Tri (Heap none') (validateFlash env p true w off) (fun _ _ => False) (fun _ _ => True) := by
    unfold validateFlash
    refine Tri.bind (Q := fun _ => Heap (held w 0)) (firmwareTypes_heap.conseq (fun _ h => h) (fun _ s h => h.congr ?_) (fun _ _ _ => trivial)) fun ids => ?_
    · intro o; cases o <;> rfl
    refine verify_without_versions.bind fun xs => ?_
    refine Tri.bind (Q := fun _ _ => False) ?_ fun _ s hs => hs.elim
    unfold finish
    refine Tri.always (Q' := fun _ _ => False) (E' := fun _ _ => True) (Tri.onErr (E' := fun _ _ => True) ?_ fun _ _ _ => trivial) (fun _ _ h => h.elim) fun _ _ _ => trivial
    unfold verifyEntries
    rw [if_pos rfl]
    split
    · refine Tri.bind (Q := fun _ _ => False) ?_ fun _ s hs => hs.elim
      intro s hs
      unfold readBlank
      cases xs.getLast? with
      | none => trivial
      | some x =>
        dsimp only
        rw [if_neg (by rw [hs]; simp), h]
        trivial
    · exact Tri.fail fun _ _ => trivial
  intro xs t e
  exact key.ok (a := xs) (t := t) ⟨funext hs.1, hs.2⟩ e

/-- C73, disagreement: a PFM without firmware validates any flash. (`is_empty` tells such a PFM from others; the host processor asks before.) -/
theorem empty_pfm_validates_anything (env : Env) (p : Pfm) (hp : p.firmware = some []) (h1 : env.memImages = true) (h2 : env.memRw = true) (s : St) :
    (validateFlash env p false true 0 s).1 = .ok [] ∧ ∀ g, (validatePfm env p g true s).1 = .ok [] := by
  constructor
  · simp [validateFlash, firmwareTypes, hp, h1, h2, get, onErr, doIf, alloc, bind, pure, M.bind, M.pure, entriesLoop, finish, always, verifyEntries, lift,
      verifyImages, eachUntil]
  · intro g
    simp [validatePfm, firmwareTypes, hp, h1, h2, get, onErr, doIf, alloc, bind, pure, M.bind, M.pure, compareLoop, finish, always]


/-! Validation accepts good flash. -/

/-- The PFM `p` allows the flash contents `c`: for the firmware `id` a version that is supported is on the flash, and every one that is has images that are
authentic where they are checked at a boot. -/
structure Allowed (eg : Engine) (p : Pfm) (c : Mem) (off : Nat) (id : Bytes) : Prop where
  version : ∃ vs, p.versions id = some vs ∧ ∃ v ∈ vs, v.On c off
  images : ∀ vs, p.versions id = some vs → ∀ v ∈ vs, v.On c off →
    ∃ l, p.images id v.id = some l ∧ l.Complete ∧ l.BootAuthentic eg c off
  rw : ∀ vs, p.versions id = some vs → ∀ v ∈ vs, v.On c off → ∃ r, p.rw id v.id = some r

theorem get_accepts {c : Mem} {α : Type} {o : Obj} {x : Option α} (h : ∃ a, x = some a) :
    Tri (On c) (get o x) (fun a s => x = some a ∧ On c s) (fun _ _ => False) := by
  obtain ⟨a, rfl⟩ := h
  exact Tri.bind (Q := fun _ => On c) (fun s hs => hs) fun _ => Tri.ret fun s hs => ⟨rfl, hs⟩

theorem onErr_accepts {P : St → Prop} {m : M α} {Q : α → St → Prop} {d : M Unit} (h : Tri P m Q (fun _ _ => False)) :
    Tri P (onErr m d) Q (fun _ _ => False) := Tri.onErr h fun _ _ h => h.elim

theorem imageEntry_accepts {c : Mem} {env : Env} {p : Pfm} {off : Nat} {w : Bool} {i : Nat} {id : Bytes} (hd : Dev.Sound env.dv)
    (hp : p.WellFormed env.eg off) (ha : Allowed env.eg p c off id) :
    Tri (On c) (imageEntry env p off w i id)
      (fun x s => (x.images.Good env.eg off ∧ x.images.Complete ∧ x.images.BootAuthentic env.eg c off) ∧ On c s) (fun _ _ => False) := by
  unfold imageEntry
  obtain ⟨vs0, hvs0, v0, hv0, hon0⟩ := ha.version
  refine (get_accepts ⟨vs0, hvs0⟩).bind fun vs => Tri.pull fun hvs => onErr_accepts ?_
  have evs : vs = vs0 := by rw [hvs0] at hvs; injection hvs with h; exact h.symm
  subst evs
  refine Tri.bind (Q := fun v s => (v ∈ vs ∧ v.On c off) ∧ On c s) ?_ fun v => Tri.pull fun hv => ?_
  · intro s hs
    obtain ⟨h1, h2, h3⟩ := version_exact env.dv off vs s.fs (hp.versions id vs hvs)
    have hs : s.fs.mem = c := hs
    rw [hs] at h1 h2 h3
    unfold lift
    cases e : determineVersion env.dv off vs s.fs with
    | mk r t =>
      rw [e] at h1 h2 h3
      cases r with
      | ok v =>
        obtain ⟨pre, post, e, ho, _⟩ := h2 v rfl
        exact ⟨⟨by rw [e]; simp, ho⟩, h1⟩
      | error x =>
        have : x = .unsupported := versionLoop_no_error hd off vs.reverse none s.fs x (congrArg Prod.fst e)
        subst this
        exact h3 rfl v0 hv0 hon0
  obtain ⟨l0, hl0, hc0, hb0⟩ := ha.images vs hvs v hv.1 hv.2
  refine (get_accepts ⟨l0, hl0⟩).bind fun l => Tri.pull fun hl => ?_
  have el : l = l0 := by rw [hl0] at hl; injection hl with h; exact h.symm
  subst el
  refine Tri.bind (Q := fun _ => On c) (onErr_accepts ?_) fun rw => Tri.ret fun s hs => ⟨⟨(hp.images id _ _ hl).1, hc0, hb0⟩, hs⟩
  split
  · exact (get_accepts (ha.rw vs hvs v hv.1 hv.2)).conseq (fun _ h => h) (fun _ _ h => h.2) (fun _ _ h => h)
  · exact Tri.ret fun s hs => hs

theorem entriesLoop_accepts {c : Mem} {env : Env} {p : Pfm} {off : Nat} {w : Bool} (hd : Dev.Sound env.dv) (hp : p.WellFormed env.eg off) :
    ∀ (ids : List Bytes) (i : Nat), (∀ id ∈ ids, Allowed env.eg p c off id) → Tri (On c) (entriesLoop env p off w i ids)
      (fun xs s => (∀ x ∈ xs, x.images.Good env.eg off ∧ x.images.Complete ∧ x.images.BootAuthentic env.eg c off) ∧ On c s) (fun _ _ => False)
  | [], _, _ => Tri.ret fun s hs => ⟨by simp, hs⟩
  | id :: ids, i, h => by
    unfold entriesLoop
    refine (onErr_accepts (imageEntry_accepts hd hp (h id (by simp)))).bind fun x => Tri.pull fun hx => ?_
    refine Tri.bind (Q := fun _ => On c) (fun s hs => hs) fun _ => ?_
    refine (entriesLoop_accepts hd hp ids (i + 1) fun j hj => h j (by simp [hj])).bind fun xs => Tri.pull fun hxs => Tri.ret fun s hs => ⟨?_, hs⟩
    intro y hy
    rcases List.mem_cons.1 hy with rfl | hy
    · exact hx
    · exact hxs y hy

/-- C73: with working drivers and enough memory, flash that the PFM allows is accepted. -/
theorem validation_accepts {env : Env} {p : Pfm} {w : Bool} {off : Nat} (hd : Dev.Sound env.dv) (he : env.eg.Sound) (h1 : env.memImages = true)
    (h2 : env.memRw = true) (hp : p.WellFormed env.eg off) {ids : List Bytes} (hids : p.firmware = some ids) (s : St)
    (ha : ∀ id ∈ ids, Allowed env.eg p s.fs.mem off id) :
    ∃ xs t, validateFlash env p false w off s = (.ok xs, t) := by
  have key : Tri (On s.fs.mem) (validateFlash env p false w off) (fun _ _ => True) (fun _ _ => False) := by
    unfold validateFlash
    refine Tri.bind (Q := fun x t => x = ids ∧ On s.fs.mem t) ?_ fun x => Tri.pull fun hx => ?_
    · unfold firmwareTypes
      refine (get_accepts ⟨ids, hids⟩).bind fun x => Tri.pull fun hx => onErr_accepts ?_
      have ex : x = ids := by rw [hids] at hx; injection hx with h; exact h.symm
      refine Tri.bind (Q := fun _ => On s.fs.mem) ?_ fun _ => Tri.bind (Q := fun _ => On s.fs.mem) ?_ fun _ => Tri.ret fun t ht => ⟨ex, ht⟩
      · rw [h1]; cases w <;> exact fun s hs => hs
      · unfold doIf
        split
        · refine onErr_accepts ?_
          exact fun s hs => hs
        · exact Tri.ret fun s hs => hs
    subst hx
    refine (entriesLoop_accepts hd hp x 0 ha).bind fun xs => Tri.pull fun hxs => ?_
    refine Tri.bind (Q := fun _ _ => True) ?_ fun _ => Tri.ret fun _ _ => trivial
    unfold finish
    refine Tri.always (Q' := fun _ _ => True) (E' := fun _ _ => False) (onErr_accepts ?_) (fun _ _ _ => trivial) (fun _ _ h => h.elim)
    unfold verifyEntries
    simp only [Bool.false_eq_true, if_false]
    intro t ht
    have ht : t.fs.mem = s.fs.mem := ht
    obtain ⟨t', e⟩ := boot_verification_accepts env.dv env.eg env.stack off (xs.map (·.images)) t.fs hd he
      (by intro l hl; obtain ⟨x, hx, rfl⟩ := List.mem_map.1 hl; exact (hxs x hx).1)
      (by intro l hl; obtain ⟨x, hx, rfl⟩ := List.mem_map.1 hl; exact (hxs x hx).2.1)
      (by intro l hl; obtain ⟨x, hx, rfl⟩ := List.mem_map.1 hl; rw [ht]; exact (hxs x hx).2.2)
    unfold lift
    rw [e]
    trivial
  have := key s rfl
  cases e : validateFlash env p false w off s with
  | mk r t =>
    rw [e] at this
    cases r with
    | ok xs => exact ⟨xs, t, rfl⟩
    | error => exact this.elim

/-! ### C74: nothing is lost and nothing is freed twice -/

theorem Heap.clean {s : St} (h : Heap none' s) : Clean s := ⟨fun o => by rw [h.1]; rfl, h.2⟩
theorem Clean.heap {s : St} (h : Clean s) : Heap none' s := ⟨funext h.1, h.2⟩

theorem Heap.holdsRw {w : Bool} {n : Nat} {s : St} (h : Heap (onlyRw w n) s) : HoldsRw w n s := by
  refine ⟨fun o => ?_, h.2⟩
  rw [h.1]
  cases o <;> simp [onlyRw]

/-- C74: whatever fails during a validation, all lists that were requested are freed once; the list of read/write regions is kept after a success only. -/
theorem validation_frees {env : Env} {p : Pfm} {full w : Bool} {off : Nat} {s : St} (hs : Clean s) :
    match validateFlash env p full w off s with
    | (.ok xs, t) => HoldsRw w xs.length t
    | (.error _, t) => Clean t := by
  have key : Tri (Heap none') (validateFlash env p full w off) (fun xs => Heap (onlyRw w xs.length)) (fun _ => Heap none') := by
    unfold validateFlash
    refine Tri.bind (Q := fun _ => Heap (held w 0)) (firmwareTypes_heap.conseq (fun _ h => h) (fun _ s h => h.congr ?_) (fun _ _ h => h)) fun ids => ?_
    · intro o; cases o <;> rfl
    refine (entriesLoop_heap ids 0).bind fun xs => Tri.pull fun _ => ?_
    rw [Nat.zero_add]
    exact (finish_heap verifyEntries_heap).bind fun _ => Tri.ret fun s hs => hs
  have := key s hs.heap
  cases e : validateFlash env p full w off s with
  | mk r t =>
    rw [e] at this
    cases r with
    | ok xs => exact this.holdsRw
    | error => exact this.clean

theorem compareEntry_heap {env : Env} {g : Pfm} {i : Nat} {id : Bytes} {x : Entry} {d : Bool} {L : Obj → Bool} (hL : L (.known i) = false) :
    Tri (Heap L) (compareEntry env g i id x d) (fun _ => Heap L) (fun e _ => e = .endless) := by
  unfold compareEntry
  split
  · exact Tri.ret fun s hs => hs
  · cases g.images id x.version.id with
    | none => exact Tri.ret fun s hs => hs
    | some l =>
      refine (heap_alloc hL).bind fun _ => ?_
      cases imagesDifferent env.fuel x.images l with
      | none => exact Tri.fail fun s hs => rfl
      | some b =>
        refine Tri.bind (heap_free (by simp)) fun _ => Tri.ret fun s hs => hs.congr ?_
        intro o
        by_cases e : o = .known i
        · subst e; simp [hL]
        · simp [e]

theorem compareLoop_heap {env : Env} {p g : Pfm} {w : Bool} :
    ∀ (ids : List Bytes) (i : Nat) (d : Bool), Tri (Heap (held w i)) (compareLoop env p g w i d ids)
      (fun r s => r.1.length = ids.length ∧ Heap (held w (i + r.1.length)) s) (fun e s => e = .endless ∨ Heap none' s)
  | [], i, d => Tri.ret fun s hs => ⟨rfl, hs⟩
  | id :: ids, i, d => by
    unfold compareLoop
    refine Tri.bind (Tri.onErr imageEntry_heap fun _ s hs => .inr (Tri.after cleanup_heap hs)) fun x => ?_
    refine Tri.bind ((compareEntry_heap (by simp [held])).conseq (fun _ h => h) (fun _ _ h => h) (fun _ _ h => .inl h)) fun d => ?_
    refine freeVersions_heap.bind fun _ => ?_
    refine (compareLoop_heap ids (i + 1) d).bind fun xs => Tri.pull fun hl => Tri.ret fun s hs => ⟨by simp [hl], ?_⟩
    have e : i + 1 + xs.1.length = i + (x :: xs.1).length := by simp; omega
    rw [← e]; exact hs

/-- C74: the same with a PFM that is known to be good, unless the comparison of the images does not end. -/
theorem known_validation_frees {env : Env} {p g : Pfm} {w : Bool} {s : St} (hs : Clean s) :
    match validatePfm env p g w s with
    | (.ok xs, t) => HoldsRw w xs.length t
    | (.error e, t) => e = .endless ∨ Clean t := by
  have key : Tri (Heap none') (validatePfm env p g w) (fun xs => Heap (onlyRw w xs.length)) (fun e s => e = .endless ∨ Heap none' s) := by
    unfold validatePfm
    refine Tri.bind (Q := fun _ => Heap (held w 0)) (firmwareTypes_heap.conseq (fun _ h => h) (fun _ s h => h.congr ?_) (fun _ _ h => .inr h)) fun ids => ?_
    · intro o; cases o <;> rfl
    refine (compareLoop_heap ids 0 false).bind fun xs => Tri.pull fun _ => ?_
    rw [Nat.zero_add]
    refine Tri.bind ((finish_heap ?_).conseq (fun _ h => h) (fun _ _ h => h) (fun _ _ h => .inr h)) fun _ => Tri.ret fun s hs => hs
    split
    · exact verifyEntries_heap
    · exact Tri.ret fun s hs => hs
  have := key s hs.heap
  cases e : validatePfm env p g w s with
  | mk r t =>
    rw [e] at this
    cases r with
    | ok xs => exact this.holdsRw
    | error => exact this.imp id Heap.clean

theorem regionsLoop_heap {env : Env} {p : Pfm} : ∀ (ids : List Bytes) (i : Nat),
    Tri (Heap fun o => if o = .firmware then true else onlyRw true i o) (regionsLoop env p i ids)
      (fun l s => l.length = ids.length ∧ Heap (fun o => if o = .firmware then true else onlyRw true (i + l.length) o) s) (fun _ => Heap none')
  | [], i => Tri.ret fun s hs => ⟨rfl, hs⟩
  | id :: ids, i => by
    unfold regionsLoop
    refine Tri.bind (Q := fun _ => Heap fun o => if o = .firmware then true else onlyRw true (i + 1) o) ?_ fun x => ?_
    · refine Tri.onErr (E' := fun _ => Heap fun o => if o = .firmware then true else onlyRw true i o) ?_ fun _ s hs => ?_
      · refine (heap_get (by simp [onlyRw])).bind fun vs => ?_
        refine Tri.bind (Tri.onErr heap_lift fun _ s hs => ?_) fun v => ?_
        · refine Heap.congr (Tri.after (heap_free (E := fun _ _ => False) (by simp)) hs) ?_
          intro o
          by_cases e : o = .versions i
          · subst e; simp [onlyRw]
          · simp [e]
        refine Tri.always (heap_get (by simp [onlyRw])) (fun _ s hs => ?_) (fun _ s hs => ?_)
        · refine Heap.congr (Tri.after (heap_free (E := fun _ _ => False) (by simp)) hs) ?_
          intro o
          cases o <;> simp [onlyRw]
          rename_i j
          by_cases e : j = i
          · simp [e]
          · simp [e]; omega
        · refine Heap.congr (Tri.after (heap_free (E := fun _ _ => False) (by simp)) hs) ?_
          intro o
          by_cases e : o = .versions i
          · subst e; simp [onlyRw]
          · simp [e]
      · have : Tri (Heap fun o => if o = .firmware then true else onlyRw true i o) (do freeRw i; free .firmware) (fun _ => Heap none') (fun _ _ => False) := by
          refine (heap_freeRw (fun j hj => by simp [onlyRw, hj]) (by simp [onlyRw])).bind fun _ => ?_
          refine (heap_free (by simp)).conseq (fun _ h => h) (fun _ s h => h.congr ?_) (fun _ _ h => h)
          intro o
          cases o <;> simp [onlyRw, none']
        exact Tri.after this hs
    refine (regionsLoop_heap ids (i + 1)).bind fun l => Tri.pull fun hl => Tri.ret fun s hs => ⟨by simp [hl], ?_⟩
    have e : i + 1 + l.length = i + (x :: l).length := by simp; omega
    rw [← e]; exact hs

theorem regionsLoop_on {c : Mem} {env : Env} {p : Pfm} (hp : p.WellFormed env.eg 0) :
    ∀ (ids : List Bytes) (i : Nat), Tri (On c) (regionsLoop env p i ids)
      (fun l s => (l.length = ids.length ∧ ∀ j (h : j < ids.length) rw, l[j]? = some rw →
        ∃ vs, p.versions ids[j] = some vs ∧ ∃ v ∈ vs, v.On c 0 ∧ p.rw ids[j] v.id = some rw) ∧ On c s) (fun _ s => On c s)
  | [], _ => Tri.ret fun s hs => ⟨⟨rfl, fun j h => absurd h (Nat.not_lt_zero j)⟩, hs⟩
  | id :: ids, i => by
    unfold regionsLoop
    refine Tri.bind (Q := fun rw s => (∃ vs, p.versions id = some vs ∧ ∃ v ∈ vs, v.On c 0 ∧ p.rw id v.id = some rw) ∧ On c s) ?_ fun rw => Tri.pull fun hrw => ?_
    · refine Tri.onErr (E' := fun _ s => On c s) ?_ fun _ s hs => keeps_on (seq_keeps (freeRw_keeps i) fun _ => free_keeps _) hs
      refine get_on.bind fun vs => Tri.pull fun hvs => ?_
      refine Tri.bind (Q := fun v s => (v ∈ vs ∧ v.On c 0) ∧ On c s) (Tri.onErr (E' := fun _ s => On c s) (lift_on ?_) fun _ s hs => keeps_on (free_keeps _) hs)
        fun v => Tri.pull fun hv => ?_
      · intro fs hfs
        obtain ⟨h1, h2, _⟩ := version_exact env.dv 0 vs fs (hp.versions id vs hvs)
        rw [hfs] at h1 h2
        refine ⟨h1, fun v hv => ?_⟩
        obtain ⟨pre, post, e, ho, _⟩ := h2 v hv
        exact ⟨by rw [e]; simp, ho⟩
      refine Tri.always get_on (fun rw s hs => ?_) fun _ s hs => keeps_on (free_keeps _) hs
      exact ⟨⟨vs, hvs, v, hv.1, hv.2, hs.1⟩, keeps_on (free_keeps _) hs.2⟩
    refine (regionsLoop_on hp ids (i + 1)).bind fun l => Tri.pull fun hl => Tri.ret fun s hs => ⟨⟨by simp [hl.1], ?_⟩, hs⟩
    intro j hj rw' hr
    cases j with
    | zero =>
      have : rw = rw' := by simpa using hr
      exact this ▸ hrw
    | succ j => exact hl.2 j (by simpa using hj) rw' (by simpa using hr)

/-- C73: the read/write regions that are looked up without validating flash are, for each firmware of the PFM, those of a version that is on the flash. -/
theorem regions_sound {env : Env} {p : Pfm} (hp : p.WellFormed env.eg 0) {s t : St} {l : List (List Region)} (h : flashRegions env p s = (.ok l, t)) :
    t.fs.mem = s.fs.mem ∧ ∃ ids, p.firmware = some ids ∧ l.length = ids.length ∧ ∀ j (h : j < ids.length) rw, l[j]? = some rw →
      ∃ vs, p.versions ids[j] = some vs ∧ ∃ v ∈ vs, v.On s.fs.mem 0 ∧ p.rw ids[j] v.id = some rw := by
  have key : Tri (On s.fs.mem) (flashRegions env p)
      (fun l t => (∃ ids, p.firmware = some ids ∧ l.length = ids.length ∧ ∀ j (h : j < ids.length) rw, l[j]? = some rw →
        ∃ vs, p.versions ids[j] = some vs ∧ ∃ v ∈ vs, v.On s.fs.mem 0 ∧ p.rw ids[j] v.id = some rw) ∧ On s.fs.mem t) (fun _ s' => On s.fs.mem s') := by
    unfold flashRegions
    refine firmwareTypes_on.bind fun ids => Tri.pull fun hids => ?_
    refine (regionsLoop_on hp ids 0).bind fun l => Tri.pull fun hl => ?_
    exact Tri.bind (Q := fun _ => On s.fs.mem) (fun s hs => hs) fun _ => Tri.ret fun s hs => ⟨⟨ids, hids, hl⟩, hs⟩
  obtain ⟨h, ht⟩ := key.ok rfl h
  exact ⟨ht, h⟩

/-- C74: the same for the function that only gets the read/write regions. -/
theorem regions_frees {env : Env} {p : Pfm} {s : St} (hs : Clean s) :
    match flashRegions env p s with
    | (.ok l, t) => HoldsRw true l.length t
    | (.error _, t) => Clean t := by
  have key : Tri (Heap none') (flashRegions env p) (fun xs => Heap (onlyRw true xs.length)) (fun _ => Heap none') := by
    unfold flashRegions
    refine Tri.bind (Q := fun _ => Heap fun o => if o = .firmware then true else onlyRw true 0 o)
      (firmwareTypes_heap.conseq (fun _ h => h) (fun _ s h => h.congr ?_) (fun _ _ h => h)) fun ids => ?_
    · intro o; cases o <;> simp [onlyRw, held]
    refine (regionsLoop_heap ids 0).bind fun xs => Tri.pull fun _ => ?_
    rw [Nat.zero_add]
    refine Tri.bind ((heap_free (by simp)).conseq (fun _ h => h) (fun _ s h => h.congr (L' := onlyRw true xs.length) ?_) (fun _ _ h => h))
      fun _ => Tri.ret fun s hs => hs
    intro o
    by_cases e : o = .firmware
    · subst e; simp [onlyRw]
    · simp [e]
  have := key s hs.heap
  cases e : flashRegions env p s with
  | mk r t =>
    rw [e] at this
    cases r with
    | ok xs => exact this.holdsRw
    | error => exact this.clean

/-- C74: `host_flash_manager_free_read_write_regions` then frees the rest. -/
theorem free_regions_frees {n : Nat} {s : St} (hs : HoldsRw true n s) : Clean (freeRw n s).2 := by
  have hh : Heap (onlyRw true n) s := by
    refine ⟨funext fun o => ?_, hs.2⟩
    have := hs.1 o
    cases o <;> simp [onlyRw] at this ⊢ <;> grind
  refine Heap.clean (Heap.congr (Tri.after (heap_freeRw (E := fun _ _ => False) (fun i hi => by simp [onlyRw, hi]) (by simp [onlyRw])) hh) ?_)
  intro o
  cases o <;> simp [onlyRw, none']

/-! ### C75: validation with the help of a PFM that is known to be good -/

theorem compareEntry_on {c : Mem} {env : Env} {g : Pfm} {i : Nat} {id : Bytes} {x : Entry} {d : Bool} :
    Tri (On c) (compareEntry env g i id x d)
      (fun r s => (r = false → d = false ∧ ∃ l, g.images id x.version.id = some l ∧ imagesDifferent env.fuel x.images l = some false) ∧ On c s)
      (fun _ s => On c s) := by
  unfold compareEntry
  split
  · exact Tri.ret fun s hs => ⟨nofun, hs⟩
  · rename_i hd
    have hd : d = false := by simpa using hd
    cases hl : g.images id x.version.id with
    | none => exact Tri.ret fun s hs => ⟨nofun, hs⟩
    | some l =>
      refine Tri.bind (Q := fun _ => On c) (fun s hs => hs) fun _ => ?_
      cases he : imagesDifferent env.fuel x.images l with
      | none => exact Tri.fail fun s hs => hs
      | some b =>
        refine Tri.bind (Q := fun _ => On c) (fun s hs => hs) fun _ => Tri.ret fun s hs => ⟨fun hb => ⟨hd, l, rfl, ?_⟩, hs⟩
        rw [← hb]; exact he

theorem compareLoop_on {c : Mem} {env : Env} {p g : Pfm} {w : Bool} (hp : p.WellFormed env.eg 0) :
    ∀ (ids : List Bytes) (i : Nat) (d : Bool), Tri (On c) (compareLoop env p g w i d ids)
      (fun r s => (Each (fun id x => x.Of p c 0 id ∧ (w = true → x.Regions p id)) ids r.1 ∧
        (r.2 = false → d = false ∧ Each (fun id x => ∃ l, g.images id x.version.id = some l ∧ imagesDifferent env.fuel x.images l = some false) ids r.1)) ∧
        On c s) (fun _ s => On c s)
  | [], _, d => Tri.ret fun s hs => ⟨⟨trivial, fun h => ⟨h, trivial⟩⟩, hs⟩
  | id :: ids, i, d => by
    unfold compareLoop
    refine Tri.bind (Tri.onErr (imageEntry_on hp) fun _ s hs => keeps_on (cleanup_keeps _ _) hs) fun x => Tri.pull fun hx => ?_
    refine compareEntry_on.bind fun d' => Tri.pull fun hd => ?_
    refine Tri.bind (Q := fun _ => On c) (fun s hs => hs) fun _ => ?_
    refine (compareLoop_on hp ids (i + 1) d').bind fun r => Tri.pull fun hr => Tri.ret fun s hs => ⟨⟨⟨hx, hr.1⟩, fun h => ?_⟩, hs⟩
    obtain ⟨h1, h2⟩ := hr.2 h
    exact ⟨(hd h1).1, (hd h1).2, h2⟩

theorem Matching.mem {α : Type} {R : α → α → Prop} : ∀ {l1 l2 : List α}, Matching R l1 l2 → ∀ a ∈ l1, ∃ b ∈ l2, R a b
  | [], [], _ => by simp
  | a :: as, b :: bs, h => by
    intro y hy
    rcases List.mem_cons.1 hy with rfl | hy
    · exact ⟨b, by simp, h.1⟩
    · obtain ⟨j, hj, r⟩ := Matching.mem h.2 y hy
      exact ⟨j, by simp [hj], r⟩
  | [], _ :: _, h => h.elim
  | _ :: _, [], h => h.elim

theorem bootKnown_of_same {eg : Engine} {m : Mem} {fuel : Nat} {k l : ImageList} (hk : ImageList.Comparable fuel k) (hl : ImageList.Comparable fuel l)
    (h : imagesDifferent fuel k l = some false) (ha : l.BootAuthentic eg m 0) : ImageList.BootKnown eg m l k := by
  cases k with
  | sig k =>
    cases l with
    | sig l =>
      obtain ⟨⟨n, hn⟩, hk⟩ := hk
      have hm := (sig_images_different_exact_partial fuel n k l hn hk fun i hi => (hl.2 i hi).1).1 h
      intro i hi hi'
      obtain ⟨j, hj, hs⟩ := Matching.mem hm i hi
      refine ⟨l, rfl, j, hj, hs, ha j hj ?_⟩
      have := hs.2.2.2.2.2.1
      rw [← this]; exact hi'
    | hash l => simp [imagesDifferent] at h
  | hash k =>
    cases l with
    | sig l => simp [imagesDifferent] at h
    | hash l =>
      obtain ⟨⟨n, hn⟩, hk⟩ := hk
      have hm := (hash_images_different_exact_partial fuel n k l hn hk fun i hi => (hl.2 i hi).1).1 h
      intro i hi hi'
      obtain ⟨j, hj, hs⟩ := Matching.mem hm i hi
      refine ⟨l, rfl, j, hj, hs, ha j hj ?_⟩
      have := hs.2.2.2.1
      rw [← this]; exact hi'

/-- C75: validation with a PFM `g` that is known to be good. If the flash was validated with `g` and both PFMs see the same version of each firmware on it (`hg`),
then after a success each image that is to be checked at each boot is authentic, or the same as one of `g` that is authentic (then its regions can be listed
in another order). Missing: without `hg` the claim is false, see `known_good_skips_verification`; and the comparison of the images must be exact. -/
theorem known_validation_sound_partial {env : Env} {p g : Pfm} {w : Bool} (hp : p.WellFormed env.eg 0)
    (hc : ∀ id v l, p.images id v = some l → ImageList.Comparable env.fuel l) (hc' : ∀ id v l, g.images id v = some l → ImageList.Comparable env.fuel l)
    {s t : St} (hg : ∀ ids, p.firmware = some ids → ∀ id ∈ ids, ∃ y : Entry, y.Of g s.fs.mem 0 id ∧ y.images.BootAuthentic env.eg s.fs.mem 0 ∧
      ∀ x : Entry, x.Of p s.fs.mem 0 id → x.version.id = y.version.id)
    {xs : List Entry} (h : validatePfm env p g w s = (.ok xs, t)) :
    t.fs.mem = s.fs.mem ∧ ∃ ids, p.firmware = some ids ∧
      Each (fun id x => x.Of p s.fs.mem 0 id ∧ (w = true → x.Regions p id) ∧
        (x.images.BootAuthentic env.eg s.fs.mem 0 ∨ ∃ l, g.images id x.version.id = some l ∧ ImageList.BootKnown env.eg s.fs.mem l x.images)) ids xs := by
  have key : Tri (On s.fs.mem) (validatePfm env p g w)
      (fun xs t => (∃ ids, p.firmware = some ids ∧ Each (fun id x => x.Of p s.fs.mem 0 id ∧ (w = true → x.Regions p id)) ids xs ∧
        ((∀ x ∈ xs, x.images.BootAuthentic env.eg s.fs.mem 0) ∨
          Each (fun id x => ∃ l, g.images id x.version.id = some l ∧ imagesDifferent env.fuel x.images l = some false) ids xs)) ∧
        On s.fs.mem t) (fun _ s' => On s.fs.mem s') := by
    unfold validatePfm
    refine firmwareTypes_on.bind fun ids => Tri.pull fun hids => ?_
    refine (compareLoop_on (g := g) hp ids 0 false).bind fun r => Tri.pull fun hr => ?_
    obtain ⟨xs, d⟩ := r
    refine (finish_on (R := (∀ x ∈ xs, x.images.BootAuthentic env.eg s.fs.mem 0) ∨
      Each (fun id x => ∃ l, g.images id x.version.id = some l ∧ imagesDifferent env.fuel x.images l = some false) ids xs) ?_).bind
      fun _ => Tri.pull fun hv => Tri.ret fun s' hs' => ⟨⟨ids, hids, hr.1, hv⟩, hs'⟩
    split
    · refine (verifyEntries_boot ?_).conseq (fun _ h => h) (fun _ _ h => ⟨.inl h.1, h.2⟩) (fun _ _ h => h)
      intro x hx
      obtain ⟨id, _, ho, _⟩ := hr.1.mem x hx
      exact (hp.images id _ _ ho.images).1
    · rename_i hd
      exact Tri.ret fun s' hs' => ⟨.inr (hr.2 (by simpa using hd)).2, hs'⟩
  obtain ⟨⟨ids, hids, he, hv⟩, ht⟩ := key.ok rfl h
  refine ⟨ht, ids, hids, ?_⟩
  have hg := hg ids hids
  clear h key hids
  induction ids generalizing xs with
  | nil => cases xs with | nil => trivial | cons => exact he.elim
  | cons id ids ih =>
    cases xs with
    | nil => exact he.elim
    | cons x xs =>
      refine ⟨⟨he.1.1, he.1.2, ?_⟩, ih he.2 (hv.imp (fun h y hy => h y (by simp [hy])) fun h => h.2) fun j hj => hg j (by simp [hj])⟩
      rcases hv with hv | hv
      · exact .inl (hv x (by simp))
      · obtain ⟨l, hl, hs⟩ := hv.1
        obtain ⟨y, hy, hya, hyv⟩ := hg id (by simp)
        right
        have e : l = y.images := by
          have := hy.images
          rw [← hyv x he.1.1, hl] at this
          injection this
        subst e
        exact ⟨_, hl, bootKnown_of_same (hc _ _ _ he.1.1.images) (hc' _ _ _ hl) hs hya⟩

/-! ### Concrete cases -/

/-- A flash of 16 bytes, erased except for the first four. -/
def demoFlash (a b c d : UInt8) : Mem := fun i => if i = 0 then a else if i = 1 then b else if i = 2 then c else if i = 3 then d else 0xff

/-- The digest is the first byte, a signature is good if it is the digest. -/
def demoEngine : Engine := ⟨fun ty d => if ty = 1 then some [d.headD 0] else none, fun _ sig d => sig == d, fun _ => false⟩

/-- Everything works. -/
def demoEnv : Env := ⟨goodDev, 16, demoEngine, [], true, true, 9, some⟩

/-- One firmware, with images by version; the digest of an image is its first byte. -/
def demoPfm (vs : List Version) (im : List (Bytes × ImageList)) : Pfm :=
  ⟨some [[65]], fun _ => some vs, fun _ v => (im.find? (·.1 = v)).map (·.2), fun _ _ => some [⟨8, 4⟩]⟩

/-- An image of one byte at address `a`, checked at each boot. -/
def demoImage (a : Nat) (h : UInt8) : ImageList := .hash [⟨[⟨a, 1⟩], [h], 1, 1, 1⟩]

/-- The start: nothing allocated. -/
def demoStart (m : Mem) : St := ⟨⟨m, 0⟩, fun _ => false, false⟩

/-- Whether it worked. -/
def worked (r : Except Err α × St) : Bool := match r.1 with | .ok _ => true | _ => false

/-- The regions of a version that is on the flash; none if there is no such version. -/
example : worked (flashRegions demoEnv (demoPfm [⟨[2], 0, 0xff⟩, ⟨[1], 0, 0xff⟩] []) (demoStart (demoFlash 1 0 0 0))) = true ∧
    worked (flashRegions demoEnv (demoPfm [⟨[2], 0, 0xff⟩] []) (demoStart (demoFlash 1 0 0 0))) = false := by decide +kernel

/-- Version 1 at address 0, an image at address 2: accepted if the image is the right one, and for the whole flash, if the rest is blank. -/
example :
    let p := demoPfm [⟨[1], 0, 0xff⟩] [([1], demoImage 2 7)]
    worked (validateFlash demoEnv p false true 0 (demoStart (demoFlash 1 0 7 0))) = true ∧
    worked (validateFlash demoEnv p false true 0 (demoStart (demoFlash 1 0 8 0))) = false ∧
    worked (validateFlash demoEnv p false true 0 (demoStart (demoFlash 2 0 7 0))) = false ∧
    let q := demoPfm [⟨[1], 0, 0xff⟩] [([1], .hash [⟨[⟨2, 1⟩, ⟨0, 1⟩], [7], 1, 1, 0⟩])]
    worked (validateFlash demoEnv q true true 0 (demoStart (demoFlash 1 0xff 7 0xff))) = true ∧
    worked (validateFlash demoEnv q true true 0 (demoStart (demoFlash 1 0xff 7 0))) = false ∧
    worked (validateFlash { demoEnv with stale := fun _ => none } q true true 0 (demoStart (demoFlash 1 0xff 7 0xff))) = false := by
  decide_cbv

/-- C75, disagreement: the flash is accepted with the help of the good PFM although its image is bad. The good PFM sees version 2 on the flash (at address 1)
and the image of version 2 is authentic; the new PFM looks for version 1 at another address and finds it there. Its image is compared with what the good PFM
says of version 1, which was never verified (host_flash_manager.c:288-296). -/
theorem known_good_skips_verification :
    let img := [([1], demoImage 3 8), ([2], demoImage 2 7)]
    let g := demoPfm [⟨[1], 5, 0xff⟩, ⟨[2], 1, 0xff⟩] img
    let p := demoPfm [⟨[1], 0, 0xff⟩] img
    let s := demoStart (demoFlash 1 2 7 9)
    worked (validateFlash demoEnv g false true 0 s) = true ∧ worked (validatePfm demoEnv p g true s) = true ∧
    worked (validateFlash demoEnv p false true 0 s) = false := by
  decide_cbv

/-- The conditions of the theorems hold here. -/
example : (demoPfm [⟨[1], 0, 0xff⟩] [([1], demoImage 2 7)]).WellFormed demoEngine 0 ∧
    Allowed demoEngine (demoPfm [⟨[1], 0, 0xff⟩] [([1], demoImage 2 7)]) (demoFlash 1 0 7 0) 0 [65] ∧
    ImageList.Comparable 9 (demoImage 2 7) ∧ Clean (demoStart (demoFlash 1 0 7 0)) := by
  have hw : (demoPfm [⟨[1], 0, 0xff⟩] [([1], demoImage 2 7)]).WellFormed demoEngine 0 := by
    refine ⟨?_, ?_, ?_⟩
    · intro id vs h v hv
      simp only [demoPfm, Option.some.injEq] at h
      subst h; simp at hv; subst hv; decide
    · intro id v l h
      simp only [demoPfm] at h
      by_cases e : ([1] : Bytes) = v
      · simp [e] at h
        subst h
        refine ⟨?_, ?_⟩
        · simp [demoImage, ImageList.Good, RegionsFit, demoEngine]
        · simp [demoImage, ImageList.regions, Region.Fits]
      · simp [e] at h
    · intro id v l h
      simp only [demoPfm, Option.some.injEq] at h
      subst h; simp [Region.Fits]
  refine ⟨hw, ⟨⟨_, rfl, ⟨[1], 0, 0xff⟩, by simp, by simp [Version.On, demoFlash]⟩, ?_, ?_⟩, ?_, ⟨fun _ => rfl, rfl⟩⟩
  · intro vs h v hv _
    simp only [demoPfm, Option.some.injEq] at h
    subst h; simp at hv; subst hv
    refine ⟨demoImage 2 7, rfl, by simp [demoImage, ImageList.Complete], ?_⟩
    simp only [demoImage, ImageList.BootAuthentic, List.mem_singleton]
    rintro i rfl _
    rfl
  · intro vs h v hv _
    exact ⟨_, rfl⟩
  · refine ⟨⟨1, by simp⟩, ?_⟩
    intro i hi
    simp at hi; subst hi
    exact ⟨⟨by simp [Region.Proper], by simp⟩, by simp⟩

end Verif.HostFlash
