import Verif.SpiFlash.Lemmas
/-! The properties of the SPI flash driver. -/
namespace Verif.SpiFlash
open Verif.Flash (Mem bytesAt program)

variable {env : Env}

/-! ### C78: data -/

/-- A successful read returns exactly the bytes at the address, all within the device. No read changes the contents. -/
theorem read_exact {s t : St} {a len : Nat} {r : Except Err Bytes} (hs : Sync s.drv s.dev) (hw : a + len < 2 ^ env.w) (h : read env a len s = (r, t)) :
    t.dev.mem = s.dev.mem ∧ ∀ d, r = .ok d → a + len ≤ s.drv.size ∧ d = bytesAt s.dev.mem a len := by
  have := read_tri (env := env) hs hw s rfl
  rw [h] at this
  cases r with
  | ok d => exact ⟨funext fun i => this.2.2.mem i nofun, fun _ hd => by cases hd; exact ⟨this.1, this.2.1⟩⟩
  | error e => exact ⟨funext fun i => this.mem i nofun, nofun⟩

/-- A write: its result is at most the number of bytes given. The first `n` bytes are programmed if it returns `n`; if this is less than the number given, only
bytes of the next page that belong to the data are in doubt. If it fails, only bytes of the first page that belong to the data are in doubt. -/
theorem write_exact {s t : St} {a : Nat} {data : Bytes} {r : Except Err Nat} (hs : Sync s.drv s.dev) (hw : a + data.length < 2 ^ env.w)
    (h : write env a data s = (r, t)) :
    (∀ n, r = .ok n → a + data.length ≤ s.drv.size ∧ n ≤ data.length ∧ (n = data.length → t.dev.mem = program s.dev.mem a data) ∧
      ∀ i, ¬ (a + n ≤ i ∧ i < a + data.length ∧ i / 256 = (a + n) / 256) → t.dev.mem i = program s.dev.mem a (data.take n) i) ∧
    (∀ e, r = .error e → ∀ i, ¬ (a ≤ i ∧ i < a + data.length ∧ a + data.length ≤ s.drv.size ∧ i / 256 = a / 256) → t.dev.mem i = s.dev.mem i) := by
  have := write_tri (env := env) hs hw s rfl
  rw [h] at this
  cases r with
  | ok n => exact ⟨fun _ hn => by cases hn; exact ⟨this.1, this.2.1, this.2.2.2.1, this.2.2.2.2⟩, nofun⟩
  | error e => exact ⟨nofun, fun _ _ => this.mem⟩

/-- A sector erase sets exactly the sector of the address to 0xff; if it fails, nothing outside of this sector changes. -/
theorem sectorErase_exact {s t : St} {a : Nat} {r : Except Err Unit} (hs : Sync s.drv s.dev) (h : sectorErase env a s = (r, t)) :
    (r = .ok () → a - a % 4096 < s.drv.size ∧ t.dev.mem = fun i => if i / 4096 = a / 4096 then 0xff else s.dev.mem i) ∧
    (∀ i, i / 4096 ≠ a / 4096 → t.dev.mem i = s.dev.mem i) := by
  have hd : (a - a % 4096) / 4096 = a / 4096 := by omega
  have := eraseRegion_tri (env := env) (size := sectorSize) (a := a - a % sectorSize) hs.sector hs.range s rfl
  have hh : eraseRegion env s.drv.sector sectorSize (a - a % sectorSize) s = (r, t) := h
  rw [hh] at this
  simp only [sectorSize, hd] at this
  cases r with
  | ok n => exact ⟨fun _ => ⟨this.1, this.2.2⟩, this.2.1.mem⟩
  | error e => exact ⟨nofun, fun i hi => this.mem i fun x => hi x.2⟩

/-- A block erase sets exactly the block of the address to 0xff; if it fails, nothing outside of this block changes. -/
theorem blockErase_exact {s t : St} {a : Nat} {r : Except Err Unit} (hs : Sync s.drv s.dev) (h : blockErase env a s = (r, t)) :
    (r = .ok () → a - a % 65536 < s.drv.size ∧ t.dev.mem = fun i => if i / 65536 = a / 65536 then 0xff else s.dev.mem i) ∧
    (∀ i, i / 65536 ≠ a / 65536 → t.dev.mem i = s.dev.mem i) := by
  have hd : (a - a % 65536) / 65536 = a / 65536 := by omega
  have := eraseRegion_tri (env := env) (size := blockSize) (a := a - a % blockSize) hs.block hs.range s rfl
  have hh : eraseRegion env s.drv.block blockSize (a - a % blockSize) s = (r, t) := h
  rw [hh] at this
  simp only [blockSize, hd] at this
  cases r with
  | ok n => exact ⟨fun _ => ⟨this.1, this.2.2⟩, this.2.1.mem⟩
  | error e => exact ⟨nofun, fun i hi => this.mem i fun x => hi x.2⟩

/-- A chip erase that succeeds leaves 0xff everywhere. -/
theorem chipErase_exact {s t : St} (h : chipErase env s = (.ok (), t)) : ∀ i, t.dev.mem i = 0xff := by
  have := chipErase_tri (env := env) s rfl
  rw [h] at this
  intro i
  rw [this.2]

/-! ### C79, C80: the commands that the device gets -/

/-- The driver can use the device whatever happens. Either it has commands for addresses of 4 bytes only, or there is only one address mode. -/
structure Safe (d : Drv) (v : Chip) : Prop where
  sync : Sync d v
  modes : (d.cap3 = true ∧ d.cap4 = true ∧ ∀ c ∈ [d.rd, d.wr, d.sector, d.block], c.op4 = true ∧ c.flag4 = true) ∨
    (d.cap3 = true ∧ d.cap4 = false ∧ v.mode4 = false ∧ d.addr4 = false ∧ (v.onReset = none ∨ v.onReset = some false) ∧ d.size ≤ 2 ^ 24) ∨
    (d.cap3 = false ∧ d.cap4 = true ∧ v.mode4 = true ∧ d.addr4 = true ∧ (v.onReset = none ∨ v.onReset = some true))

theorem Only.safe {R : Nat → Prop} {s t : St} (h : Only R s t) (hs : Safe s.drv s.dev) : Safe t.drv t.dev := by
  refine ⟨h.sync hs.sync, ?_⟩
  have := hs.modes
  rwa [h.drv, h.mode, h.reset]

/-- Neither the address mode of the device nor the one of the driver matters if all commands are for addresses of 4 bytes. -/
theorem Safe.anyMode {d : Drv} {v : Chip} (h : Safe d v) (h3 : d.cap3 = true) (h4 : d.cap4 = true) (f g : Bool) (b : Nat) (wel : Bool) :
    Safe { d with addr4 := f } { v with mode4 := g, busy := b, wel := wel } := by
  rcases h.modes with ⟨-, -, hc⟩ | ⟨-, hm, -⟩ | ⟨hm, -⟩
  · have key : ∀ c ∈ [d.rd, d.wr, d.sector, d.block], Fits { d with addr4 := f } { v with mode4 := g, busy := b, wel := wel } c := by
      intro c hcm
      obtain ⟨h1, h2⟩ := hc c hcm
      refine ⟨?_, fun x => ?_⟩
      · simp [Drv.sends4, Chip.expects4, h1, h2]
      · simp [Drv.sends4, h2] at x
    exact ⟨⟨key _ (by simp), key _ (by simp), key _ (by simp), key _ (by simp), h.sync.size, h.sync.range⟩, .inl ⟨h3, h4, hc⟩⟩
  · rw [h4] at hm; cases hm
  · rw [h3] at hm; cases hm

/-- A device that can be switched keeps being usable whatever the modes are. -/
theorem simple_safe {s0 : St} {f : Chip → Chip} (hs : Safe s0.drv s0.dev) (h3 : s0.drv.cap3 = true) (h4 : s0.drv.cap4 = true)
    (hf : ∀ c, ∃ g b w, f c = { c with mode4 := g, busy := b, wel := w }) :
    Tri (fun s => Only none' s0 s) (simple env f) (fun _ s => s.drv = s0.drv ∧ Safe s.drv s.dev) (fun s => Safe s.drv s.dev) := by
  have key : ∀ s, Only none' s0 s → Safe s.drv (if s.dev.busy ≠ 0 then s.dev else f s.dev) := by
    intro s h
    have hsafe := h.safe hs
    by_cases hb : s.dev.busy ≠ 0
    · rw [if_pos hb]; exact hsafe
    · rw [if_neg hb]
      obtain ⟨g, b, w, e⟩ := hf s.dev
      rw [e]
      exact hsafe.anyMode (by rw [h.drv]; exact h3) (by rw [h.drv]; exact h4) s.drv.addr4 g b w
  exact tri_xfer (fun s h => ⟨h.drv, key s h⟩) (fun s h => h.safe hs) (fun s h => key s h)

theorem enable4_safe {s0 : St} {f : Bool} (hs : Safe s0.drv s0.dev) : Tri (· = s0) (enable4 env f) (fun _ s => Safe s.drv s.dev) (fun s => Safe s.drv s.dev) := by
  refine Tri.state fun s h => ?_
  subst h
  cases e : s.drv.supports f with
  | none => exact Tri.fail fun t (ht : t = s) => ht ▸ hs
  | some b =>
    cases b
    · exact Tri.ret fun t (ht : t = s) => ht ▸ hs
    · have hc : s.drv.cap3 = true ∧ s.drv.cap4 = true := by
        unfold Drv.supports at e
        rcases hs.modes with ⟨h3, h4, -⟩ | ⟨h3, h4, -⟩ | ⟨h3, h4, -⟩
        · exact ⟨h3, h4⟩
        · rw [h3, h4] at e; revert e; cases s.drv.instr <;> cases f <;> simp
        · rw [h3, h4] at e; revert e; cases s.drv.instr <;> cases f <;> simp
      refine Tri.bind ((simple_safe (f := fun c => { c with mode4 := f }) hs hc.1 hc.2 fun c => ⟨f, c.busy, c.wel, rfl⟩).conseq
        (fun t (ht : t = s) => ht ▸ Only.rfl') (fun _ _ h => h) fun _ h => h) fun _ => ?_
      intro t ht
      exact ht.2.anyMode (by rw [ht.1]; exact hc.1) (by rw [ht.1]; exact hc.2) f t.dev.mode4 t.dev.busy t.dev.wel

theorem detect_tri {s0 : St} : Tri (· = s0) (detect env) (fun _ s => s.dev = s0.dev ∧ s.bad = s0.bad ∧
    ∃ b, s.drv = { s0.drv with addr4 := b } ∧ (b = s0.drv.addr4 ∨ (s0.drv.cap3 = true ∧ s0.drv.cap4 = true ∧ s0.drv.instr = false ∧ b = s0.dev.mode4)) ∧
      (s0.drv.cap3 = true → s0.drv.cap4 = true → s0.drv.instr = false → b = s0.dev.mode4))
    (Only none' s0) := by
  refine Tri.state fun s h => ?_
  subst h
  by_cases hc : (s.drv.cap3 && s.drv.cap4 && !s.drv.instr) = true
  · rw [if_pos hc]
    simp only [Bool.and_eq_true, Bool.not_eq_true'] at hc
    refine Tri.bind (Q := fun _ t => Only none' s t ∧ t.dev = s.dev) (tri_xfer ?_ ?_ ?_) fun _ => ?_
    · rintro t rfl; exact ⟨⟨rfl, Bool.or_false _, rfl, rfl, rfl, fun _ _ => rfl⟩, rfl⟩
    · rintro t rfl; exact ⟨rfl, rfl, rfl, rfl, rfl, fun _ _ => rfl⟩
    · rintro t rfl; exact ⟨rfl, Bool.or_false _, rfl, rfl, rfl, fun _ _ => rfl⟩
    · rintro t ⟨ht, hd⟩
      refine ⟨hd, ht.bad, t.dev.mode4, by rw [ht.drv], .inr ⟨hc.1.1, hc.1.2, hc.2, ht.mode⟩, fun _ _ _ => ht.mode⟩
  · rw [if_neg hc]
    refine Tri.ret fun t ht => ?_
    subst ht
    refine ⟨rfl, rfl, t.drv.addr4, rfl, .inl rfl, fun h1 h2 h3 => ?_⟩
    rw [h1, h2, h3] at hc
    exact absurd rfl hc

theorem Safe.detect {s0 s : St} (hs : Safe s0.drv s0.dev) (hd : s.dev = s0.dev) {b : Bool} (e : s.drv = { s0.drv with addr4 := b })
    (hb : b = s0.drv.addr4 ∨ (s0.drv.cap3 = true ∧ s0.drv.cap4 = true ∧ s0.drv.instr = false ∧ b = s0.dev.mode4)) : Safe s.drv s.dev := by
  rw [e, hd]
  rcases hb with rfl | ⟨h3, h4, -, -⟩
  · exact hs
  · exact hs.anyMode h3 h4 b s0.dev.mode4 s0.dev.busy s0.dev.wel

/-- The mode after a reset, as the driver reads it. -/
def Drv.afterReset (d : Drv) (v : Chip) : Bool :=
  if d.reset3 then
    if d.cap3 ∧ ¬ d.cap4 then false else if d.cap4 ∧ ¬ d.cap3 then true else if d.instr then false else v.onReset.getD false
  else d.addr4

theorem resetMode_tri {s0 : St} (h : s0.drv.reset3 = true) :
    Tri (· = s0) (resetMode env) (fun b s => Only none' s0 s ∧ b = s0.drv.afterReset s0.dev) (Only none' s0) := by
  refine Tri.state fun s hs => ?_
  subst hs
  unfold Drv.afterReset
  rw [if_pos h]
  by_cases h1 : s.drv.cap3 = true ∧ ¬ s.drv.cap4 = true
  · rw [if_pos h1, if_pos h1]
    exact Tri.ret fun t (ht : t = s) => ht ▸ ⟨Only.rfl', rfl⟩
  · rw [if_neg h1, if_neg h1]
    by_cases h2 : s.drv.cap4 = true ∧ ¬ s.drv.cap3 = true
    · rw [if_pos h2, if_pos h2]
      exact Tri.ret fun t (ht : t = s) => ht ▸ ⟨Only.rfl', rfl⟩
    · rw [if_neg h2, if_neg h2]
      by_cases h3 : s.drv.instr = true
      · rw [if_pos h3, if_pos h3]
        exact Tri.ret fun t (ht : t = s) => ht ▸ ⟨Only.rfl', rfl⟩
      · rw [if_neg h3, if_neg h3]
        refine Tri.bind (Q := fun _ t => Only none' s t) (tri_xfer ?_ ?_ ?_) fun _ => Tri.ret fun t ht => ⟨ht, rfl⟩
        · rintro t rfl; exact ⟨rfl, Bool.or_false _, rfl, rfl, rfl, fun _ _ => rfl⟩
        · rintro t rfl; exact ⟨rfl, rfl, rfl, rfl, rfl, fun _ _ => rfl⟩
        · rintro t rfl; exact ⟨rfl, Bool.or_false _, rfl, rfl, rfl, fun _ _ => rfl⟩

theorem Fits.idle {d : Drv} {v : Chip} {c : Cmd} (h : Fits d v c) (b : Nat) (wel : Bool) : Fits d { v with busy := b, wel := wel } c := ⟨h.bytes, h.reach⟩

theorem Safe.idle {d : Drv} {v : Chip} (h : Safe d v) (b : Nat) (wel : Bool) : Safe d { v with busy := b, wel := wel } :=
  ⟨⟨h.sync.rd.idle b wel, h.sync.wr.idle b wel, h.sync.sector.idle b wel, h.sync.block.idle b wel, h.sync.size, h.sync.range⟩, h.modes⟩

/-- A reset does not spoil anything, whether the driver notes its mode or not. -/
theorem Safe.reset {d : Drv} {v : Chip} (h : Safe d v) (b : Nat) (wel noted : Bool) :
    Safe { d with addr4 := if noted then d.afterReset v else d.addr4 } { v with mode4 := v.onReset.getD v.mode4, wel := wel, busy := b } := by
  rcases h.modes with ⟨h3, h4, -⟩ | ⟨h3, h4, hm, ha, hr, -⟩ | ⟨h3, h4, hm, ha, hr⟩
  · exact h.anyMode h3 h4 _ _ _ _
  · have e1 : v.onReset.getD v.mode4 = v.mode4 := by rcases hr with hr | hr <;> rw [hr, hm] <;> rfl
    have e2 : (if noted then d.afterReset v else d.addr4) = d.addr4 := by
      unfold Drv.afterReset
      rw [h3, h4, ha]
      cases noted <;> cases d.reset3 <;> simp
    rw [e1, e2]
    exact h.idle b wel
  · have e1 : v.onReset.getD v.mode4 = v.mode4 := by rcases hr with hr | hr <;> rw [hr, hm] <;> rfl
    have e2 : (if noted then d.afterReset v else d.addr4) = d.addr4 := by
      unfold Drv.afterReset
      rw [h3, h4, ha]
      cases noted <;> cases d.reset3 <;> simp
    rw [e1, e2]
    exact h.idle b wel

theorem afterReset_congr {s t : St} (h : Only none' s t) : t.drv.afterReset t.dev = s.drv.afterReset s.dev := by
  unfold Drv.afterReset
  rw [h.drv, h.reset]

/-- A reset. -/
theorem reset_tri {s0 : St} : Tri (· = s0) (reset env)
    (fun _ s => s.bad = s0.bad ∧ s.drv = { s0.drv with addr4 := s0.drv.afterReset s0.dev } ∧ ∃ b w, s.dev = { s0.dev with mode4 := s0.dev.onReset.getD s0.dev.mode4, busy := b, wel := w })
    (fun s => s.bad = s0.bad ∧ s.drv = s0.drv ∧ ∃ b w g, (g = s0.dev.mode4 ∨ g = s0.dev.onReset.getD s0.dev.mode4) ∧ s.dev = { s0.dev with mode4 := g, busy := b, wel := w }) := by
  have weak : ∀ s, Only none' s0 s → ∃ b w, s.dev = { s0.dev with mode4 := s0.dev.mode4, busy := b, wel := w } := by
    intro s h
    refine ⟨s.dev.busy, s.dev.wel, ?_⟩
    have := funext (fun i => h.mem i nofun)
    have h1 := h.size; have h2 := h.mode; have h3 := h.reset
    cases e : s.dev with
    | mk mem size mode4 wel busy onReset =>
      rw [e] at this h1 h2 h3
      simp only at this h1 h2 h3
      subst this h1 h2 h3
      rfl
  have weak' : ∀ s, Only none' s0 s → s.bad = s0.bad ∧ s.drv = s0.drv ∧ ∃ b w g, (g = s0.dev.mode4 ∨ g = s0.dev.onReset.getD s0.dev.mode4) ∧
      s.dev = { s0.dev with mode4 := g, busy := b, wel := w } := by
    intro s h
    obtain ⟨b, w, e⟩ := weak s h
    exact ⟨h.bad, h.drv, b, w, _, .inl rfl, e⟩
  refine Tri.state fun s hs => ?_
  subst hs
  by_cases hr : s.drv.hasReset = true
  · rw [if_pos hr]
    refine Tri.bind (Q := fun m t => Only none' s t ∧ m = s.drv.afterReset s.dev) ?_ fun m => ?_
    · unfold resetTarget
      by_cases h3 : s.drv.reset3 = true
      · rw [if_pos h3]
        exact (resetMode_tri h3).conseq (fun _ h => h) (fun _ _ h => h) fun t h => weak' t h
      · rw [if_neg h3]
        refine Tri.ret fun t ht => ?_
        subst ht
        refine ⟨Only.rfl', ?_⟩
        unfold Drv.afterReset
        rw [if_neg h3]
    · by_cases hm : m = s.drv.afterReset s.dev
      · refine Tri.bind (checkIdle_tri.conseq (fun t h => h.1) (fun _ _ h => h) fun t h => weak' t h) fun _ => ?_
        refine Tri.bind (Q := fun _ t => t.bad = s.bad ∧ t.drv = s.drv ∧ ∃ b w, t.dev = { s.dev with mode4 := s.dev.onReset.getD s.dev.mode4, busy := b, wel := w }) (tri_xfer ?_ ?_ ?_) fun _ => ?_
        · rintro t ⟨h, hb⟩
          obtain ⟨b, w, e⟩ := weak t h
          rw [if_neg (by rw [hb]; simp)]
          refine ⟨by rw [hb]; simpa using h.bad, h.drv, b, false, ?_⟩
          rw [e]
        · rintro t ⟨h, hb⟩
          exact weak' _ ⟨h.drv, h.bad, h.size, h.mode, h.reset, h.mem⟩
        · rintro t ⟨h, hb⟩
          obtain ⟨b, w, e⟩ := weak t h
          rw [if_neg (by rw [hb]; simp)]
          refine ⟨by rw [hb]; simpa using h.bad, h.drv, b, false, _, .inr rfl, ?_⟩
          rw [e]
        · rintro t ⟨h1, h2, h3⟩
          refine ⟨h1, ?_, h3⟩
          show { t.drv with addr4 := m } = _
          rw [h2, hm]
      · intro t ht
        exact absurd ht.2 hm
  · rw [if_neg hr]
    exact Tri.fail fun t (ht : t = s) => ht ▸ weak' s Only.rfl'

theorem sectorErase_tri {s0 : St} {a : Nat} (hs : Sync s0.drv s0.dev) :
    Tri (· = s0) (sectorErase env a) (fun _ s => Only (fun _ => True) s0 s) (fun s => Only (fun _ => True) s0 s) := by
  refine Tri.state fun s h => ?_
  subst h
  exact (eraseRegion_tri hs.sector hs.range).conseq (fun _ h => h) (fun _ _ h => h.2.1.inRange) fun _ h => h.inRange

theorem blockErase_tri {s0 : St} {a : Nat} (hs : Sync s0.drv s0.dev) :
    Tri (· = s0) (blockErase env a) (fun _ s => Only (fun _ => True) s0 s) (fun s => Only (fun _ => True) s0 s) := by
  refine Tri.state fun s h => ?_
  subst h
  exact (eraseRegion_tri hs.block hs.range).conseq (fun _ h => h) (fun _ _ h => h.2.1.inRange) fun _ h => h.inRange

/-- Every operation, successful or not, leaves a device that the driver can use. -/
theorem Op.safe {s : St} {o : Op} (hs : Safe s.drv s.dev) (hw : o.fits env) : Safe (o.run env s).drv (o.run env s).dev := by
  have go : ∀ {α : Type} {m : M α} {Q : α → St → Prop} {E : St → Prop}, Tri (· = s) m Q E → (∀ a t, Q a t → Safe t.drv t.dev) → (∀ t, E t → Safe t.drv t.dev) →
      Safe (m s).2.drv (m s).2.dev := by
    intro α m Q E h h1 h2
    have := h s rfl
    cases e : m s with
    | mk r t =>
      rw [e] at this
      cases r with
      | ok a => exact h1 a t this
      | error x => exact h2 t this
  cases o with
  | read a len => exact go (read_tri hs.sync hw) (fun _ t h => h.2.2.safe hs) fun t h => h.safe hs
  | write a d => exact go (write_tri hs.sync hw) (fun _ t h => h.2.2.1.safe hs) fun t h => h.safe hs
  | sectorErase a => exact go (sectorErase_tri hs.sync) (fun _ t h => h.safe hs) fun t h => h.safe hs
  | blockErase a => exact go (blockErase_tri hs.sync) (fun _ t h => h.safe hs) fun t h => h.safe hs
  | chipErase => exact go chipErase_tri (fun _ t h => h.1.safe hs) fun t h => h.safe hs
  | enable4 f => exact go (enable4_safe hs) (fun _ t h => h) fun t h => h
  | detect => exact go detect_tri (fun _ t h => by obtain ⟨h1, -, b, h2, h3, -⟩ := h; exact hs.detect h1 h2 h3) fun t h => h.safe hs
  | reset =>
    refine go reset_tri (fun _ t h => ?_) fun t h => ?_
    · obtain ⟨-, h1, b, w, h2⟩ := h
      rw [h1, h2]
      exact hs.reset b w true
    · obtain ⟨-, h1, b, w, g, hg, h2⟩ := h
      rw [h1, h2]
      rcases hg with rfl | rfl
      · exact hs.idle b w
      · exact hs.reset b w false

/-- No operation sends something that the device does not expect, except that the address mode may be switched while it is busy. -/
theorem Op.expected {s : St} {o : Op} (hs : Safe s.drv s.dev) (hw : o.fits env) (hc : o.calm s) : (o.run env s).bad = s.bad := by
  have go : ∀ {α : Type} {m : M α} {Q : α → St → Prop} {E : St → Prop}, Tri (· = s) m Q E → (∀ a t, Q a t → t.bad = s.bad) → (∀ t, E t → t.bad = s.bad) →
      (m s).2.bad = s.bad := by
    intro α m Q E h h1 h2
    have := h s rfl
    cases e : m s with
    | mk r t =>
      rw [e] at this
      cases r with
      | ok a => exact h1 a t this
      | error x => exact h2 t this
  cases o with
  | read a len => exact go (read_tri hs.sync hw) (fun _ t h => h.2.2.bad) fun t h => h.bad
  | write a d => exact go (write_tri hs.sync hw) (fun _ t h => h.2.2.1.bad) fun t h => h.bad
  | sectorErase a => exact go (sectorErase_tri hs.sync) (fun _ t h => h.bad) fun t h => h.bad
  | blockErase a => exact go (blockErase_tri hs.sync) (fun _ t h => h.bad) fun t h => h.bad
  | chipErase => exact go chipErase_tri (fun _ t h => h.1.bad) fun t h => h.bad
  | enable4 f =>
    have hb : s.dev.busy = 0 := hc
    show (SpiFlash.enable4 env f s).2.bad = s.bad
    have key : Tri (· = s) (SpiFlash.enable4 env f) (fun _ t => t.bad = s.bad) (fun t => t.bad = s.bad) := by
      refine Tri.state fun u hu => ?_
      subst hu
      cases e : u.drv.supports f with
      | none => exact Tri.fail fun t (ht : t = u) => ht ▸ rfl
      | some b =>
        cases b
        · exact Tri.ret fun t (ht : t = u) => ht ▸ rfl
        · refine Tri.bind (Q := fun _ t => t.bad = u.bad) (tri_xfer ?_ ?_ ?_) fun _ => ?_
          · rintro t rfl; show (t.bad || t.dev.busy != 0) = _; rw [hb]; simp
          · rintro t rfl; rfl
          · rintro t rfl; show (t.bad || t.dev.busy != 0) = _; rw [hb]; simp
          · intro t ht; exact ht
    exact go key (fun _ _ h => h) fun _ h => h
  | detect => exact go detect_tri (fun _ t h => h.2.1) fun t h => h.bad
  | reset => exact go reset_tri (fun _ t h => h.1) fun t h => h.1

theorem discover_size {t : Sfdp} {s u : St} (h : discover t s = (.ok (), u)) : u.drv.size = t.size := by
  unfold discover at h
  dsimp only at h
  split at h
  · split at h
    · injection h with _ h; rw [← h]
    · injection h with h; cases h
  · injection h with _ h; rw [← h]

/-- The tables of a device give the driver what it needs. -/
theorem discover_safe {t : Sfdp} {s u : St} (ht : Truth t s.dev) (hd : s.drv = Drv.init) (h : discover t s = (.ok (), u)) :
    Safe u.drv u.dev ∧ u.dev = s.dev ∧ u.bad = s.bad := by
  unfold discover at h
  have h3 := ht.only3
  have h4 := ht.only4
  have hs := ht.some
  have hsz := ht.size
  generalize (t.cap3 && !t.fixed4) = c3 at *
  generalize (t.cap4 && !t.only3) = c4 at *
  dsimp only at h
  rw [hd] at h
  cases c3 <;> cases c4
  · rcases hs with hs | hs <;> cases hs
  · obtain ⟨hm, hr⟩ := h4 rfl
    simp only [Bool.false_and, Bool.false_eq_true, if_false, if_true, Prod.mk.injEq, true_and] at h
    subst h
    refine ⟨⟨⟨?_, ?_, ?_, ?_, hsz.1, hsz.2⟩, .inr (.inr ?_)⟩, rfl, rfl⟩
    · refine ⟨?_, fun x => ?_⟩ <;> cases hmu : t.multi <;> simp_all [Drv.setCommands, Drv.setWriteErase, Drv.init, Drv.sends4, Chip.expects4]
    · refine ⟨?_, fun x => ?_⟩ <;> cases hmu : t.multi <;> simp_all [Drv.setCommands, Drv.setWriteErase, Drv.init, Drv.sends4, Chip.expects4]
    · refine ⟨?_, fun x => ?_⟩ <;> cases hmu : t.multi <;> simp_all [Drv.setCommands, Drv.setWriteErase, Drv.init, Drv.sends4, Chip.expects4]
    · refine ⟨?_, fun x => ?_⟩ <;> cases hmu : t.multi <;> simp_all [Drv.setCommands, Drv.setWriteErase, Drv.init, Drv.sends4, Chip.expects4]
    · cases hmu : t.multi <;> simp_all [Drv.setCommands, Drv.setWriteErase, Drv.init]
  · obtain ⟨hm, hr, hz⟩ := h3 rfl
    simp only [Bool.and_false, Bool.false_eq_true, if_false, Prod.mk.injEq, true_and] at h
    subst h
    refine ⟨⟨⟨?_, ?_, ?_, ?_, hsz.1, hsz.2⟩, .inr (.inl ?_)⟩, rfl, rfl⟩
    · refine ⟨?_, fun x => hz⟩ <;> cases hmu : t.multi <;> simp_all [Drv.setCommands, Drv.setWriteErase, Drv.init, Drv.sends4, Chip.expects4]
    · refine ⟨?_, fun x => hz⟩ <;> cases hmu : t.multi <;> simp_all [Drv.setCommands, Drv.setWriteErase, Drv.init, Drv.sends4, Chip.expects4]
    · refine ⟨?_, fun x => hz⟩ <;> cases hmu : t.multi <;> simp_all [Drv.setCommands, Drv.setWriteErase, Drv.init, Drv.sends4, Chip.expects4]
    · refine ⟨?_, fun x => hz⟩ <;> cases hmu : t.multi <;> simp_all [Drv.setCommands, Drv.setWriteErase, Drv.init, Drv.sends4, Chip.expects4]
    · cases hmu : t.multi <;> simp_all [Drv.setCommands, Drv.setWriteErase, Drv.init]
  · cases hc : t.cmds4
    · rw [hc] at h; simp at h
    · rw [hc] at h
      simp only [Bool.and_true, if_true, Prod.mk.injEq, true_and] at h
      subst h
      refine ⟨⟨⟨?_, ?_, ?_, ?_, hsz.1, hsz.2⟩, .inl ?_⟩, rfl, rfl⟩
      · refine ⟨?_, fun x => ?_⟩ <;> cases hmu : t.multi <;> simp_all [Drv.setCommands, Drv.setWriteErase, Drv.init, Drv.sends4, Chip.expects4]
      · refine ⟨?_, fun x => ?_⟩ <;> cases hmu : t.multi <;> simp_all [Drv.setCommands, Drv.setWriteErase, Drv.init, Drv.sends4, Chip.expects4]
      · refine ⟨?_, fun x => ?_⟩ <;> cases hmu : t.multi <;> simp_all [Drv.setCommands, Drv.setWriteErase, Drv.init, Drv.sends4, Chip.expects4]
      · refine ⟨?_, fun x => ?_⟩ <;> cases hmu : t.multi <;> simp_all [Drv.setCommands, Drv.setWriteErase, Drv.init, Drv.sends4, Chip.expects4]
      · cases hmu : t.multi <;> simp_all [Drv.setCommands, Drv.setWriteErase, Drv.init]

theorem runs_safe {s : St} (hs : Safe s.drv s.dev) : ∀ {l : List Op}, (∀ o ∈ l, o.fits env) → Safe (runs env l s).drv (runs env l s).dev
  | [], _ => hs
  | o :: l, h => runs_safe (s := o.run env s) (Op.safe hs (h o (List.mem_cons_self ..))) fun x hx => h x (List.mem_cons_of_mem _ hx)

/-- C80. Whatever is done with a device after its properties were discovered, and whatever fails: driver and device agree on the number of address bytes of each
command. -/
theorem history_in_sync {t : Sfdp} {s u : St} {l : List Op} (ht : Truth t s.dev) (hd : s.drv = Drv.init) (h : discover t s = (.ok (), u))
    (hf : ∀ o ∈ l, o.fits env) : u.drv.size = t.size ∧ Sync (runs env l u).drv (runs env l u).dev :=
  ⟨discover_size h, (runs_safe (discover_safe ht hd h).1 hf).sync⟩

/-- C79. In every history, with any failures, the device gets only commands that it expects: with the right number of address bytes, not while it is busy, and
programming and erasing only after a write enable. This is shown for histories that switch the address mode only while the device is idle; `switch_while_busy`
shows that the driver does not ensure this. -/
theorem history_expected_partial {t : Sfdp} {s u : St} {l : List Op} (ht : Truth t s.dev) (hd : s.drv = Drv.init) (h : discover t s = (.ok (), u))
    (hf : ∀ o ∈ l, o.fits env) (hc : Calm env l u) : (runs env l u).bad = s.bad := by
  obtain ⟨h1, -, h2⟩ := discover_safe ht hd h
  rw [← h2]
  clear h h2 hd ht
  induction l generalizing u with
  | nil => rfl
  | cons o l ih =>
    show (runs env l (o.run env u)).bad = _
    have hf0 := hf o (List.mem_cons_self ..)
    rw [ih (fun x hx => hf x (List.mem_cons_of_mem _ hx)) hc.2 (Op.safe h1 hf0)]
    exact Op.expected h1 hf0 hc.1

/-- C80. A switch of the address mode of an idle device with two modes. -/
theorem enable4_mode {s t : St} {f : Bool} (hb : s.dev.busy = 0) (hs : s.drv.supports f = some true) (h : enable4 env f s = (.ok (), t)) :
    t.drv.addr4 = f ∧ t.dev.mode4 = f := by
  have key : Tri (· = s) (enable4 env f) (fun _ t => t.drv.addr4 = f ∧ t.dev.mode4 = f) (fun _ => True) := by
    refine Tri.state fun u hu => ?_
    subst hu
    rw [hs]
    refine Tri.bind (Q := fun _ t => t.dev.mode4 = f) (tri_xfer ?_ (fun _ _ => trivial) (fun _ _ => trivial)) fun _ => ?_
    · rintro t rfl
      rw [if_neg (by rw [hb]; simp)]
    · intro t ht
      exact ⟨rfl, ht⟩
  exact key.ok rfl h

/-- C80. Detection of the address mode of a device with two modes. -/
theorem detect_mode {s t : St} (h3 : s.drv.cap3 = true) (h4 : s.drv.cap4 = true) (hi : s.drv.instr = false) (h : detect env s = (.ok (), t)) :
    t.drv.addr4 = t.dev.mode4 := by
  obtain ⟨h1, -, b, e, -, hb⟩ := detect_tri.ok rfl h
  rw [e, h1]
  exact hb h3 h4 hi

/-- C80. A reset of a device: if the driver knew its address mode, it knows it afterwards. -/
theorem reset_mode {s t : St} (hs : Safe s.drv s.dev) (hk : KnowsReset s.drv s.dev) (he : s.drv.addr4 = s.dev.mode4) (h : reset env s = (.ok (), t)) :
    t.drv.addr4 = t.dev.mode4 := by
  obtain ⟨-, e1, b, w, e2⟩ := reset_tri.ok rfl h
  rw [e1, e2]
  show s.drv.afterReset s.dev = s.dev.onReset.getD s.dev.mode4
  unfold Drv.afterReset
  rcases hs.modes with ⟨h3, h4, -⟩ | ⟨h3, h4, hm, ha, hr, -⟩ | ⟨h3, h4, hm, ha, hr⟩
  · cases hi : s.drv.instr
    · have := hk.both h3 h4 hi
      cases hr : s.drv.reset3
      · rw [hr] at this
        have : s.dev.onReset = none := by
          cases e : s.dev.onReset with
          | none => rfl
          | some x => rw [e] at this; simp at this
        rw [this]
        simpa using he
      · rw [hr] at this
        cases e : s.dev.onReset with
        | none => rw [e] at this; simp at this
        | some x => simp [h3, h4]
    · obtain ⟨hm, hr⟩ := hk.instr h3 h4 hi
      rw [he, hm]
      rcases hr with hr | hr <;> rw [hr] <;> simp [h3, h4]
  · rw [h3, h4, ha, hm]
    rcases hr with hr | hr <;> rw [hr] <;> simp
  · rw [h3, h4, ha, hm]
    rcases hr with hr | hr <;> rw [hr] <;> simp

/-- C80. A driver that is restored from saved information can use the device, whatever address mode it is in. This is shown for devices that have addresses of 3 bytes;
`restore_loses_fixed_mode` shows that it is false for the others. -/
theorem restore_safe_partial {d : Drv} {v : Chip} (hs : Safe d v) (h3 : d.cap3 = true) :
    Safe (restore d.save) v ∧ (restore d.save).size = d.size := by
  refine ⟨?_, by unfold restore Drv.setWriteErase; split <;> rfl⟩
  rcases hs.modes with ⟨-, h4, hc⟩ | ⟨-, h4, hm, ha, hr, hz⟩ | ⟨h, -⟩
  · have hrd := hc d.rd (by simp)
    refine ⟨⟨⟨?_, fun x => ?_⟩, ⟨?_, fun x => ?_⟩, ⟨?_, fun x => ?_⟩, ⟨?_, fun x => ?_⟩, ?_, ?_⟩, .inl ⟨?_, ?_, ?_⟩⟩
    all_goals simp_all [restore, Drv.save, Drv.setWriteErase, Drv.sends4, Chip.expects4, hs.sync.size, hs.sync.range]
  · have hrd := hs.sync.rd
    have hb := hrd.bytes
    refine ⟨⟨⟨?_, fun x => ?_⟩, ⟨?_, fun x => ?_⟩, ⟨?_, fun x => ?_⟩, ⟨?_, fun x => ?_⟩, ?_, ?_⟩, .inr (.inl ⟨?_, ?_, ?_, ?_, ?_, ?_⟩)⟩
    all_goals simp_all [restore, Drv.save, Drv.setWriteErase, Drv.sends4, Chip.expects4, Drv.init, hs.sync.size, hs.sync.range]
  · rw [h3] at h; cases h

/-! ### Examples -/

/-- No failures; the device is busy for two status reads. -/
def demoEnv : Env := ⟨fun _ => .ok, fun _ _ => 0x55, fun _ => 2, 32⟩

/-- A device of 32 MB with two address modes, erased. -/
def demoChip : Chip := ⟨fun _ => 0xff, 0x2000000, false, false, 0, some false⟩

def demoTables : Sfdp := ⟨true, true, false, false, false, true, true, 0x2000000, true, true⟩

def demoStart : St := ⟨demoChip, Drv.init, 0, false⟩

def demoSt : St := (discover demoTables demoStart).2

theorem demoTruth : Truth demoTables demoStart.dev := ⟨by decide, by decide, by decide, by decide⟩

theorem demoDiscover : discover demoTables demoStart = (.ok (), demoSt) := rfl

theorem demoSync : Sync demoSt.drv demoSt.dev := (discover_safe demoTruth rfl demoDiscover).1.sync

/-- A write across the end of a page, above the reach of 3 bytes, is read back. -/
example : (match write demoEnv 0x10000fe [1, 2, 3, 4] demoSt with
    | (.ok n, t) => n == 4 && (match read demoEnv 0x10000fd 6 t with | (.ok d, u) => d == [0xff, 1, 2, 3, 4, 0xff] && !u.bad | _ => false)
    | _ => false) = true := by decide_cbv

/-- If the second page fails, two bytes are reported, and the others are in doubt. -/
example : (match write { demoEnv with out := fun n => if n = 7 then .partly else .ok } 0x10000fe [1, 2, 3, 4] demoSt with
    | (.ok n, t) => n == 2 && bytesAt t.dev.mem 0x10000fd 6 == [0xff, 1, 2, 0x55, 0x55, 0xff] && !t.bad
    | _ => false) = true := by decide_cbv

/-- A sector erase after it. -/
example : (match sectorErase demoEnv 0x1000123 (write demoEnv 0x1000ffe [1, 2, 3, 4] demoSt).2 with
    | (.ok _, t) => bytesAt t.dev.mem 0x1000ffe 4 == [0xff, 0xff, 3, 4] && !t.bad
    | _ => false) = true := by decide_cbv

/-- A history with a failing switch of the address mode, which the device gets all the same, and a reset. -/
example : let env := { demoEnv with out := fun n => if n = 0 then .partly else .ok }
    let t := runs env [.enable4 true, .write 0x10 [7], .reset, .read 0x10 1] demoSt
    (t.dev.mem 0x10 == 7 && !t.bad && !t.drv.addr4 && !t.dev.mode4) = true := by decide_cbv

example : Sync (runs demoEnv [.enable4 true, .write 0x10 [7], .reset, .read 0x10 1] demoSt).drv (runs demoEnv [.enable4 true, .write 0x10 [7], .reset, .read 0x10 1] demoSt).dev :=
  (history_in_sync demoTruth rfl demoDiscover (by simp [Op.fits, demoEnv])).2

example : Calm demoEnv [.enable4 true, .write 0x10 [7], .reset] demoSt := ⟨rfl, trivial, trivial, trivial⟩

example : KnowsReset demoSt.drv demoSt.dev := ⟨by decide, by decide⟩

example : Safe (restore demoSt.drv.save) demoSt.dev := (restore_safe_partial (discover_safe demoTruth rfl demoDiscover).1 rfl).1

/-! ### What is not true -/

/-- With a `size_t` of 32 bits, a length that makes the sum wrap passes the check: the read succeeds although it does not fit into the device. -/
theorem huge_length_passes : ∃ a len, a + len > demoSt.drv.size ∧ len < 2 ^ 32 ∧ a < 2 ^ 32 ∧ boundsCheck demoEnv demoSt.drv.size a len demoSt = (.ok (), demoSt) :=
  ⟨0x100, 2 ^ 32 - 0x80, by decide, by decide, by decide, by rw [boundsCheck, if_neg (by decide), if_neg (by decide)]; rfl⟩

/-- A switch of the address mode does not check that the device is idle. After a write for which the end was not seen, the device ignores the command, but the driver
reports success and another mode than the device has. -/
theorem switch_while_busy : ∃ (env : Env) (s t : St), (write env 0 [1] demoSt).2 = s ∧ enable4 env true s = (.ok (), t) ∧ t.drv.addr4 = true ∧ t.dev.mode4 = false ∧ t.bad = true :=
  ⟨{ demoEnv with out := fun n => if n = 3 then .lost else .ok }, _, _, rfl, rfl, rfl, rfl, rfl⟩

/-- A device of 32 MB that has addresses of 4 bytes only. -/
def fixedChip : Chip := { demoChip with mode4 := true, onReset := some true }

def fixedTables : Sfdp := { demoTables with fixed4 := true }

def fixedSt : St := (discover fixedTables ⟨fixedChip, Drv.init, 0, false⟩).2

/-- After the driver for a device with addresses of 4 bytes only is restored from saved information, it sends addresses of 3 bytes. Neither detecting nor
setting nor forcing the address mode changes this, although they report success; a write changes bytes that it was not given. -/
theorem restore_loses_fixed_mode : Sync fixedSt.drv fixedSt.dev ∧
    let s : St := { fixedSt with drv := restore fixedSt.drv.save }
    ¬ Sync s.drv s.dev ∧ detect demoEnv s = (.ok (), s) ∧ enable4 demoEnv true s = (.ok (), s) ∧ force4 true s = (.ok (), s) ∧
    ∃ t, write demoEnv 0 [1] s = (.ok 1, t) ∧ t.bad = true ∧ t.dev.mem 0x1000 = 0x55 := by
  refine ⟨(discover_safe (t := fixedTables) (s := ⟨fixedChip, Drv.init, 0, false⟩) ⟨by decide, by decide, by decide, by decide⟩ rfl rfl).1.sync,
    fun h => absurd h.rd.bytes (by decide), rfl, rfl, rfl, _, rfl, rfl, rfl⟩

end Verif.SpiFlash
