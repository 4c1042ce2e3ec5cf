import Verif.SpiFlash.Spec
import Verif.Flash.Lemmas
/-! Lemmas on the SPI flash driver. -/
namespace Verif.SpiFlash
open Verif.Flash (Mem bytesAt program)

/-- Rules. -/
def Tri (P : St → Prop) (m : M α) (Q : α → St → Prop) (E : St → Prop) : Prop :=
  ∀ s, P s → match m s with
    | (.ok a, t) => Q a t
    | (.error _, t) => E t

variable {P : St → Prop} {Q : α → St → Prop} {E : St → Prop} {m : M α} {env : Env}

theorem Tri.ret {a : α} (h : ∀ s, P s → Q a s) : Tri P (pure a : M α) Q E := fun s hs => h s hs

theorem Tri.fail {x : Err} (h : ∀ s, P s → E s) : Tri P (fail x : M α) Q E := fun s hs => h s hs

theorem Tri.bind {f : α → M β} {R : β → St → Prop} (h : Tri P m Q E) (hf : ∀ a, Tri (Q a) (f a) R E) : Tri P (m >>= f) R E := by
  intro s hs
  have h := h s hs
  show match (match m s with | (.ok a, s) => f a s | (.error e, s) => (.error e, s)) with | (.ok a, t) => R a t | (.error _, t) => E t
  cases e : m s with
  | mk r t =>
    rw [e] at h
    cases r with
    | ok a => exact hf a t h
    | error x => exact h

theorem Tri.state {R : α → St → Prop} {f : St → M α} (h : ∀ s, P s → Tri (· = s) (f s) R E) : Tri P (state >>= f) R E := fun s hs => h s hs s rfl

theorem Tri.conseq {P' : St → Prop} {Q' : α → St → Prop} {E' : St → Prop} (h : Tri P m Q E) (hp : ∀ s, P' s → P s)
    (hq : ∀ a s, Q a s → Q' a s) (he : ∀ s, E s → E' s) : Tri P' m Q' E' := by
  intro s hs
  have h := h s (hp s hs)
  cases e : m s with
  | mk r t =>
    rw [e] at h
    cases r with
    | ok a => exact hq a t h
    | error x => exact he t h

theorem Tri.ok (h : Tri P m Q E) {s t : St} {a : α} (hs : P s) (e : m s = (.ok a, t)) : Q a t := by
  have := h s hs; rw [e] at this; exact this

theorem Tri.err (h : Tri P m Q E) {s t : St} {x : Err} (hs : P s) (e : m s = (.error x, t)) : E t := by
  have := h s hs; rw [e] at this; exact this

theorem tri_xfer {bad : Chip → Bool} {f g : Nat → Chip → Chip} {Q : Unit → St → Prop}
    (ho : ∀ s, P s → Q () { s with dev := f s.n s.dev, n := s.n + 1, bad := s.bad || bad s.dev })
    (hl : ∀ s, P s → E { s with n := s.n + 1 })
    (hp : ∀ s, P s → E { s with dev := g s.n s.dev, n := s.n + 1, bad := s.bad || bad s.dev }) : Tri P (xfer env bad f g) Q E := by
  intro s hs
  unfold xfer
  cases env.out s.n with
  | ok => exact ho s hs
  | lost => exact hl s hs
  | partly => exact hp s hs

theorem Only.rfl' {R : Nat → Prop} {s : St} : Only R s s := ⟨rfl, rfl, rfl, rfl, rfl, fun _ _ => rfl⟩

theorem Only.trans {R : Nat → Prop} {s t u : St} (h : Only R s t) (h' : Only R t u) : Only R s u :=
  ⟨h'.drv.trans h.drv, h'.bad.trans h.bad, h'.size.trans h.size, h'.mode.trans h.mode, h'.reset.trans h.reset, fun i hi => (h'.mem i hi).trans (h.mem i hi)⟩

theorem Only.mono {R R' : Nat → Prop} {s t : St} (h : Only R s t) (hr : ∀ i, R i → R' i) : Only R' s t :=
  ⟨h.drv, h.bad, h.size, h.mode, h.reset, fun i hi => h.mem i fun x => hi (hr i x)⟩

/-- Nothing. -/
abbrev none' : Nat → Prop := fun _ => False

theorem Only.sync {R : Nat → Prop} {s t : St} (h : Only R s t) (hs : Sync s.drv s.dev) : Sync t.drv t.dev := by
  have hf : ∀ c, Fits s.drv s.dev c → Fits t.drv t.dev c := by
    intro c hc
    refine ⟨?_, ?_⟩
    · rw [h.drv, hc.bytes]
      simp only [Chip.expects4, h.mode]
    · rw [h.drv]; exact hc.reach
  have e := h.drv
  refine ⟨?_, ?_, ?_, ?_, ?_, ?_⟩
  · have := hf _ hs.rd; rwa [← e] at this
  · have := hf _ hs.wr; rwa [← e] at this
  · have := hf _ hs.sector; rwa [← e] at this
  · have := hf _ hs.block; rwa [← e] at this
  · rw [e, h.size]; exact hs.size
  · rw [e]; exact hs.range

/-- Anything that may happen to the contents is a case of `Only`. -/
theorem isBusy_tri {s0 : St} {R : Nat → Prop} : Tri (Only R s0) (isBusy env) (fun b s => Only R s0 s ∧ (b = false → s.dev.busy = 0)) (Only R s0) := by
  refine Tri.state fun s hs => ?_
  refine Tri.bind (Q := fun _ t => Only R s0 t ∧ (s.dev.busy = 0 → t.dev.busy = 0)) (tri_xfer ?_ ?_ ?_) fun _ => Tri.ret fun t ht => ⟨ht.1, fun h => ht.2 ?_⟩
  · rintro t rfl
    exact ⟨⟨hs.drv, by rw [Bool.or_false]; exact hs.bad, hs.size, hs.mode, hs.reset, hs.mem⟩, fun h => by show t.dev.busy - 1 = 0; rw [h]⟩
  · rintro t rfl
    exact ⟨hs.drv, hs.bad, hs.size, hs.mode, hs.reset, hs.mem⟩
  · rintro t rfl
    exact ⟨hs.drv, by rw [Bool.or_false]; exact hs.bad, hs.size, hs.mode, hs.reset, hs.mem⟩
  · have : (s.dev.busy != 0) = false := h
    simpa using this

/-- A status read does not touch the contents at all. -/
theorem isBusy_mem {m0 : Mem} : Tri (fun s => s.dev.mem = m0) (isBusy env) (fun _ s => s.dev.mem = m0) (fun s => s.dev.mem = m0) := by
  refine Tri.state fun s hs => ?_
  refine Tri.bind (Q := fun _ t => t.dev.mem = m0) (tri_xfer ?_ ?_ ?_) fun _ => Tri.ret fun t ht => ht
  all_goals rintro t rfl; exact hs

theorem checkIdle_tri {s0 : St} {R : Nat → Prop} : Tri (Only R s0) (checkIdle env) (fun _ s => Only R s0 s ∧ s.dev.busy = 0) (Only R s0) := by
  refine Tri.bind isBusy_tri fun b => ?_
  cases b
  · exact Tri.ret fun s hs => ⟨hs.1, hs.2 rfl⟩
  · exact Tri.fail fun s hs => hs.1

theorem waitLoop_tri {s0 : St} {R : Nat → Prop} : ∀ k, Tri (Only R s0) (waitLoop env k) (fun _ s => Only R s0 s ∧ s.dev.busy = 0) (Only R s0)
  | 0 => Tri.fail fun _ hs => hs
  | k + 1 => by
    refine Tri.bind isBusy_tri fun b => ?_
    cases b
    · exact Tri.ret fun s hs => ⟨hs.1, hs.2 rfl⟩
    · exact (waitLoop_tri k).conseq (fun s h => h.1) (fun _ _ h => h) fun _ h => h

theorem waitDone_tri {s0 : St} {R : Nat → Prop} : Tri (Only R s0) (waitDone env) (fun _ s => Only R s0 s ∧ s.dev.busy = 0) (Only R s0) :=
  Tri.state fun s hs => (waitLoop_tri _).conseq (fun t (ht : t = s) => ht ▸ hs) (fun _ _ h => h) fun _ h => h

theorem waitLoop_mem {m0 : Mem} : ∀ k, Tri (fun s => s.dev.mem = m0) (waitLoop env k) (fun _ s => s.dev.mem = m0) (fun s => s.dev.mem = m0)
  | 0 => Tri.fail fun _ hs => hs
  | k + 1 => by
    refine Tri.bind isBusy_mem fun b => ?_
    cases b
    · exact Tri.ret fun s hs => hs
    · exact waitLoop_mem k

theorem waitDone_mem {m0 : Mem} : Tri (fun s => s.dev.mem = m0) (waitDone env) (fun _ s => s.dev.mem = m0) (fun s => s.dev.mem = m0) :=
  Tri.state fun s hs => (waitLoop_mem _).conseq (fun t (ht : t = s) => ht ▸ hs) (fun _ _ h => h) fun _ h => h

/-- Both. -/
theorem Tri.and {P' : St → Prop} {Q' : α → St → Prop} {E' : St → Prop} (h : Tri P m Q E) (h' : Tri P' m Q' E') :
    Tri (fun s => P s ∧ P' s) m (fun a s => Q a s ∧ Q' a s) (fun s => E s ∧ E' s) := by
  intro s hs
  have h := h s hs.1
  have h' := h' s hs.2
  cases e : m s with
  | mk r t =>
    rw [e] at h h'
    cases r with
    | ok a => exact ⟨h, h'⟩
    | error x => exact ⟨h, h'⟩

theorem writeEnable_tri {s0 : St} {R : Nat → Prop} {m0 : Mem} : Tri (fun s => (Only R s0 s ∧ s.dev.busy = 0) ∧ s.dev.mem = m0) (writeEnable env)
    (fun _ s => (Only R s0 s ∧ s.dev.busy = 0 ∧ s.dev.wel = true) ∧ s.dev.mem = m0) (fun s => Only R s0 s ∧ s.dev.mem = m0) := by
  unfold writeEnable simple
  refine tri_xfer ?_ ?_ ?_
  · rintro s ⟨⟨h, hb⟩, hm⟩
    rw [if_neg (by rw [hb]; simp)]
    exact ⟨⟨⟨h.drv, by rw [hb]; simpa using h.bad, h.size, h.mode, h.reset, h.mem⟩, hb, rfl⟩, hm⟩
  · rintro s ⟨⟨h, hb⟩, hm⟩
    exact ⟨⟨h.drv, h.bad, h.size, h.mode, h.reset, h.mem⟩, hm⟩
  · rintro s ⟨⟨h, hb⟩, hm⟩
    rw [if_neg (by rw [hb]; simp)]
    exact ⟨⟨h.drv, by rw [hb]; simpa using h.bad, h.size, h.mode, h.reset, h.mem⟩, hm⟩

theorem sent_eq {d : Drv} {v : Chip} {c : Cmd} (h : Fits d v c) (hr : d.size < 2 ^ 32) {a : Nat} (ha : a < d.size) : sent (d.sends4 c) a = a := by
  unfold sent
  cases e : d.sends4 c
  · have := h.reach e
    simp only [Bool.false_eq_true, if_false]
    exact Nat.mod_eq_of_lt (by omega)
  · simp only [if_true]
    exact Nat.mod_eq_of_lt (by omega)

theorem sendProgram_tri {s0 : St} {R : Nat → Prop} {m0 : Mem} {a : Nat} {data : Bytes} (hs0 : Sync s0.drv s0.dev) (ha : a < s0.drv.size)
    (hr : ∀ i, inPage a data.length i → R i) :
    Tri (fun s => (Only R s0 s ∧ s.dev.busy = 0 ∧ s.dev.wel = true) ∧ s.dev.mem = m0) (sendProgram env a data)
      (fun _ s => Only R s0 s ∧ s.dev.mem = pageProgram m0 a data) (fun s => Only R s0 s ∧ ∀ i, ¬ inPage a data.length i → s.dev.mem i = m0 i) := by
  refine Tri.state fun s hs => ?_
  obtain ⟨⟨h, hb, hw⟩, hm⟩ := hs
  have hsync := h.sync hs0
  have hfit := hsync.wr
  have hsent : sent (s.drv.sends4 s.drv.wr) a = a := sent_eq hfit hsync.range (by rw [h.drv]; exact ha)
  have hbad : (s.drv.sends4 s.drv.wr != s.dev.expects4 s.drv.wr || s.dev.busy != 0 || !s.dev.wel) = false := by
    rw [hfit.bytes, hb, hw]; simp
  have hc : ¬ (s.dev.busy ≠ 0 ∨ s.dev.wel = false) := by rw [hb, hw]; simp
  have hn : ¬ (s.drv.sends4 s.drv.wr ≠ s.dev.expects4 s.drv.wr) := fun x => x hfit.bytes
  refine tri_xfer ?_ ?_ ?_
  · rintro t rfl
    dsimp only
    rw [if_neg hn, if_neg hc, hsent, hbad]
    refine ⟨⟨h.drv, by rw [Bool.or_false]; exact h.bad, h.size, h.mode, h.reset, fun i hi => ?_⟩, ?_⟩
    · simp only [Bool.false_eq_true, if_false, pageProgram]
      rw [if_neg fun x => hi (hr i x)]
      exact h.mem i hi
    · simp only [Bool.false_eq_true, if_false]
      rw [hm]
  · rintro t rfl
    exact ⟨⟨h.drv, h.bad, h.size, h.mode, h.reset, h.mem⟩, fun i _ => by rw [← hm]⟩
  · rintro t rfl
    dsimp only
    rw [if_neg hn, if_neg hc, hsent, hbad]
    refine ⟨⟨h.drv, by rw [Bool.or_false]; exact h.bad, h.size, h.mode, h.reset, fun i hi => ?_⟩, fun i hi => ?_⟩
    · simp only [if_true]
      rw [if_neg fun x => hi (hr i x)]
      exact h.mem i hi
    · simp only [if_true]
      rw [if_neg hi, hm]

theorem writePage_tri {s0 : St} {R : Nat → Prop} {m0 : Mem} {a : Nat} {data : Bytes} (hs0 : Sync s0.drv s0.dev) (ha : a < s0.drv.size)
    (hr : ∀ i, inPage a data.length i → R i) :
    Tri (fun s => (Only R s0 s ∧ s.dev.busy = 0) ∧ s.dev.mem = m0) (writePage env a data)
      (fun _ s => (Only R s0 s ∧ s.dev.busy = 0) ∧ s.dev.mem = pageProgram m0 a data)
      (fun s => Only R s0 s ∧ ∀ i, ¬ inPage a data.length i → s.dev.mem i = m0 i) := by
  refine Tri.bind (writeEnable_tri.conseq (fun _ h => h) (fun _ _ h => h) fun _ h => ⟨h.1, fun i _ => by rw [h.2]⟩) fun _ => ?_
  refine Tri.bind (sendProgram_tri hs0 ha hr) fun _ => ?_
  refine (waitDone_tri.and waitDone_mem).conseq (fun _ h => h) (fun _ _ h => h) fun s h => ⟨h.1, fun i hi => ?_⟩
  rw [h.2]
  simp only [pageProgram]
  rw [if_neg hi]

/-! Pages. -/

theorem inPage_iff {a len i : Nat} (h : a % 256 + len ≤ 256) : inPage a len i ↔ a ≤ i ∧ i < a + len := by
  unfold inPage pageIndex pageSize
  have ha := Nat.div_add_mod a 256
  have hi := Nat.div_add_mod i 256
  have h1 := Nat.mod_lt a (show 0 < 256 by omega)
  have h2 := Nat.mod_lt i (show 0 < 256 by omega)
  constructor
  · rintro ⟨hd, hp⟩
    rw [hd] at hi
    by_cases hge : a % 256 ≤ i % 256
    · have : (i % 256 + 256 - a % 256) % 256 = i % 256 - a % 256 := by omega
      omega
    · have : (i % 256 + 256 - a % 256) % 256 = i % 256 + 256 - a % 256 := Nat.mod_eq_of_lt (by omega)
      omega
  · rintro ⟨h3, h4⟩
    have hd : i / 256 = a / 256 := by omega
    refine ⟨hd, ?_⟩
    rw [hd] at hi
    have : (i % 256 + 256 - a % 256) % 256 = i % 256 - a % 256 := by omega
    omega

theorem pageIndex_eq {a len i : Nat} (h : a % 256 + len ≤ 256) (h1 : a ≤ i) (h2 : i < a + len) : pageIndex a i = i - a := by
  unfold pageIndex pageSize
  have ha := Nat.div_add_mod a 256
  have hi := Nat.div_add_mod i 256
  have h3 := Nat.mod_lt a (show 0 < 256 by omega)
  have h4 := Nat.mod_lt i (show 0 < 256 by omega)
  have hd : i / 256 = a / 256 := by omega
  rw [hd] at hi
  omega

theorem pageProgram_eq {m : Mem} {a : Nat} {d : Bytes} (h : a % 256 + d.length ≤ 256) : pageProgram m a d = program m a d := by
  funext i
  unfold pageProgram program
  by_cases hi : a ≤ i ∧ i < a + d.length
  · rw [if_pos ((inPage_iff h).mpr hi), if_pos hi, pageIndex_eq h hi.1 hi.2]
  · rw [if_neg fun x => hi ((inPage_iff h).mp x), if_neg hi]

theorem program_append {m : Mem} {a : Nat} {d e : Bytes} : program (program m a d) (a + d.length) e = program m a (d ++ e) := by
  funext i
  unfold program
  rw [List.length_append]
  by_cases h1 : a ≤ i ∧ i < a + d.length
  · have h2 : ¬ (a + d.length ≤ i ∧ i < a + d.length + e.length) := by omega
    have h3 : a ≤ i ∧ i < a + (d.length + e.length) := by omega
    rw [if_neg h2, if_pos h1, if_pos h3]
    rw [List.getD_eq_getElem?_getD, List.getD_eq_getElem?_getD, List.getElem?_append_left (by omega)]
  · by_cases h2 : a + d.length ≤ i ∧ i < a + d.length + e.length
    · have h3 : a ≤ i ∧ i < a + (d.length + e.length) := by omega
      rw [if_pos h2, if_neg h1, if_pos h3]
      rw [List.getD_eq_getElem?_getD, List.getD_eq_getElem?_getD, List.getElem?_append_right (by omega)]
      rw [show i - (a + d.length) = i - a - d.length by omega]
    · have h3 : ¬ (a ≤ i ∧ i < a + (d.length + e.length)) := by omega
      rw [if_neg h2, if_neg h1, if_neg h3]

theorem writeLen_eq {a len : Nat} (h : a + len < 2 ^ 32) (hl : 0 < len) :
    writeLen (pageBase a) ((pageBase a + pageSize) % 2 ^ 32) a len = min len (256 - a % 256) := by
  unfold writeLen pageBase pageSize
  rw [Nat.mod_eq_of_lt h]
  have ha := Nat.div_add_mod a 256
  have hb := Nat.div_add_mod (a + len) 256
  have h1 := Nat.mod_lt a (show 0 < 256 by omega)
  have h2 := Nat.mod_lt (a + len) (show 0 < 256 by omega)
  by_cases he : a - a % 256 = a + len - (a + len) % 256
  · rw [if_neg (fun x => x he)]
    omega
  · rw [if_pos he]
    have hle : a / 256 ≤ (a + len) / 256 := Nat.div_le_div_right (by omega)
    have hlt : a / 256 < (a + len) / 256 := by
      rcases Nat.lt_or_eq_of_le hle with h | h
      · exact h
      · exfalso; apply he; rw [h] at ha; omega
    omega

theorem next_base {a len : Nat} (h : a + len < 2 ^ 32) (hl : 256 - a % 256 < len) :
    (pageBase a + pageSize) % 2 ^ 32 = a + (256 - a % 256) ∧ pageBase (a + (256 - a % 256)) = a + (256 - a % 256) := by
  unfold pageBase pageSize
  omega

/-- The loop of a write. -/
theorem writeLoop_spec {s0 : St} (hs0 : Sync s0.drv s0.dev) {R : Nat → Prop} : ∀ (k a : Nat) (data : Bytes) (s : St), data.length ≤ k →
    (data ≠ [] → a + data.length ≤ s0.drv.size) → (∀ i, a ≤ i → i < a + data.length → R i) → Only R s0 s → s.dev.busy = 0 →
    ∃ left st t, writeLoop env k (pageBase a) ((pageBase a + pageSize) % 2 ^ 32) a data s = (.ok (left, st), t) ∧ left ≤ data.length ∧ Only R s0 t ∧
      (st = none → left = 0 ∧ t.dev.busy = 0 ∧ t.dev.mem = program s.dev.mem a data) ∧
      (∀ e, st = some e → 0 < left ∧ ∀ i, ¬ (a + (data.length - left) ≤ i ∧ i < a + data.length ∧ i / 256 = (a + (data.length - left)) / 256) →
        t.dev.mem i = program s.dev.mem a (data.take (data.length - left)) i)
  | 0, a, data, s, hk, _, _, ho, hb => by
    have : data = [] := List.length_eq_zero_iff.mp (by omega)
    subst this
    refine ⟨0, none, s, rfl, Nat.le_refl _, ho, fun _ => ⟨rfl, hb, ?_⟩, nofun⟩
    funext i
    simp [program]
    omega
  | k + 1, a, data, s, hk, hsz, hR, ho, hb => by
    by_cases hd : data = []
    · subst hd
      refine ⟨0, none, s, rfl, Nat.le_refl _, ho, fun _ => ⟨rfl, hb, ?_⟩, nofun⟩
      funext i
      simp [program]
      omega
    · have hpos : 0 < data.length := List.length_pos_iff.mpr hd
      have hsz' := hsz hd
      have hrange := hs0.range
      have hlt : a + data.length < 2 ^ 32 := by omega
      unfold writeLoop
      rw [if_neg hd]
      dsimp only
      rw [writeLen_eq hlt hpos]
      have hmod := Nat.mod_lt a (show 0 < 256 by omega)
      have hlen : (data.take (min data.length (256 - a % 256))).length = min data.length (256 - a % 256) := by
        rw [List.length_take]; omega
      have hpg : a % 256 + (data.take (min data.length (256 - a % 256))).length ≤ 256 := by rw [hlen]; omega
      have htri := writePage_tri (env := env) (s0 := s0) (R := R) (m0 := s.dev.mem) (a := a) (data := data.take (min data.length (256 - a % 256))) hs0 (by omega)
        (fun i hi => by
          have := (inPage_iff hpg).mp hi
          rw [hlen] at this
          exact hR i this.1 (by omega)) s ⟨⟨ho, hb⟩, rfl⟩
      cases e : writePage env a (data.take (min data.length (256 - a % 256))) s with
      | mk r t =>
        rw [e] at htri
        cases r with
        | error x =>
          refine ⟨data.length, some x, t, rfl, Nat.le_refl _, htri.1, nofun, fun _ _ => ⟨hpos, fun i hi => ?_⟩⟩
          rw [Nat.sub_self, Nat.add_zero] at hi
          rw [Nat.sub_self, List.take_zero]
          have : program s.dev.mem a [] i = s.dev.mem i := by simp [program]; omega
          rw [this]
          refine htri.2 i fun hp => hi ?_
          have hdiv : i / 256 = a / 256 := hp.1
          have := (inPage_iff hpg).mp hp
          rw [hlen] at this
          exact ⟨this.1, by omega, hdiv⟩
        | ok u =>
          obtain ⟨⟨ho', hb'⟩, hm'⟩ := htri
          rw [pageProgram_eq hpg] at hm'
          by_cases hmore : 256 - a % 256 < data.length
          · obtain ⟨hn1, hn2⟩ := next_base hlt hmore
            have hmin : min data.length (256 - a % 256) = 256 - a % 256 := by omega
            rw [hmin] at hm' hlen ⊢
            rw [hn1]
            have hdl : (data.drop (256 - a % 256)).length = data.length - (256 - a % 256) := List.length_drop
            have ih := writeLoop_spec (R := R) hs0 k (a + (256 - a % 256)) (data.drop (256 - a % 256)) t (by rw [hdl]; omega) (fun _ => by rw [hdl]; omega)
              (fun i h1 h2 => by rw [hdl] at h2; exact hR i (by omega) (by omega)) ho' hb'
            obtain ⟨left, st, v, hv, hl, hov, hn, hs⟩ := ih
            rw [hn2] at hv
            refine ⟨left, st, v, hv, by rw [hdl] at hl; omega, hov, fun h => ?_, fun x hx => ?_⟩
            · obtain ⟨h1, h2, h3⟩ := hn h
              refine ⟨h1, h2, ?_⟩
              rw [h3, hm']
              have := program_append (m := s.dev.mem) (a := a) (d := data.take (256 - a % 256)) (e := data.drop (256 - a % 256))
              rw [hlen, List.take_append_drop] at this
              exact this
            · obtain ⟨h1, h2⟩ := hs x hx
              refine ⟨h1, fun i hi => ?_⟩
              rw [hdl] at hl h2
              have e1 : a + (256 - a % 256) + (data.length - (256 - a % 256) - left) = a + (data.length - left) := by omega
              have e2 : a + (256 - a % 256) + (data.length - (256 - a % 256)) = a + data.length := by omega
              have := h2 i (by rw [e1, e2]; exact hi)
              rw [this, hm']
              have happ := program_append (m := s.dev.mem) (a := a) (d := data.take (256 - a % 256)) (e := (data.drop (256 - a % 256)).take (data.length - (256 - a % 256) - left))
              rw [hlen] at happ
              rw [happ]
              congr 2
              have : data.length - left = (256 - a % 256) + (data.length - (256 - a % 256) - left) := by omega
              rw [this, List.take_add]
          · have hmin : min data.length (256 - a % 256) = data.length := by omega
            rw [hmin] at hm' ⊢
            rw [List.take_length] at hm'
            rw [List.drop_length]
            refine ⟨0, none, t, ?_, Nat.zero_le _, ho', fun _ => ⟨rfl, hb', hm'⟩, nofun⟩
            cases k with
            | zero => rfl
            | succ k => rfl

/-! Erasing. -/

theorem sendErase_tri {s0 : St} {R : Nat → Prop} {m0 : Mem} {cmd : Cmd} {size a : Nat} (hf : Fits s0.drv s0.dev cmd) (hrg : s0.drv.size < 2 ^ 32) (ha : a < s0.drv.size)
    (hr : ∀ i, i / size = a / size → R i) :
    Tri (fun s => (Only R s0 s ∧ s.dev.busy = 0 ∧ s.dev.wel = true) ∧ s.dev.mem = m0) (sendErase env cmd size a)
      (fun _ s => Only R s0 s ∧ s.dev.mem = fun i => if i / size = a / size then 0xff else m0 i) (Only R s0) := by
  refine Tri.state fun s hs => ?_
  obtain ⟨⟨h, hb, hw⟩, hm⟩ := hs
  have hd : s.drv.sends4 cmd = s0.drv.sends4 cmd := by rw [h.drv]
  have hsent : sent (s.drv.sends4 cmd) a = a := by rw [hd]; exact sent_eq hf hrg ha
  have he : s.drv.sends4 cmd = s.dev.expects4 cmd := by rw [hd, hf.bytes]; simp only [Chip.expects4, h.mode]
  have hbad : (s.drv.sends4 cmd != s.dev.expects4 cmd || s.dev.busy != 0 || !s.dev.wel) = false := by
    rw [he, hb, hw]; simp
  have hc : ¬ (s.dev.busy ≠ 0 ∨ s.dev.wel = false) := by rw [hb, hw]; simp
  have hn : ¬ (s.drv.sends4 cmd ≠ s.dev.expects4 cmd) := fun x => x he
  refine tri_xfer ?_ ?_ ?_
  · rintro t rfl
    dsimp only
    rw [if_neg hn, if_neg hc, hsent, hbad]
    refine ⟨⟨h.drv, by rw [Bool.or_false]; exact h.bad, h.size, h.mode, h.reset, fun i hi => ?_⟩, ?_⟩
    · simp only [Bool.false_eq_true, if_false]
      rw [if_neg fun x => hi (hr i x)]
      exact h.mem i hi
    · simp only [Bool.false_eq_true, if_false]
      rw [hm]
  · rintro t rfl
    exact ⟨h.drv, h.bad, h.size, h.mode, h.reset, h.mem⟩
  · rintro t rfl
    dsimp only
    rw [if_neg hn, if_neg hc, hsent, hbad]
    refine ⟨h.drv, by rw [Bool.or_false]; exact h.bad, h.size, h.mode, h.reset, fun i hi => ?_⟩
    simp only [if_true]
    rw [if_neg fun x => hi (hr i x)]
    exact h.mem i hi

theorem checkIdle_mem {m0 : Mem} : Tri (fun s => s.dev.mem = m0) (checkIdle env) (fun _ s => s.dev.mem = m0) (fun s => s.dev.mem = m0) := by
  refine Tri.bind isBusy_mem fun b => ?_
  cases b
  · exact Tri.ret fun s hs => hs
  · exact Tri.fail fun s hs => hs

theorem eraseRegion_tri {s0 : St} {cmd : Cmd} {size a : Nat} (hf : Fits s0.drv s0.dev cmd) (hrg : s0.drv.size < 2 ^ 32) :
    Tri (· = s0) (eraseRegion env cmd size a)
      (fun _ s => a < s0.drv.size ∧ Only (fun i => i / size = a / size) s0 s ∧ s.dev.mem = fun i => if i / size = a / size then 0xff else s0.dev.mem i)
      (fun s => Only (fun i => a < s0.drv.size ∧ i / size = a / size) s0 s) := by
  refine Tri.state fun s hs => ?_
  subst hs
  by_cases ha : a ≥ s.drv.size
  · rw [if_pos ha]
    exact Tri.fail fun t ht => ht ▸ Only.rfl'
  · rw [if_neg ha]
    have ha : a < s.drv.size := by omega
    have key : Tri (· = s) (checkIdle env >>= fun _ => writeEnable env >>= fun _ => sendErase env cmd size a >>= fun _ => waitDone env)
        (fun _ t => Only (fun i => i / size = a / size) s t ∧ t.dev.mem = fun i => if i / size = a / size then 0xff else s.dev.mem i)
        (Only (fun i => i / size = a / size) s) := by
      refine Tri.bind ((checkIdle_tri.and (checkIdle_mem (m0 := s.dev.mem))).conseq (fun t (ht : t = s) => ht ▸ ⟨Only.rfl', rfl⟩) (fun _ _ h => h) fun _ h => h.1) fun _ => ?_
      refine Tri.bind (writeEnable_tri.conseq (fun _ h => h) (fun _ _ h => h) fun _ h => h.1) fun _ => ?_
      refine Tri.bind (sendErase_tri hf hrg ha fun i hi => hi) fun _ => ?_
      exact (waitDone_tri.and waitDone_mem).conseq (fun _ h => h) (fun _ _ h => ⟨h.1.1, h.2⟩) fun _ h => h.1
    exact key.conseq (fun _ h => h) (fun _ _ h => ⟨ha, h⟩) fun _ h => h.mono fun i hi => ⟨ha, hi⟩

theorem chipErase_tri {s0 : St} : Tri (· = s0) (chipErase env) (fun _ s => Only (fun _ => True) s0 s ∧ s.dev.mem = fun _ => 0xff) (Only (fun _ => True) s0) := by
  refine Tri.bind ((checkIdle_tri.and (checkIdle_mem (m0 := s0.dev.mem))).conseq (fun t (ht : t = s0) => ht ▸ ⟨Only.rfl', rfl⟩) (fun _ _ h => h) fun _ h => h.1) fun _ => ?_
  refine Tri.bind (writeEnable_tri.conseq (fun _ h => h) (fun _ _ h => h) fun _ h => h.1) fun _ => ?_
  refine Tri.bind (Q := fun _ s => Only (fun _ => True) s0 s ∧ s.dev.mem = fun _ => 0xff) (tri_xfer ?_ ?_ ?_) fun _ =>
    (waitDone_tri.and waitDone_mem).conseq (fun _ h => h) (fun _ _ h => ⟨h.1.1, h.2⟩) fun _ h => h.1
  · rintro s ⟨⟨h, hb, hw⟩, -⟩
    have hc : ¬ (s.dev.busy ≠ 0 ∨ s.dev.wel = false) := by rw [hb, hw]; simp
    dsimp only
    rw [if_neg hc]
    refine ⟨⟨h.drv, ?_, h.size, h.mode, h.reset, fun i hi => absurd trivial hi⟩, ?_⟩
    · rw [hb, hw]; simpa using h.bad
    · simp
  · rintro s ⟨⟨h, hb, hw⟩, -⟩
    exact ⟨h.drv, h.bad, h.size, h.mode, h.reset, h.mem⟩
  · rintro s ⟨⟨h, hb, hw⟩, -⟩
    have hc : ¬ (s.dev.busy ≠ 0 ∨ s.dev.wel = false) := by rw [hb, hw]; simp
    dsimp only
    rw [if_neg hc]
    refine ⟨h.drv, ?_, h.size, h.mode, h.reset, fun i hi => absurd trivial hi⟩
    rw [hb, hw]; simpa using h.bad

/-! Reading. -/

theorem boundsCheck_tri {s0 : St} {size a len : Nat} (hw : a + len < 2 ^ env.w) :
    Tri (· = s0) (boundsCheck env size a len) (fun _ s => s = s0 ∧ a < size ∧ a + len ≤ size) (· = s0) := by
  unfold boundsCheck
  rw [Nat.mod_eq_of_lt hw]
  by_cases h1 : a ≥ size
  · rw [if_pos h1]; exact Tri.fail fun _ h => h
  · rw [if_neg h1]
    by_cases h2 : a + len > size
    · rw [if_pos h2]; exact Tri.fail fun _ h => h
    · rw [if_neg h2]; exact Tri.ret fun s h => ⟨h, by omega, by omega⟩

theorem sendRead_tri {s0 : St} {a len : Nat} (hs0 : Sync s0.drv s0.dev) (ha : a < s0.drv.size) (hl : a + len ≤ s0.drv.size) :
    Tri (fun s => Only none' s0 s ∧ s.dev.busy = 0) (sendRead env a len) (fun d s => d = bytesAt s0.dev.mem a len ∧ Only none' s0 s) (Only none' s0) := by
  refine Tri.state fun s hs => ?_
  obtain ⟨h, hb⟩ := hs
  have hsync := h.sync hs0
  have hfit := hsync.rd
  have hsent : sent (s.drv.sends4 s.drv.rd) a = a := sent_eq hfit hsync.range (by rw [h.drv]; exact ha)
  have hbad : (s.drv.sends4 s.drv.rd != s.dev.expects4 s.drv.rd || s.dev.busy != 0) = false := by rw [hfit.bytes, hb]; simp
  have hmem : s.dev.mem = s0.dev.mem := funext fun i => h.mem i nofun
  refine Tri.bind (Q := fun _ t => Only none' s0 t) (tri_xfer ?_ ?_ ?_) fun _ => Tri.ret fun t ht => ⟨?_, ht⟩
  · rintro t rfl
    rw [hbad]
    exact ⟨h.drv, by rw [Bool.or_false]; exact h.bad, h.size, h.mode, h.reset, h.mem⟩
  · rintro t rfl
    exact ⟨h.drv, h.bad, h.size, h.mode, h.reset, h.mem⟩
  · rintro t rfl
    rw [hbad]
    exact ⟨h.drv, by rw [Bool.or_false]; exact h.bad, h.size, h.mode, h.reset, h.mem⟩
  · dsimp only
    rw [if_neg (by rw [hbad]; exact Bool.false_ne_true), hsent, hmem, h.size]
    unfold bytesAt
    refine List.map_congr_left fun i hi => ?_
    have := List.mem_range.mp hi
    have := hs0.size
    rw [Nat.mod_eq_of_lt (by omega)]

theorem read_tri {s0 : St} {a len : Nat} (hs0 : Sync s0.drv s0.dev) (hw : a + len < 2 ^ env.w) :
    Tri (· = s0) (read env a len) (fun d s => a + len ≤ s0.drv.size ∧ d = bytesAt s0.dev.mem a len ∧ Only none' s0 s) (Only none' s0) := by
  refine Tri.state fun s hs => ?_
  subst hs
  refine Tri.bind ((boundsCheck_tri hw).conseq (fun _ h => h) (fun _ _ h => h) fun t (h : t = s) => h ▸ Only.rfl') fun _ => ?_
  by_cases hb : a < s.drv.size ∧ a + len ≤ s.drv.size
  · refine Tri.bind (checkIdle_tri.conseq (fun t (h : t = s ∧ _) => h.1 ▸ Only.rfl') (fun _ _ h => h) fun _ h => h) fun _ => ?_
    exact (sendRead_tri hs0 hb.1 hb.2).conseq (fun _ h => h) (fun _ _ h => ⟨hb.2, h⟩) fun _ h => h
  · intro t ht
    exact absurd ht.2 hb

/-! Writing. -/

theorem program_nil {m : Mem} {a : Nat} : program m a [] = m := by
  funext i
  simp [program]
  omega

theorem Only.of_mem {R R' : Nat → Prop} {s t : St} (h : Only R s t) (hm : ∀ i, ¬ R' i → t.dev.mem i = s.dev.mem i) : Only R' s t :=
  ⟨h.drv, h.bad, h.size, h.mode, h.reset, hm⟩

theorem bind_ok {m : M α} {f : α → M β} {s t : St} {a : α} (h : m s = (.ok a, t)) : (m >>= f) s = f a t := by
  show (match m s with | (.ok a, s) => f a s | (.error e, s) => (.error e, s)) = _
  rw [h]

theorem write_tri {s0 : St} {a : Nat} {data : Bytes} (hs0 : Sync s0.drv s0.dev) (hw : a + data.length < 2 ^ env.w) :
    Tri (· = s0) (write env a data)
      (fun n s => a + data.length ≤ s0.drv.size ∧ n ≤ data.length ∧ Only (fun i => a ≤ i ∧ i < a + data.length) s0 s ∧
        (n = data.length → s.dev.mem = program s0.dev.mem a data) ∧
        ∀ i, ¬ (a + n ≤ i ∧ i < a + data.length ∧ i / 256 = (a + n) / 256) → s.dev.mem i = program s0.dev.mem a (data.take n) i)
      (fun s => Only (fun i => a ≤ i ∧ i < a + data.length ∧ a + data.length ≤ s0.drv.size ∧ i / 256 = a / 256) s0 s) := by
  refine Tri.state fun s hs => ?_
  subst hs
  refine Tri.bind ((boundsCheck_tri hw).conseq (fun _ h => h) (fun _ _ h => h) fun t (h : t = s) => h ▸ Only.rfl') fun _ => ?_
  by_cases hb : a < s.drv.size ∧ a + data.length ≤ s.drv.size
  · refine Tri.bind (checkIdle_tri.conseq (fun t (h : t = s ∧ _) => h.1 ▸ Only.rfl') (fun _ _ h => h) fun _ h => Only.mono h (R := none') nofun) fun _ => ?_
    rintro u ⟨hu, hbusy⟩
    have hmem : u.dev.mem = s.dev.mem := funext fun i => hu.mem i nofun
    obtain ⟨left, st, t, ht, hl, ho, hn, he⟩ := writeLoop_spec (env := env) hs0 (R := fun i => a ≤ i ∧ i < a + data.length) data.length a data u (Nat.le_refl _)
      (fun _ => hb.2) (fun i h1 h2 => ⟨h1, h2⟩) (hu.mono nofun) hbusy
    rw [hmem] at hn he
    rw [bind_ok ht]
    cases st with
    | none =>
      obtain ⟨h1, h2, h3⟩ := hn rfl
      subst h1
      refine ⟨hb.2, Nat.sub_le _ _, ho, fun _ => h3, fun i hi => ?_⟩
      rw [h3, Nat.sub_zero, List.take_length]
    | some e =>
      obtain ⟨h1, h2⟩ := he e rfl
      dsimp only
      by_cases hd : data.length - left = 0
      · rw [if_pos hd]
        refine ho.of_mem fun i hi => ?_
        have := h2 i (fun x => hi (by rw [hd, Nat.add_zero] at x; exact ⟨x.1, x.2.1, hb.2, x.2.2⟩))
        rwa [hd, List.take_zero, program_nil] at this
      · rw [if_neg hd]
        refine ⟨hb.2, Nat.sub_le _ _, ho, fun hx => ?_, h2⟩
        omega
  · intro t ht
    exact absurd ht.2 hb

theorem Only.inRange {R : Nat → Prop} {s t : St} (h : Only R s t) : Only (fun _ => True) s t := h.mono fun _ _ => trivial

end Verif.SpiFlash
