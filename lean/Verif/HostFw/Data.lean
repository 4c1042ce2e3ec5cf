import Verif.HostFw.Regions
/-! Invariants for migrating and restoring data. -/
namespace Verif.HostFw
open Verif.Flash

theorem eraseOne_spec {dv : Dev} (hb : 0 < dv.block) {r : Region} (hr : r.Proper) (s : FS) :
    (∀ i, ¬ Touched dv.block r.start r.len i → (eraseOne dv r s).2.mem i = s.mem i) ∧
    (∀ s', eraseOne dv r s = (.ok (), s') → ∀ i, Touched dv.block r.start r.len i → s'.mem i = 0xff) := by
  have h := eraseVerify_spec dv dv.block hb s r.start r.len (by have := hr.2; omega)
  unfold eraseOne
  refine ⟨fun i hi => by rw [ofStatus_snd]; exact h.1 i hi, fun s' h1 i hi => ?_⟩
  have h2 := ofStatus_ok h1
  rw [h2] at h
  exact h.2 rfl i hi

theorem copyOne_spec {dv : Dev} (hd : Dev.Sized dv) {r : Region} (hr : r.Proper) (m : Mem) (s : FS) :
    (∀ i, ¬ r.has i → (copyOne dv m r s).2.mem i = s.mem i) ∧
    (∀ s', copyOne dv m r s = (.ok (), s') → ∀ i, r.has i → s'.mem i = m i) := by
  have hlt := hr.2
  have h := copy_exact dv .none (.other m) true s r.start r.start r.len hd (by omega) (by omega)
  unfold copyOne
  refine ⟨fun i hi => ?_, fun s' h1 i hi => ?_⟩
  · rw [ofStatus_snd]
    apply h.1
    simp only [EraseFn.size, touched_one]
    exact hi
  · have h2 := ofStatus_ok h1
    rw [h2] at h
    have := h.2 rfl (.inr (.inl rfl)) (i - r.start) (by have := hi.2; have := hi.1; omega)
    rwa [show r.start + (i - r.start) = i by have := hi.1; omega] at this

theorem copyRwLoop_frame {dv : Dev} (hd : Dev.Sized dv) {dst : List Region} (hp : ∀ r ∈ dst, r.Proper) (m : Mem) (fuel : Nat) :
    ∀ (last : Nat) (s : FS) (r : Except Err Unit) (s' : FS), copyRwLoop dv dst m fuel last s = some (r, s') →
    ∀ i, (∀ q ∈ dst, last ≤ q.start → ¬ q.has i) → s'.mem i = s.mem i := by
  induction fuel with
  | zero => intro last s r s' h; simp [copyRwLoop] at h
  | succ fuel ih =>
    intro last s r s' h i hi
    have hl := findGroup_spec last [dst]
    simp only [List.flatten_cons, List.flatten_nil, List.append_nil] at hl
    unfold copyRwLoop at h
    cases hf : findGroup last [dst] with
    | none =>
      rw [hf] at h
      simp only [Option.some.injEq, Prod.mk.injEq] at h
      rw [← h.2]
    | some d =>
      rw [hf] at h hl
      dsimp only at h
      have hc := copyOne_spec hd (hp d hl.1) m s
      have h1 := hc.1 i (hi d hl.1 hl.2.1)
      cases hv : copyOne dv m d s with
      | mk st s1 =>
        rw [hv] at h h1
        cases st with
        | error e =>
          simp only [andThen, Option.some.injEq, Prod.mk.injEq] at h
          rw [← h.2]; exact h1
        | ok u =>
          dsimp only [andThen] at h
          rw [ih _ _ _ _ h i (fun q hq hs => hi q hq (by
            have := (hp d hl.1).stop
            have := hl.2.1
            omega))]
          exact h1

theorem copyRwLoop_ok {dv : Dev} (hd : Dev.Sized dv) {dst : List Region} (hdis : Disjoint dst) (m : Mem) (fuel : Nat) :
    ∀ (last : Nat) (s : FS) (s' : FS), copyRwLoop dv dst m fuel last s = some (.ok (), s') →
    ∀ q ∈ dst, last ≤ q.start → ∀ i, q.has i → s'.mem i = m i := by
  induction fuel with
  | zero => intro last s s' h; simp [copyRwLoop] at h
  | succ fuel ih =>
    intro last s s' h q hq hlq i hi
    have hl := findGroup_spec last [dst]
    simp only [List.flatten_cons, List.flatten_nil, List.append_nil] at hl
    unfold copyRwLoop at h
    cases hf : findGroup last [dst] with
    | none => rw [hf] at hl; have := hl q hq; omega
    | some d =>
      rw [hf] at h hl
      dsimp only at h
      have hpd := hdis.1 d hl.1
      have hc := copyOne_spec hd hpd m s
      cases hv : copyOne dv m d s with
      | mk st s1 =>
        rw [hv] at h
        cases st with
        | error e => simp [andThen] at h
        | ok u =>
          dsimp only [andThen] at h
          by_cases hx : d.stop ≤ q.start
          · exact ih _ _ _ h q hq hx i hi
          · rw [hpd.stop] at hx
            have := hdis.after hl hq hlq (by omega)
            subst this
            rw [copyRwLoop_frame hd hdis.1 m fuel _ _ _ _ h i (fun p hp hs => by
              intro hpi
              have := hpi.1
              have := hi.2
              rw [hpd.stop] at hs
              omega)]
            exact hc.2 s1 hv i hi

theorem copyRwLoop_ends (dv : Dev) {dst : List Region} (hp : ∀ r ∈ dst, r.Proper) (m : Mem) (fuel : Nat) : ∀ (last : Nat) (s : FS),
    remaining last dst < fuel → copyRwLoop dv dst m fuel last s ≠ none := by
  induction fuel with
  | zero => intro last s h; omega
  | succ fuel ih =>
    intro last s hr
    have hl := findGroup_spec last [dst]
    simp only [List.flatten_cons, List.flatten_nil, List.append_nil] at hl
    unfold copyRwLoop
    cases hf : findGroup last [dst] with
    | none => simp
    | some d =>
      rw [hf] at hl
      dsimp only
      have := hl.progress (hp d hl.1)
      cases hv : copyOne dv m d s with
      | mk st s1 =>
        cases st with
        | error e => simp [andThen]
        | ok u => exact ih _ _ (by omega)

theorem eraseRwLoop_ends (dv : Dev) {dst : List Region} (hp : ∀ r ∈ dst, r.Proper) (src : Option (List Region)) (fuel : Nat) :
    ∀ (last : Nat) (mf : Option Err) (s : FS), remaining last dst < fuel → eraseRwLoop dv dst src fuel last mf s ≠ none := by
  induction fuel with
  | zero => intro last mf s h; omega
  | succ fuel ih =>
    intro last mf s hr
    have hl := findGroup_spec last [dst]
    simp only [List.flatten_cons, List.flatten_nil, List.append_nil] at hl
    unfold eraseRwLoop
    cases hf : findGroup last [dst] with
    | none => simp
    | some d =>
      rw [hf] at hl
      dsimp only
      have := hl.progress (hp d hl.1)
      cases hv : eraseOne dv d s with
      | mk st s1 =>
        cases st with
        | error e => simp [andThen]
        | ok u => exact ih _ _ _ (by omega)

theorem eraseRwLoop_frame {dv : Dev} (hb : 0 < dv.block) {dst : List Region} (hp : ∀ r ∈ dst, r.Proper) (src : Option (List Region))
    (fuel : Nat) : ∀ (last : Nat) (mf : Option Err) (s : FS) (r : Except Err Unit) (s' : FS),
    eraseRwLoop dv dst src fuel last mf s = some (r, s') →
    ∀ i, (∀ q ∈ dst, ¬ Touched dv.block q.start q.len i) → s'.mem i = s.mem i := by
  induction fuel with
  | zero => intro last mf s r s' h; simp [eraseRwLoop] at h
  | succ fuel ih =>
    intro last mf s r s' h i hi
    have hl := findGroup_spec last [dst]
    simp only [List.flatten_cons, List.flatten_nil, List.append_nil] at hl
    unfold eraseRwLoop at h
    cases hf : findGroup last [dst] with
    | none =>
      rw [hf] at h
      simp only [Option.some.injEq, Prod.mk.injEq] at h
      rw [← h.2]
    | some d =>
      rw [hf] at h hl
      dsimp only at h
      have h1 := (eraseOne_spec hb (hp d hl.1) s).1 i (hi d hl.1)
      cases hv : eraseOne dv d s with
      | mk st s1 =>
        rw [hv] at h h1
        cases st with
        | error e =>
          simp only [andThen, Option.some.injEq, Prod.mk.injEq] at h
          rw [← h.2]; exact h1
        | ok u =>
          dsimp only [andThen] at h
          rw [ih _ _ _ _ _ h i hi]
          exact h1

theorem eraseRwLoop_failed {dv : Dev} {dst : List Region} {src : Option (List Region)} {e : Err} (fuel : Nat) : ∀ (last : Nat) (s : FS)
    (s' : FS), eraseRwLoop dv dst src fuel last (some e) s ≠ some (.ok (), s') := by
  induction fuel with
  | zero => intro last s s' h; simp [eraseRwLoop] at h
  | succ fuel ih =>
    intro last s s' h
    unfold eraseRwLoop at h
    cases hf : findGroup last [dst] with
    | none => rw [hf] at h; simp at h
    | some d =>
      rw [hf] at h
      dsimp only at h
      cases hv : eraseOne dv d s with
      | mk st s1 =>
        rw [hv] at h
        cases st with
        | error e => simp [andThen] at h
        | ok u => exact ih _ _ _ h

/-- If the regions of the source are compared and nothing differs, both lists have the same regions. -/
theorem eraseRwLoop_match {dv : Dev} {dst rs : List Region} (hd : Disjoint dst) (hr : Disjoint rs) (hlen : rs.length = dst.length)
    (fuel : Nat) : ∀ (last : Nat) (s : FS) (s' : FS), (∀ q ∈ rs, q.start < last → q ∈ dst) → (∀ q ∈ dst, q.start < last → q ∈ rs) →
    eraseRwLoop dv dst (some rs) fuel last none s = some (.ok (), s') → ∀ q ∈ dst, q ∈ rs := by
  induction fuel with
  | zero => intro last s s' _ _ h; simp [eraseRwLoop] at h
  | succ fuel ih =>
    intro last s s' h1 h2 h
    have hl := findGroup_spec last [dst]
    simp only [List.flatten_cons, List.flatten_nil, List.append_nil] at hl
    have hl2 := findNext_spec last rs
    unfold eraseRwLoop at h
    cases hf : findGroup last [dst] with
    | none => rw [hf] at hl; exact fun q hq => h2 q hq (hl q hq)
    | some d =>
      rw [hf] at h hl
      dsimp only at h
      cases hv : eraseOne dv d s with
      | mk st s1 =>
        rw [hv] at h
        cases st with
        | error e => simp [andThen] at h
        | ok u =>
          dsimp only [andThen] at h
          cases hn : findNext last rs with
          | none =>
            rw [hn] at hl2
            have hsub : ∀ q ∈ rs, q ∈ dst := fun q hq => h1 q hq (hl2 q hq)
            exact mem_of_subset_length rs dst hr.nodup hd.nodup hlen hsub
          | some r =>
            rw [hn] at hl2
            simp only [migrateCheck, hn] at h
            split at h
            · exact absurd h (eraseRwLoop_failed _ _ _ _)
            · rename_i e1
              split at h
              · exact absurd h (eraseRwLoop_failed _ _ _ _)
              · rename_i e2
                have hdr : d = r := by
                  cases d; cases r
                  simp only [ne_eq, Decidable.not_not] at e1 e2
                  simp_all
                subst hdr
                have hpd := hd.1 d hl.1
                refine ih _ _ _ (fun q hq hx => ?_) (fun q hq hx => ?_) h
                · rw [hpd.stop] at hx
                  by_cases hy : q.start < last
                  · exact h1 q hq hy
                  · rw [hr.after hl2 hq (by omega) hx]; exact hl.1
                · rw [hpd.stop] at hx
                  by_cases hy : q.start < last
                  · exact h2 q hq hy
                  · rw [hd.after hl hq (by omega) hx]; exact hl2.1

/-! ### Restoring a flash -/

theorem eraseGap_spec {dv : Dev} (hb : 0 < dv.block) {last stop : Nat} (hl : last ≤ stop) (hs : stop < 2 ^ 32) (s : FS) :
    (∀ i, ¬ Touched dv.block last (stop - last) i → (eraseGap dv last stop s).2.mem i = s.mem i) ∧
    (∀ s', eraseGap dv last stop s = (.ok (), s') → ∀ i, Touched dv.block last (stop - last) i → s'.mem i = 0xff) := by
  have h := eraseRegion_spec dv dv.block hb s last (stop - last) (by omega)
  unfold eraseGap
  rw [u32_sub hl hs]
  refine ⟨fun i hi => by rw [ofStatus_snd]; exact h.1 i hi, fun s' h1 i hi => ?_⟩
  have h2 := ofStatus_ok h1
  rw [h2] at h
  exact h.2 rfl i hi

theorem eraseRoLoop_spec {dv : Dev} (hb : 0 < dv.block) {rw : List Region} (hdis : Disjoint rw) {size : Nat} (hs : size < 2 ^ 32)
    (hin : ∀ r ∈ rw, r.start + r.len ≤ size) (fuel : Nat) : ∀ (last : Nat) (s : FS) (r : Except Err Unit) (s' : FS),
    last ≤ size → (∀ q ∈ rw, q.start < last → q.start + q.len ≤ last) → eraseRoLoop dv rw size fuel last s = some (r, s') →
    (∀ i, ¬ RoBlock dv.block rw size i → s'.mem i = s.mem i) ∧
    (r = .ok () → (∀ i, s'.mem i = 0xff ∨ s'.mem i = s.mem i) ∧ ∀ a, last ≤ a → a < size → ¬ Covered rw a → s'.mem a = 0xff) := by
  induction fuel with
  | zero => intro last s r s' _ _ h; simp [eraseRoLoop] at h
  | succ fuel ih =>
    intro last s r s' hls hpast h
    have hl := findGroup_spec last [rw]
    simp only [List.flatten_cons, List.flatten_nil, List.append_nil] at hl
    unfold eraseRoLoop at h
    cases hf : findGroup last [rw] with
    | none =>
      rw [hf] at h hl
      simp only [Option.some.injEq] at h
      have hg := eraseGap_spec hb hls hs s
      have hro : ∀ j, last ≤ j → j < size → ¬ Covered rw j := by
        rintro j h1 h2 ⟨q, hq, hqj⟩
        have h3 := hpast q hq (hl q hq)
        have := hqj.2
        omega
      rw [h] at hg
      refine ⟨fun i hi => hg.1 i (fun ⟨j, h1, h2, h3⟩ => hi ⟨j, by omega, hro j h1 (by omega), h3⟩), fun hr => ?_⟩
      subst hr
      refine ⟨fun i => ?_, fun a h1 h2 _ => hg.2 s' rfl a (Touched.of_mem h1 (by omega))⟩
      by_cases ht : Touched dv.block last (size - last) i
      · exact .inl (hg.2 s' rfl i ht)
      · exact .inr (hg.1 i ht)
    | some d =>
      rw [hf] at h hl
      dsimp only at h
      have hpd := hdis.1 d hl.1
      have hd := hin d hl.1
      have hld := hl.2.1
      have hg := eraseGap_spec hb hld (by omega) s
      have hro : ∀ j, last ≤ j → j < d.start → ¬ Covered rw j := by
        rintro j h1 h2 ⟨q, hq, hqj⟩
        have := hqj.2
        have := hqj.1
        by_cases h3 : q.start < last
        · have h3 := hpast q hq h3
          omega
        · have := hl.2.2 q hq (by omega)
          omega
      have hfr : ∀ i, ¬ RoBlock dv.block rw size i → ¬ Touched dv.block last (d.start - last) i :=
        fun i hi ⟨j, h1, h2, h3⟩ => hi ⟨j, by omega, hro j h1 (by omega), h3⟩
      cases hv : eraseGap dv last d.start s with
      | mk st s1 =>
        rw [hv] at h hg
        cases st with
        | error e =>
          simp only [andThen, Option.some.injEq, Prod.mk.injEq] at h
          rw [← h.2, ← h.1]
          exact ⟨fun i hi => hg.1 i (hfr i hi), fun h => by simp at h⟩
        | ok u =>
          dsimp only [andThen] at h
          obtain ⟨i1, i2⟩ := ih d.stop s1 r s' (by rw [hpd.stop]; omega) (by
            intro q hq hx
            rw [hpd.stop] at hx ⊢
            by_cases hy : q.start < last
            · have := hpast q hq hy; omega
            · rw [hdis.after hl hq (by omega) hx]; exact Nat.le_refl _) h
          have hg1 := hg.1
          have hg2 := hg.2 s1 rfl
          dsimp only at hg1
          refine ⟨fun i hi => (i1 i hi).trans (hg1 i (hfr i hi)), fun hr => ?_⟩
          obtain ⟨i3, i4⟩ := i2 hr
          refine ⟨fun i => ?_, fun a h1 h2 h3 => ?_⟩
          · rcases i3 i with h4 | h4
            · exact .inl h4
            · by_cases ht : Touched dv.block last (d.start - last) i
              · left; rw [h4]; exact hg2 i ht
              · right; rw [h4]; exact hg1 i ht
          · by_cases h4 : d.stop ≤ a
            · exact i4 a h4 h2 h3
            · rw [hpd.stop] at h4
              have h5 : a < d.start := by
                apply Classical.byContradiction
                intro hc
                exact h3 ⟨d, hl.1, by omega, by omega⟩
              have h6 := hg2 a (Touched.of_mem h1 (by omega))
              rcases i3 a with h7 | h7
              · exact h7
              · rw [h7]; exact h6

theorem eraseRoLoop_ends (dv : Dev) {rw : List Region} (hp : ∀ r ∈ rw, r.Proper) (size : Nat) (fuel : Nat) :
    ∀ (last : Nat) (s : FS), remaining last rw < fuel → eraseRoLoop dv rw size fuel last s ≠ none := by
  induction fuel with
  | zero => intro last s h; omega
  | succ fuel ih =>
    intro last s hr
    have hl := findGroup_spec last [rw]
    simp only [List.flatten_cons, List.flatten_nil, List.append_nil] at hl
    unfold eraseRoLoop
    cases hf : findGroup last [rw] with
    | none => simp
    | some d =>
      rw [hf] at hl
      dsimp only
      have := hl.progress (hp d hl.1)
      cases hv : eraseGap dv last d.start s with
      | mk st s1 =>
        cases st with
        | error e => simp [andThen]
        | ok u => exact ih _ _ (by omega)

theorem copyBlank_spec {dv : Dev} (hd : Dev.Sized dv) {r : Region} (hr : r.start + r.len ≤ 2 ^ 32) (m : Mem) (s : FS) :
    (∀ i, ¬ r.has i → (copyBlank dv m r s).2.mem i = s.mem i) ∧
    (∀ s', copyBlank dv m r s = (.ok (), s') → ∀ i, r.has i → s'.mem i = s.mem i &&& m i) := by
  have h := copy_exact dv .none (.other m) false s r.start r.start r.len hd hr hr
  unfold copyBlank
  refine ⟨fun i hi => ?_, fun s' h1 i hi => ?_⟩
  · rw [ofStatus_snd]
    apply h.1
    simp only [EraseFn.size, touched_one]
    exact hi
  · have h2 := ofStatus_ok h1
    have hi1 := hi.1
    have hi2 := hi.2
    unfold copyRegion at h2
    rw [if_neg (by omega)] at h2
    simp only [checkSame, eraseFor, if_true] at h2
    have h3 := (copyPages_spec dv (.other m) false hd.2.2 s r.start r.start r.len hr hr (by simp)).2
    rw [h2] at h3
    have := (h3 rfl (i - r.start) (by omega)).1
    rw [show r.start + (i - r.start) = i by omega] at this
    exact this

theorem and_self_u8 (b : UInt8) : b &&& b = b := by simp

theorem copyAll_spec {dv : Dev} (hd : Dev.Sized dv) (m : Mem) (rs : List Region) : ∀ (s : FS), (∀ r ∈ rs, r.start + r.len ≤ 2 ^ 32) →
    (∀ i, ¬ Covered rs i → (eachUntil (copyBlank dv m) rs s).2.mem i = s.mem i) ∧
    (∀ s', eachUntil (copyBlank dv m) rs s = (.ok (), s') → ∀ i, (s.mem i = 0xff ∨ s.mem i = m i) →
      (s'.mem i = s.mem i ∨ s'.mem i = m i) ∧ (Covered rs i → s'.mem i = m i)) := by
  induction rs with
  | nil =>
    intro s _
    refine ⟨fun i _ => rfl, fun s' h i hi => ?_⟩
    simp only [eachUntil, Prod.mk.injEq, true_and] at h
    rw [← h]
    exact ⟨.inl rfl, fun ⟨r, hr, _⟩ => by simp at hr⟩
  | cons r rs ih =>
    intro s hfit
    have hc := copyBlank_spec hd (hfit r (by simp)) m s
    unfold eachUntil
    cases hv : copyBlank dv m r s with
    | mk st s1 =>
      rw [hv] at hc
      cases st with
      | error e =>
        exact ⟨fun i hi => hc.1 i (fun h => hi ⟨r, by simp, h⟩), fun s' h => by simp at h⟩
      | ok u =>
        obtain ⟨i1, i2⟩ := ih s1 (fun q hq => hfit q (by simp [hq]))
        refine ⟨fun i hi => (i1 i (fun ⟨q, hq, hqi⟩ => hi ⟨q, by simp [hq], hqi⟩)).trans (hc.1 i (fun h => hi ⟨r, by simp, h⟩)), ?_⟩
        intro s' h i hi
        dsimp only at h
        by_cases hri : r.has i
        · have h1 : s1.mem i = m i := by
            rw [hc.2 s1 rfl i hri]
            rcases hi with hi | hi
            · rw [hi, ff_and]
            · rw [hi, and_self_u8]
          obtain ⟨h2, h3⟩ := i2 s' h i (.inr h1)
          rw [h1] at h2
          have h4 : s'.mem i = m i := by rcases h2 with h2 | h2 <;> exact h2
          exact ⟨.inr h4, fun _ => h4⟩
        · have h1 : s1.mem i = s.mem i := hc.1 i hri
          rw [← h1] at hi
          obtain ⟨h2, h3⟩ := i2 s' h i hi
          rw [h1] at h2
          refine ⟨h2, fun ⟨q, hq, hqi⟩ => h3 ?_⟩
          rcases List.mem_cons.1 hq with rfl | hq
          · exact absurd hqi hri
          · exact ⟨q, hq, hqi⟩

/-! ### Read/write data -/

theorem touched_aligned {block : Nat} (hb : 0 < block) {r : Region} (h : r.Aligned block) (i : Nat) :
    Touched block r.start r.len i ↔ r.has i := by
  obtain ⟨h1, h2⟩ := h
  constructor
  · rintro ⟨j, h3, h4, h5⟩
    have e1 := Nat.div_add_mod r.start block
    have e2 := Nat.div_add_mod r.len block
    have e3 := Nat.div_add_mod i block
    have e4 := Nat.div_add_mod j block
    have m3 := Nat.mod_lt i hb
    have m4 := Nat.mod_lt j hb
    rw [h1] at e1
    rw [h2] at e2
    rw [h5] at e3
    have d1 : r.start / block ≤ j / block := Nat.div_le_div_right h3
    have d2 : j / block < r.start / block + r.len / block := by
      rw [Nat.div_lt_iff_lt_mul hb, Nat.add_mul, Nat.mul_comm, Nat.mul_comm (r.len / block)]
      omega
    have x1 := Nat.mul_le_mul_left block d1
    have x2 := Nat.mul_le_mul_left block (show j / block + 1 ≤ r.start / block + r.len / block from d2)
    rw [Nat.mul_add, Nat.mul_add, Nat.mul_one] at x2
    exact ⟨by omega, by omega⟩
  · exact fun h => Touched.of_mem h.1 h.2

theorem restoreRwOne_spec {dv : Dev} (hd : Dev.Sized dv) (m : Option Mem) {r : Region × OnFailure} (hp : r.1.Proper)
    (ha : r.1.Aligned dv.block) (s : FS) :
    (∀ i, ¬ r.1.has i → (restoreRwOne dv m r s).2.mem i = s.mem i) ∧
    (∀ s', restoreRwOne dv m r s = (.ok (), s') → ∀ i, r.1.has i → s'.mem i =
      match r.2, m with
      | .erase, _ => 0xff
      | .restore, some m => m i
      | _, _ => s.mem i) := by
  obtain ⟨r, p⟩ := r
  dsimp only at hp ha ⊢
  have he := eraseOne_spec hd.1 hp s
  have hlt := hp.2
  have ht := touched_aligned hd.1 ha
  cases p with
  | nothing => exact ⟨fun i _ => rfl, fun s' h i _ => by simp [restoreRwOne] at h; rw [h]⟩
  | erase =>
    refine ⟨fun i hi => he.1 i (by rw [ht]; exact hi), fun s' h i hi => he.2 s' h i ((ht i).2 hi)⟩
  | restore =>
    cases m with
    | none => exact ⟨fun i _ => rfl, fun s' h i _ => by simp [restoreRwOne] at h; rw [h]⟩
    | some m =>
      have hc := copy_exact dv .block (.other m) true s r.start r.start r.len hd (by omega) (by omega)
      unfold restoreRwOne
      dsimp only
      refine ⟨fun i hi => ?_, fun s' h i hi => ?_⟩
      · rw [ofStatus_snd]
        exact hc.1 i (by simp only [EraseFn.size]; rw [ht]; exact hi)
      · have h2 := ofStatus_ok h
        rw [h2] at hc
        have := hc.2 rfl (.inl (by simp)) (i - r.start) (by have := hi.2; have := hi.1; omega)
        rwa [show r.start + (i - r.start) = i by have := hi.1; omega] at this

end Verif.HostFw
