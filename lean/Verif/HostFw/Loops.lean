import Verif.HostFw.Lemmas
/-! Invariants of the loops of host_fw_util.c. -/
namespace Verif.HostFw
open Verif.Flash

/-! ### Progress -/

/-- How many of the regions are still to be seen. -/
def remaining (last : Nat) (rs : List Region) : Nat := (rs.filter (fun r => decide (last ≤ r.start))).length

theorem remaining_le (rs : List Region) (last : Nat) : remaining last rs ≤ rs.length := List.length_filter_le _ _

theorem remaining_mono (rs : List Region) {a b : Nat} (h : a ≤ b) : remaining b rs ≤ remaining a rs := by
  unfold remaining
  induction rs with
  | nil => simp
  | cons r rs ih =>
    simp only [List.filter_cons]
    by_cases h1 : b ≤ r.start
    · rw [if_pos (by simpa using h1), if_pos (by simp; omega)]; simp; exact ih
    · rw [if_neg (by simpa using h1)]
      split
      · simp; omega
      · exact ih

theorem remaining_lt (rs : List Region) {a b : Nat} (h : a ≤ b) {r : Region} (hr : r ∈ rs) (h1 : a ≤ r.start) (h2 : r.start < b) :
    remaining b rs < remaining a rs := by
  induction rs with
  | nil => simp at hr
  | cons q qs ih =>
    rcases List.mem_cons.1 hr with rfl | hr
    · have := remaining_mono qs h
      unfold remaining at this ⊢
      simp only [List.filter_cons]
      rw [if_neg (by simp; omega), if_pos (by simpa using h1)]
      simp only [List.length_cons]; omega
    · have := ih hr
      unfold remaining at this ⊢
      simp only [List.filter_cons]
      by_cases h3 : b ≤ q.start
      · rw [if_pos (by simpa using h3), if_pos (by simp; omega)]; simp only [List.length_cons]; omega
      · rw [if_neg (by simpa using h3)]
        split
        · simp only [List.length_cons]; omega
        · exact this

theorem Region.Proper.stop {r : Region} (h : r.Proper) : r.stop = r.start + r.len := u32_id h.2

/-- After a proper region fewer regions are left. -/
theorem Least.progress {last : Nat} {rs : List Region} {r : Region} (h : Least last rs (some r)) (hp : r.Proper) :
    remaining r.stop rs < remaining last rs := by
  rw [hp.stop]
  have := hp.1
  exact remaining_lt rs (by have := h.2.1; omega) h.1 h.2.1 (by omega)

/-! ### Unused bytes -/

theorem checkLoop_mem (dv : Dev) : ∀ (k len : Nat), len ≤ k → ∀ (s : FS) (a : Nat) (exp : Nat → UInt8),
    (checkLoop dv s a exp len).2.mem = s.mem := by
  intro k
  induction k with
  | zero => intro len hk s a exp; rw [checkLoop, dif_pos (by omega)]
  | succ k ih =>
    intro len hk s a exp
    rw [checkLoop]
    split
    · rfl
    · rename_i hl
      dsimp only
      have hm := read_mem dv s a (chunk len verifyBlock)
      cases hr : read dv s a (chunk len verifyBlock) with
      | mk o s1 =>
        rw [hr] at hm
        cases o with
        | none => exact hm
        | some d =>
          dsimp only
          split
          · rw [ih _ (by rw [chunk_eq, verifyBlock]; omega)]; exact hm
          · exact hm

theorem valueCheck_mem (dv : Dev) (s : FS) (a len : Nat) (v : UInt8) : (valueCheck dv s a len v).2.mem = s.mem := by
  have := checkLoop_mem dv len len (Nat.le_refl _) s a (fun _ => v)
  unfold valueCheck
  cases hc : checkLoop dv s a (fun _ => v) len with
  | mk st s1 => rw [hc] at this; cases st <;> exact this

theorem u32_sub {a b : Nat} (h : b ≤ a) (ha : a < 2 ^ 32) : sub32 a b = a - b := by
  unfold sub32 u32
  rw [show a + 2 ^ 32 - b = (a - b) + 2 ^ 32 by omega, Nat.add_mod_right]
  exact Nat.mod_eq_of_lt (by omega)

theorem checkGap_mem (dv : Dev) (last stop : Nat) (v : UInt8) (s : FS) : (checkGap dv last stop v s).2.mem = s.mem := by
  unfold checkGap
  rw [ofStatus_snd, valueCheck_mem]

theorem checkGap_ok {dv : Dev} {last stop : Nat} {v : UInt8} {s s' : FS} (h : checkGap dv last stop v s = (.ok (), s')) (hs : stop < 2 ^ 32) :
    ∀ a, last ≤ a → a < stop → s.mem a = v := by
  unfold checkGap at h
  have hv := ofStatus_ok h
  intro a h1 h2
  rw [u32_sub (by omega) hs] at hv
  exact (valueCheck_spec dv s last (stop - last) v (by omega)).2 (by rw [hv]) a h1 (by omega)

theorem unusedLoop_mem (dv : Dev) (imgs rws : List (List Region)) (size : Nat) (v : UInt8) (fuel : Nat) : ∀ (last : Nat) (s : FS)
    (r : Except Err Unit) (s' : FS), unusedLoop dv imgs rws size v fuel last s = some (r, s') → s'.mem = s.mem := by
  induction fuel with
  | zero => intro last s r s' h; simp [unusedLoop] at h
  | succ fuel ih =>
    intro last s r s' h
    unfold unusedLoop at h
    cases hf : findFlash last imgs rws with
    | none =>
      rw [hf] at h
      simp only [Option.some.injEq] at h
      have := checkGap_mem dv last size v s
      rw [h] at this
      exact this
    | some q =>
      rw [hf] at h
      dsimp only at h
      have hm := checkGap_mem dv last q.start v s
      cases hv : checkGap dv last q.start v s with
      | mk st s1 =>
        rw [hv] at h hm
        cases st with
        | error e =>
          simp only [andThen] at h
          simp only [Option.some.injEq, Prod.mk.injEq] at h
          rw [← h.2]; exact hm
        | ok u => rw [ih _ _ _ _ h]; exact hm

theorem unusedLoop_ok (dv : Dev) (imgs rws : List (List Region)) (size : Nat) (v : UInt8) (hs : size < 2 ^ 32)
    (hfit : ∀ r ∈ imgs.flatten ++ rws.flatten, r.Fits) (fuel : Nat) : ∀ (last : Nat) (s s' : FS),
    (∀ a, a < last → Covered (imgs.flatten ++ rws.flatten) a ∨ s.mem a = v) →
    unusedLoop dv imgs rws size v fuel last s = some (.ok (), s') →
    ∀ a, a < size → Covered (imgs.flatten ++ rws.flatten) a ∨ s.mem a = v := by
  induction fuel with
  | zero => intro last s s' _ h; simp [unusedLoop] at h
  | succ fuel ih =>
    intro last s s' hinv h
    have hl := findFlash_spec last imgs rws
    unfold unusedLoop at h
    cases hf : findFlash last imgs rws with
    | none =>
      rw [hf] at h
      simp only [Option.some.injEq] at h
      intro a ha
      by_cases hal : a < last
      · exact hinv a hal
      · exact .inr (checkGap_ok h hs a (by omega) ha)
    | some q =>
      rw [hf] at h hl
      dsimp only at h
      obtain ⟨hq1, hq2⟩ := hfit q hl.1
      have hm := checkGap_mem dv last q.start v s
      cases hv : checkGap dv last q.start v s with
      | mk st s1 =>
        rw [hv] at h hm
        cases st with
        | error e => simp [andThen] at h
        | ok u =>
          dsimp only [andThen] at h hm
          have hok := checkGap_ok hv hq1
          have := ih q.stop s1 s' (by
            intro a ha
            rw [hm]
            by_cases h1 : a < last
            · exact hinv a h1
            · by_cases h2 : a < q.start
              · exact .inr (hok a (by omega) h2)
              · refine .inl ⟨q, hl.1, by omega, ?_⟩
                have : q.stop ≤ q.start + q.len := by unfold Region.stop u32; exact Nat.mod_le _ _
                omega) h
          rwa [hm] at this

theorem unusedLoop_ends (dv : Dev) (imgs rws : List (List Region)) (size : Nat) (v : UInt8)
    (hp : ∀ r ∈ imgs.flatten ++ rws.flatten, r.Proper) (fuel : Nat) : ∀ (last : Nat) (s : FS),
    remaining last (imgs.flatten ++ rws.flatten) < fuel → unusedLoop dv imgs rws size v fuel last s ≠ none := by
  induction fuel with
  | zero => intro last s h; omega
  | succ fuel ih =>
    intro last s hr
    have hl := findFlash_spec last imgs rws
    unfold unusedLoop
    cases hf : findFlash last imgs rws with
    | none => simp
    | some q =>
      rw [hf] at hl
      dsimp only
      have := hl.progress (hp q hl.1)
      cases hv : checkGap dv last q.start v s with
      | mk st s1 =>
        cases st with
        | error e => simp [andThen]
        | ok u => exact ih _ _ (by omega)

/-! ### Nothing fails -/

theorem read_sound {dv : Dev} (hd : Dev.Sound dv) (s : FS) (a n : Nat) : Flash.read dv s a n = (some (bytesAt s.mem a n), ⟨s.mem, s.calls + 1⟩) := by
  unfold Flash.read
  rw [hd]

theorem checkLoop_no_error {dv : Dev} (hd : Dev.Sound dv) : ∀ (k len : Nat), len ≤ k → ∀ (s : FS) (a : Nat) (exp : Nat → UInt8),
    (checkLoop dv s a exp len).1 ≠ .flash := by
  intro k
  induction k with
  | zero => intro len hk s a exp; rw [checkLoop, dif_pos (by omega)]; simp
  | succ k ih =>
    intro len hk s a exp
    rw [checkLoop]
    split
    · simp
    · rename_i hl
      dsimp only
      rw [read_sound hd]
      dsimp only
      split
      · exact ih _ (by rw [chunk_eq, verifyBlock]; omega) _ _ _
      · simp

theorem valueCheck_accepts {dv : Dev} (hd : Dev.Sound dv) (s : FS) (a len : Nat) (v : UInt8) (hf : a + len ≤ 2 ^ 32)
    (h : ∀ i, a ≤ i → i < a + len → s.mem i = v) : (valueCheck dv s a len v).1 = .ok := by
  obtain ⟨_, _, h3, h4⟩ := checkLoop_spec dv len len (Nat.le_refl _) s a (fun _ => v) hf
  have hn := checkLoop_no_error hd len len (Nat.le_refl _) s a (fun _ => v)
  unfold valueCheck
  cases hc : checkLoop dv s a (fun _ => v) len with
  | mk st s1 =>
    rw [hc] at h3 h4 hn
    rcases h4 with h4 | h4 | h4
    · dsimp only at h4; subst h4; rfl
    · obtain ⟨i, hi, hne⟩ := h3 h4
      exact absurd (h (a + i) (by omega) (by omega)) hne
    · exact absurd h4 hn

theorem checkGap_accepts {dv : Dev} (hd : Dev.Sound dv) (last stop : Nat) (v : UInt8) (s : FS) (hs : stop < 2 ^ 32) (hl : last ≤ stop)
    (h : ∀ a, last ≤ a → a < stop → s.mem a = v) : ∃ s', checkGap dv last stop v s = (.ok (), s') ∧ s'.mem = s.mem := by
  have hm := checkGap_mem dv last stop v s
  unfold checkGap at hm ⊢
  rw [u32_sub hl hs] at hm ⊢
  have hv := valueCheck_accepts hd s last (stop - last) v (by omega) (fun i h1 h2 => h i h1 (by omega))
  cases hc : valueCheck dv s last (stop - last) v with
  | mk st s1 =>
    rw [hc] at hv hm
    dsimp only at hv
    subst hv
    exact ⟨s1, rfl, hm⟩

theorem Disjoint.apart {rs : List Region} (h : Disjoint rs) {r q : Region} (hr : r ∈ rs) (hq : q ∈ rs) (hne : r ≠ q) : r.Apart q := by
  have h2 := h.2
  clear h
  induction rs with
  | nil => simp at hr
  | cons x xs ih =>
    rw [List.pairwise_cons] at h2
    rcases List.mem_cons.1 hr with rfl | hr'
    · rcases List.mem_cons.1 hq with rfl | hq'
      · exact absurd rfl hne
      · exact h2.1 q hq'
    · rcases List.mem_cons.1 hq with rfl | hq'
      · exact (h2.1 r hr').symm
      · exact ih hr' hq' h2.2

theorem Disjoint.unique {rs : List Region} (h : Disjoint rs) : ∀ r ∈ rs, ∀ q ∈ rs, r.start = q.start → r = q := by
  intro r hr q hq he
  apply Classical.byContradiction
  intro hne
  have h1 := (h.1 r hr).1
  have h2 := (h.1 q hq).1
  rcases h.apart hr hq hne with h3 | h3 <;> omega

/-- A region that starts before the end of the one just found is that one or starts before it. -/
theorem Disjoint.after {rs : List Region} (h : Disjoint rs) {last : Nat} {r q : Region} (hl : Least last rs (some r)) (hq : q ∈ rs)
    (h1 : last ≤ q.start) (h2 : q.start < r.start + r.len) : q = r := by
  apply Classical.byContradiction
  intro hne
  have h3 := hl.2.2 q hq h1
  have h4 := (h.1 q hq).1
  rcases h.apart hq hl.1 hne with h5 | h5 <;> omega

theorem unusedLoop_accepts {dv : Dev} (hd : Dev.Sound dv) (imgs rws : List (List Region)) (size : Nat) (v : UInt8) (hs : size < 2 ^ 32)
    (hdis : Disjoint (imgs.flatten ++ rws.flatten)) (hin : ∀ r ∈ imgs.flatten ++ rws.flatten, r.start + r.len ≤ size) (m : Mem)
    (hm : ∀ a, a < size → Covered (imgs.flatten ++ rws.flatten) a ∨ m a = v) (fuel : Nat) : ∀ (last : Nat) (s : FS), s.mem = m →
    remaining last (imgs.flatten ++ rws.flatten) < fuel → last ≤ size →
    (∀ r ∈ imgs.flatten ++ rws.flatten, r.start < last → r.start + r.len ≤ last) →
    ∃ s', unusedLoop dv imgs rws size v fuel last s = some (.ok (), s') := by
  induction fuel with
  | zero => intro last s _ h; omega
  | succ fuel ih =>
    intro last s hsm hr hls hpast
    have hl := findFlash_spec last imgs rws
    unfold unusedLoop
    cases hf : findFlash last imgs rws with
    | none =>
      rw [hf] at hl
      dsimp only
      obtain ⟨s1, h1, -⟩ := checkGap_accepts hd last size v s hs hls (by
        intro i h1 h2
        rw [hsm]
        rcases hm i h2 with ⟨r, hr, hr2⟩ | h
        · have h3 := hl r hr
          have h4 := hpast r hr h3
          have := hr2.2
          omega
        · exact h)
      exact ⟨s1, by rw [h1]⟩
    | some q =>
      rw [hf] at hl
      dsimp only
      have hq := hin q hl.1
      have hle := hl.2.1
      have hpr := hdis.1 q hl.1
      obtain ⟨s1, h1, hme⟩ := checkGap_accepts hd last q.start v s (by omega) hle (by
        intro i h1 h2
        rw [hsm]
        rcases hm i (by omega) with ⟨r, hr, hr2⟩ | h
        · by_cases h3 : r.start < last
          · have h4 := hpast r hr h3
            have := hr2.2
            omega
          · have := hl.2.2 r hr (by omega)
            have := hr2.1
            omega
        · exact h)
      rw [h1]
      dsimp only [andThen]
      have := hl.progress hpr
      refine ih q.stop s1 (hme.trans hsm) (by omega) (by rw [hpr.stop]; exact hq) (fun r hr h1 => ?_)
      rw [hpr.stop] at h1 ⊢
      by_cases h2 : r.start < last
      · have := hpast r hr h2; omega
      · have := hdis.after hl hr (by omega) h1
        rw [this]; exact Nat.le_refl _

/-! ### Version -/

theorem On_iff (m : Mem) (off : Nat) (v : Version) : v.On m off ↔ v.id = bytesAt m (v.addr + off) v.id.length := by
  constructor
  · intro h; exact (bytesAt_eq_self (fun i hi => h i hi)).symm
  · intro h i hi
    conv => rhs; rw [h]
    rw [bytesAt_getD _ _ _ _ _ hi]

theorem bytesAt_take (m : Mem) (a n k : Nat) (h : k ≤ n) : (bytesAt m a n).take k = bytesAt m a k := by
  have : n = k + (n - k) := by omega
  rw [this, bytesAt_add, List.take_left' (by simp [bytesAt])]

theorem bytesAt_length (m : Mem) (a n : Nat) : (bytesAt m a n).length = n := by simp [bytesAt]

theorem matchFresh_spec (dv : Dev) (off : Nat) (v : Version) (s : FS) (hv : v.addr + off < 2 ^ 32) :
    (matchFresh dv off v s).2.mem = s.mem ∧ ∀ b buf, (matchFresh dv off v s).1 = some (b, buf) →
      (b = true ↔ v.On s.mem off) ∧ buf = bytesAt s.mem (v.addr + off) buf.length := by
  unfold matchFresh
  have hm := read_mem dv s (u32 (v.addr + off)) v.id.length
  cases hr : read dv s (u32 (v.addr + off)) v.id.length with
  | mk o s1 =>
    rw [hr] at hm
    cases o with
    | none => exact ⟨hm, fun b buf h => by simp at h⟩
    | some d =>
      obtain ⟨h1, -⟩ := read_some hr
      rw [u32_id hv] at h1
      refine ⟨hm, fun b buf h => ?_⟩
      simp only [Option.some.injEq, Prod.mk.injEq] at h
      obtain ⟨rfl, rfl⟩ := h
      refine ⟨?_, by rw [h1, bytesAt_length]⟩
      rw [On_iff, ← h1]
      simp

theorem matchCached_spec (dv : Dev) (off : Nat) (v : Version) (buf : Bytes) (s : FS) (hv : v.addr + off + v.id.length ≤ 2 ^ 32)
    (hb : buf = bytesAt s.mem (v.addr + off) buf.length) :
    (matchCached dv off v buf s).2.mem = s.mem ∧ ∀ b buf', (matchCached dv off v buf s).1 = some (b, buf') →
      (b = true ↔ v.On s.mem off) ∧ buf' = bytesAt s.mem (v.addr + off) buf'.length := by
  unfold matchCached
  split
  · rename_i h1
    refine ⟨rfl, fun b buf' h => ?_⟩
    simp only [Option.some.injEq, Prod.mk.injEq] at h
    obtain ⟨rfl, rfl⟩ := h
    refine ⟨?_, hb⟩
    rw [On_iff]
    have : buf.take v.id.length = bytesAt s.mem (v.addr + off) v.id.length := by
      rw [hb, bytesAt_take _ _ _ _ (by omega)]
    rw [this]
    simp
  · rename_i h1
    split
    · rename_i h2
      simp only [beq_iff_eq] at h2
      split
      · rename_i h3
        refine ⟨rfl, fun b buf' h => ?_⟩
        simp only [Option.some.injEq, Prod.mk.injEq] at h
        obtain ⟨rfl, rfl⟩ := h
        refine ⟨?_, hb⟩
        rw [On_iff]
        have : v.id = buf := by
          rw [← h2, List.take_of_length_le (by omega)]
        rw [this]
        simp only [true_iff]
        exact hb
      · rename_i h3
        have hm := read_mem dv s (u32 (v.addr + off + buf.length)) (v.id.length - buf.length)
        cases hr : read dv s (u32 (v.addr + off + buf.length)) (v.id.length - buf.length) with
        | mk o s1 =>
          rw [hr] at hm
          cases o with
          | none => exact ⟨hm, fun b buf h => by simp at h⟩
          | some d =>
            obtain ⟨h4, -⟩ := read_some hr
            rw [u32_id (by omega)] at h4
            refine ⟨hm, fun b buf' h => ?_⟩
            simp only [Option.some.injEq, Prod.mk.injEq] at h
            obtain ⟨rfl, rfl⟩ := h
            have hall : buf ++ d = bytesAt s.mem (v.addr + off) v.id.length := by
              rw [show v.id.length = buf.length + (v.id.length - buf.length) by omega, bytesAt_add, ← hb, ← h4]
            refine ⟨?_, ?_⟩
            · rw [On_iff, ← hall]
              simp only [beq_iff_eq]
              constructor
              · intro h; conv => lhs; rw [← List.take_append_drop buf.length v.id, h2, h]
              · intro h; rw [h, List.drop_left]
            · have : (buf ++ d).length = v.id.length := by rw [hall, bytesAt_length]
              rw [this, hall]
    · rename_i h2
      refine ⟨rfl, fun b buf' h => ?_⟩
      simp only [Option.some.injEq, Prod.mk.injEq] at h
      obtain ⟨rfl, rfl⟩ := h
      refine ⟨?_, hb⟩
      simp only [Bool.false_eq_true, false_iff]
      intro hon
      rw [On_iff] at hon
      apply h2
      simp only [beq_iff_eq]
      rw [hon, bytesAt_take _ _ _ _ (by omega), ← hb]

theorem versionLoop_spec (dv : Dev) (off : Nat) (vs : List Version) : ∀ (prev : Option (Version × Bytes)) (s : FS),
    (∀ v ∈ vs, v.addr + off + v.id.length ≤ 2 ^ 32 ∧ v.addr + off < 2 ^ 32) →
    (∀ p buf, prev = some (p, buf) → buf = bytesAt s.mem (p.addr + off) buf.length) →
    (versionLoop dv off prev vs s).2.mem = s.mem ∧
    (∀ v, (versionLoop dv off prev vs s).1 = .ok v → ∃ pre post, vs = pre ++ v :: post ∧ v.On s.mem off ∧ ∀ w ∈ pre, ¬ w.On s.mem off) ∧
    ((versionLoop dv off prev vs s).1 = .error .unsupported → ∀ v ∈ vs, ¬ v.On s.mem off) := by
  induction vs with
  | nil => intro prev s _ _; exact ⟨rfl, fun v h => by simp [versionLoop] at h, fun _ v hv => by simp at hv⟩
  | cons v vs ih =>
    intro prev s hfit hprev
    obtain ⟨hf1, hf2⟩ := hfit v (by simp)
    have key : ∀ x : Option (Bool × Bytes) × FS, (x = matchFresh dv off v s ∨ ∃ p buf, prev = some (p, buf) ∧ v.addr = p.addr ∧
        x = matchCached dv off v buf s) → x.2.mem = s.mem ∧ ∀ b buf, x.1 = some (b, buf) →
      (b = true ↔ v.On s.mem off) ∧ buf = bytesAt s.mem (v.addr + off) buf.length := by
      intro x hx
      rcases hx with rfl | ⟨p, buf, hp, ha, rfl⟩
      · exact matchFresh_spec dv off v s hf2
      · exact matchCached_spec dv off v buf s hf1 (by rw [ha]; exact hprev p buf hp)
    unfold versionLoop
    have hx := key (matchOne dv off prev v s) (by
        unfold matchOne
        cases prev with
        | none => exact .inl rfl
        | some pb =>
          obtain ⟨p, buf⟩ := pb
          dsimp only
          split
          · rename_i h; exact .inr ⟨p, buf, rfl, h, rfl⟩
          · exact .inl rfl)
    generalize matchOne dv off prev v s = x at hx ⊢
    obtain ⟨o, s1⟩ := x
    obtain ⟨hm, hb⟩ := hx
    dsimp only at hm hb
    cases o with
    | none => exact ⟨hm, fun w h => by simp at h, fun h => by simp at h⟩
    | some r =>
      obtain ⟨b, buf⟩ := r
      obtain ⟨hb1, hb2⟩ := hb b buf rfl
      cases b with
      | true =>
        refine ⟨hm, fun w h => ?_, fun h => by simp at h⟩
        simp only [Except.ok.injEq] at h
        subst h
        exact ⟨[], vs, rfl, hb1.1 rfl, by simp⟩
      | false =>
        have hno : ¬ v.On s.mem off := fun h => by have := hb1.2 h; simp at this
        have := ih (some (v, buf)) s1 (fun w hw => hfit w (by simp [hw])) (by
          intro p b2 he
          simp only [Option.some.injEq, Prod.mk.injEq] at he
          obtain ⟨rfl, rfl⟩ := he
          rw [hm]; exact hb2)
        dsimp only
        rw [hm] at this
        obtain ⟨i1, i2, i3⟩ := this
        refine ⟨i1, fun w hw => ?_, fun h w hw => ?_⟩
        · obtain ⟨pre, post, rfl, h1, h2⟩ := i2 w hw
          refine ⟨v :: pre, post, by simp, h1, fun x hx => ?_⟩
          rcases List.mem_cons.1 hx with rfl | hx
          · exact hno
          · exact h2 x hx
        · rcases List.mem_cons.1 hw with rfl | hw
          · exact hno
          · exact i3 h w hw

theorem versionLoop_no_error {dv : Dev} (hd : Dev.Sound dv) (off : Nat) (vs : List Version) : ∀ (prev : Option (Version × Bytes)) (s : FS)
    (e : Err), (versionLoop dv off prev vs s).1 = .error e → e = .unsupported := by
  induction vs with
  | nil => intro prev s e h; simp [versionLoop] at h; exact h.symm
  | cons v vs ih =>
    intro prev s e h
    have hfresh : ∀ s, ∃ b buf s1, matchFresh dv off v s = (some (b, buf), s1) := by
      intro s; unfold matchFresh; rw [read_sound hd]; exact ⟨_, _, _, rfl⟩
    have hcach : ∀ buf s, ∃ b buf' s1, matchCached dv off v buf s = (some (b, buf'), s1) := by
      intro buf s; unfold matchCached
      split
      · exact ⟨_, _, _, rfl⟩
      · split
        · split
          · exact ⟨_, _, _, rfl⟩
          · rw [read_sound hd]; exact ⟨_, _, _, rfl⟩
        · exact ⟨_, _, _, rfl⟩
    have hx : ∃ b buf s1, matchOne dv off prev v s = (some (b, buf), s1) := by
      unfold matchOne
      cases prev with
      | none => exact hfresh s
      | some pb =>
        obtain ⟨p, buf⟩ := pb
        dsimp only
        split
        · exact hcach buf s
        · exact hfresh s
    obtain ⟨b, buf, s1, hx⟩ := hx
    unfold versionLoop at h
    rw [hx] at h
    cases b with
    | true => simp at h
    | false => exact ih _ _ _ h

end Verif.HostFw
