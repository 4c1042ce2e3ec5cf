import Verif.Heap.Hist
/-! C31: for every history of calls the live blocks are disjoint, inside the arena, as large as requested, keep their contents, and memory given
back can be used again. -/
namespace Verif.Heap

/-- What a call leaves of the memory of the blocks that stay live. -/
def Frame (s s' : Heap) (L L' : Live) (o : Op) : Prop :=
  ∀ p n n', (p, n) ∈ L → (p, n') ∈ L' → ∀ y, p ≤ y → y < p + min (up4 n) (up4 n') → (∀ v, o ≠ .write y v) → s'.mem y = s.mem y

theorem contents_alloc {s : Heap} {base len : Nat} {L : Live} {B : List Blk} {A : List Nat} (h : Good s base len L B A) {m' : Mem}
    (hs : SameContents B s.mem m') {p n y : Nat} (hp : (p, n) ∈ L) (h1 : p ≤ y) (h2 : y < p + up4 n) : m' y = s.mem y := by
  obtain ⟨c, c1, c2, c3, c4⟩ := h.sizes _ hp
  simp only at c3 c4
  have e : c.stop = c.addr + 16 + c.size := rfl
  exact hs c c1 c2 y (by omega) (by omega)

theorem contents_free {s : Heap} {base len : Nat} {L : Live} {B1 B2 : List Blk} {A : List Nat} {a n0 : Nat}
    (h : Good s base len L (B1 ++ ⟨a, n0, false⟩ :: B2) A) {m' : Mem}
    (hs : SameContents (B1 ++ B2) s.mem m') {p n y : Nat} (hp : (p, n) ∈ L) (hne : p ≠ a + 16) (h1 : p ≤ y) (h2 : y < p + up4 n) : m' y = s.mem y := by
  obtain ⟨c, c1, c2, c3, c4⟩ := h.sizes _ hp
  simp only at c3 c4
  have e : c.stop = c.addr + 16 + c.size := rfl
  refine hs c ?_ c2 y (by omega) (by omega)
  have : c ≠ ⟨a, n0, false⟩ := by
    rintro rfl
    exact hne c3
  simp at c1 ⊢
  grind

theorem up4_le (n : Nat) : n ≤ up4 n ∧ up4 n < n + 4 ∧ up4 n % 4 = 0 := by unfold up4; omega
theorem up4_mono {n k : Nat} (h : n ≤ k) : up4 n ≤ up4 k := by unfold up4; omega

theorem Good.ptr_ne {s : Heap} {base len : Nat} {L : Live} {B : List Blk} {A : List Nat} (h : Good s base len L B A) {p n : Nat}
    (hp : (p, n) ∈ L) : p ≠ 0 := by
  obtain ⟨c, c1, c2, c3, c4⟩ := h.sizes _ hp
  simp only at c3
  omega

theorem Good.uniq {s : Heap} {base len : Nat} {L : Live} {B : List Blk} {A : List Nat} (h : Good s base len L B A) {p n k : Nat}
    (hp : (p, n) ∈ L) (hq : (p, k) ∈ L) : up4 n = up4 k := by
  obtain ⟨c, c1, c2, c3, c4⟩ := h.sizes _ hp
  obtain ⟨d, d1, d2, d3, d4⟩ := h.sizes _ hq
  simp only at c3 c4 d3 d4
  have := h.inv.tiles.unique c1 d1 (by omega)
  subst this
  omega

theorem Good.blockSize {s : Heap} {base len : Nat} {L : Live} {B : List Blk} {A : List Nat} (h : Good s base len L B A) {p n : Nat}
    (hp : (p, n) ∈ L) : blockSize s.mem p = up4 n := by
  obtain ⟨c, c1, c2, c3, c4⟩ := h.sizes _ hp
  simp only at c3 c4
  subst c3
  unfold Verif.Heap.blockSize
  rw [if_neg (by omega), Nat.add_sub_cancel, (h.inv.hdr c c1).2.1, c4]

/-- Reallocation. -/
theorem Good.realloc {s : Heap} {base len : Nat} {L : Live} {B : List Blk} {A : List Nat} (h : Good s base len L B A) {p n k : Nat}
    (hn : n + 20 ≤ 2 ^ 32) (hp : (p, k) ∈ L) :
    reallocate s p n = some (s, 0) ∨
    ∃ s' q B' A', q ≠ 0 ∧ reallocate s p n = some (s', q) ∧ Good s' base len ((q, n) :: L.filter (fun b => b.1 ≠ p)) B' A' ∧
      (∀ i, 4 * i < min n k → s'.mem (q + 4 * i) = s.mem (p + 4 * i)) ∧
      (∀ r j, (r, j) ∈ L → r ≠ p → r ≠ q ∧ ∀ y, r ≤ y → y < r + up4 j → s'.mem y = s.mem y) ∧ (q = p → s' = s) := by
  have hp0 := h.ptr_ne hp
  obtain ⟨hr, hr2⟩ := round4_eq hn
  unfold reallocate
  simp only
  rw [h.blockSize hp, hr]
  by_cases hsz : up4 k = up4 n
  · right
    rw [if_pos hsz]
    refine ⟨s, p, B, A, hp0, rfl, ⟨h.inv, ?_, ?_⟩, fun _ _ => rfl, fun r j hr hne => ⟨hne, fun _ _ _ => rfl⟩, fun _ => rfl⟩
    · have hnd := h.nodup
      have hpm : (L.map Prod.fst).Perm (p :: (L.map Prod.fst).erase p) := List.perm_cons_erase (List.mem_map.mpr ⟨_, hp, rfl⟩)
      have := filter_perm hpm (hpm.nodup_iff.mp hnd)
      exact ((List.Perm.cons p this).trans hpm.symm).trans h.ptrs
    · intro b hb
      rcases List.mem_cons.mp hb with rfl | hb
      · obtain ⟨c, c1, c2, c3, c4⟩ := h.sizes _ hp
        exact ⟨c, c1, c2, c3, by rw [c4, hsz]⟩
      · exact h.sizes b (List.mem_filter.mp hb).1
  · rw [if_neg hsz]
    rcases h.alloc hn with ⟨e, _⟩ | ⟨s1, r, B1, e, g1, g2, g3⟩
    · left; rw [e]; rfl
    · right
      rw [e]
      simp only
      rw [if_neg (by omega), if_pos hp0]
      have hqp : r + 16 ≠ p := fun he => by
        have := g1.nodup
        simp only [List.map_cons, List.nodup_cons] at this
        exact this.1 (he ▸ List.mem_map.mpr ⟨_, hp, rfl⟩)
      have hd := g1.disjoint (p := r + 16) (n := n) (q := p) (k := k) (by simp) (by simp [hp]) hqp
      have hw : 4 * ((min n (up4 k) + 3) / 4) ≤ up4 n ∧ 4 * ((min n (up4 k) + 3) / 4) ≤ up4 k := by unfold up4; omega
      obtain ⟨w1, w2⟩ := copyWords_spec ((min n (up4 k) + 3) / 4) s1.mem (r + 16) p (by omega)
      generalize copyWords s1.mem (r + 16) p ((min n (up4 k) + 3) / 4) = m2 at w1 w2
      have g1' := g1.mem m2 (fun y hy => by
        by_cases hy' : y < r + 16 ∨ r + 16 + 4 * ((min n (up4 k) + 3) / 4) ≤ y
        · exact w1 y hy'
        · exfalso
          obtain ⟨b, b1, b2⟩ := hy
          exact g1.payload (p := r + 16) (n := n) (y := y) (by simp) (by omega) (by omega) b b1 b2)
      obtain ⟨s3, B3, A3, C1, C2, a, f1, f2, f3, f4, f5, f6⟩ := g1'.free (p := p) (n := k) (by simp [hp])
      rw [f3]
      subst f1
      subst f2
      have hfil : ((r + 16, n) :: L).filter (fun b => b.1 ≠ a + 16) = (r + 16, n) :: L.filter (fun b => b.1 ≠ a + 16) := by
        rw [List.filter_cons]; simp only [ne_eq, hqp, not_false_eq_true, decide_true, if_true]
      rw [hfil] at f4
      have hk := up4_le k
      refine ⟨s3, r + 16, B3, A3, by omega, rfl, f4, fun i hi => ?_, fun t j ht hne => ⟨?_, fun y y1 y2 => ?_⟩, fun he => (hqp he).elim⟩
      · have hin := up4_le n
        have e1 := contents_free g1' f6 (p := r + 16) (n := n) (y := r + 16 + 4 * i) (by simp) hqp (by omega) (by omega)
        rw [e1]
        show m2 _ = _
        rw [w2 i (by omega)]
        exact contents_alloc h g3 hp (by omega) (by omega)
      · intro he
        have := g1.nodup
        simp only [List.map_cons, List.nodup_cons] at this
        exact this.1 (he ▸ List.mem_map.mpr ⟨_, ht, rfl⟩)
      · have hne' : r + 16 ≠ t := by
          intro he
          have := g1.nodup
          simp only [List.map_cons, List.nodup_cons] at this
          exact this.1 (he ▸ List.mem_map.mpr ⟨_, ht, rfl⟩)
        have e1 := contents_free g1' f6 (p := t) (n := j) (y := y) (by simp [ht]) hne y1 y2
        rw [e1]
        show m2 _ = _
        have hd2 := g1.disjoint (p := r + 16) (n := n) (q := t) (k := j) (by simp) (by simp [ht]) hne'
        rw [w1 y (by omega)]
        exact contents_alloc h g3 ht y1 y2

/-- Every legal call ends, and keeps the invariant and the contents of live blocks. -/
theorem step_good {s : Heap} {base len : Nat} {L : Live} {B : List Blk} {A : List Nat} (h : Good s base len L B A) {o : Op} (hl : o.legal L) :
    ∃ s' L' B' A', step s L o = some (s', L') ∧ Good s' base len L' B' A' ∧ Frame s s' L L' o := by
  cases o with
  | alloc n =>
    rcases h.alloc hl with ⟨e, _⟩ | ⟨s', r, B', e, g1, g2, g3⟩
    · exact ⟨s, L, B, A, by simp [step, e], h, fun _ _ _ _ _ _ _ _ _ => rfl⟩
    · refine ⟨s', _, B', _, by simp [step, e], g1, fun p k k' hp _ y y1 y2 _ => ?_⟩
      exact contents_alloc h g3 hp y1 (by omega)
  | calloc num size =>
    have hu : u32 (num * size) = num * size := u32_id (by unfold Op.legal at hl; omega)
    rcases h.alloc hl with ⟨e, _⟩ | ⟨s', r, B', e, g1, g2, g3⟩
    · refine ⟨s, L, B, A, by simp [step, allocateZero, hu, e], h, fun _ _ _ _ _ _ _ _ _ => rfl⟩
    · obtain ⟨w1, w2⟩ := zeroWords_spec ((num * size + 3) / 4) s'.mem (r + 16)
      have hw : 4 * ((num * size + 3) / 4) = up4 (num * size) := by unfold up4; omega
      refine ⟨_, _, B', _, by simp [step, allocateZero, hu, e]; rfl, g1.mem _ (fun y hy => ?_), fun p k k' hp _ y y1 y2 _ => ?_⟩
      · by_cases hy' : y < r + 16 ∨ r + 16 + 4 * ((num * size + 3) / 4) ≤ y
        · exact w1 y hy'
        · exfalso
          obtain ⟨b, b1, b2⟩ := hy
          exact g1.payload (p := r + 16) (n := num * size) (y := y) (by simp) (by omega) (by omega) b b1 b2
      · have hne : r + 16 ≠ p := by
          intro he
          have := g1.nodup
          simp only [List.map_cons, List.nodup_cons] at this
          exact this.1 (he ▸ List.mem_map.mpr ⟨_, hp, rfl⟩)
        have hd := g1.disjoint (p := r + 16) (n := num * size) (q := p) (k := k) (by simp) (by simp [hp]) hne
        show zeroWords _ _ _ _ = _
        rw [w1 y (by omega)]
        exact contents_alloc h g3 hp y1 (by omega)
  | free p =>
    rcases hl with rfl | ⟨n, hp⟩
    · have hf : L.filter (fun b => decide (b.1 ≠ 0)) = L := List.filter_eq_self.mpr (fun b hb => by simpa using h.ptr_ne (p := b.1) (n := b.2) hb)
      exact ⟨s, L, B, A, by simp only [step, Verif.Heap.free, if_true, Option.map_some]; rw [hf], h, fun _ _ _ _ _ _ _ _ _ => rfl⟩
    · obtain ⟨s', B', A', C1, C2, a, f1, f2, f3, f4, f5, f6⟩ := h.free hp
      subst f1; subst f2
      refine ⟨s', _, B', A', by unfold step; simp only; rw [f3]; rfl, f4, fun q k k' hq hq' y y1 y2 _ => ?_⟩
      have : q ≠ a + 16 := by simpa using (List.mem_filter.mp hq').2
      exact contents_free h f6 hq this y1 (by omega)
  | realloc p n =>
    obtain ⟨hn, hp⟩ := hl
    rcases hp with rfl | ⟨k, hp⟩
    · have hf : L.filter (fun b => decide (b.1 ≠ 0)) = L := List.filter_eq_self.mpr (fun b hb => by simpa using h.ptr_ne (p := b.1) (n := b.2) hb)
      by_cases h0 : 0 = round4 n
      · refine ⟨s, L, B, A, ?_, h, fun _ _ _ _ _ _ _ _ _ => rfl⟩
        unfold step reallocate
        simp only [blockSize, if_true]
        rw [if_pos h0]; rfl
      · rcases h.alloc hn with ⟨e, _⟩ | ⟨s', r, B', e, g1, g2, g3⟩
        · refine ⟨s, L, B, A, ?_, h, fun _ _ _ _ _ _ _ _ _ => rfl⟩
          unfold step reallocate
          simp only [blockSize, if_true]
          rw [if_neg h0, e]; rfl
        · refine ⟨s', (r + 16, n) :: L, B', _, ?_, g1, fun p k k' hp _ y y1 y2 _ => contents_alloc h g3 hp y1 (by omega)⟩
          unfold step reallocate
          simp only [blockSize, if_true]
          rw [if_neg h0, e]
          simp only [Nat.add_eq_zero_iff, Nat.reduceEqDiff, and_false, if_false, ne_eq, not_true]
          simp only [ne_eq] at hf
          simp only [Option.map_some, Nat.add_eq_zero_iff, Nat.reduceEqDiff, and_false, if_false, hf]
    · rcases h.realloc hn hp with e | ⟨s', q, B', A', hq0, e, g1, g2, g3, g4⟩
      · exact ⟨s, L, B, A, by simp [step, e], h, fun _ _ _ _ _ _ _ _ _ => rfl⟩
      · refine ⟨s', _, B', A', by unfold step; simp only; rw [e]; simp only [Option.map_some, if_neg hq0], g1, fun t j j' ht ht' y y1 y2 _ => ?_⟩
        by_cases hqp : q = p
        · rw [g4 hqp]
        · by_cases htp : t = p
          · exfalso
            subst htp
            rcases List.mem_cons.mp ht' with he | he
            · simp at he; exact hqp he.1.symm
            · simpa using (List.mem_filter.mp he).2
          · exact (g3 t j ht htp).2 y y1 (by omega)
  | write y v =>
    obtain ⟨hy, b, hb, b1, b2⟩ := hl
    refine ⟨_, L, B, A, rfl, h.mem _ (fun z hz => ?_), fun p n n' hp hp' z z1 z2 hv => ?_⟩
    · refine upd_ne _ _ ?_
      rintro rfl
      obtain ⟨c, c1, c2⟩ := hz
      exact h.payload (p := b.1) (n := b.2) (y := z) hb b1 b2 c c1 c2
    · refine upd_ne _ _ ?_
      rintro rfl
      exact hv v rfl

theorem init_good {m : Mem} {base len : Nat} {s : Heap} (hi : init m base len = some s) (hf : base + len < 2 ^ 32) (ha : base % 4 = 0)
    (hl : len % 4 = 0) : Good s base len [] [⟨base, len - 16, true⟩] [] := by
  unfold init at hi
  split at hi
  · cases hi
  · rename_i hc
    cases hi
    refine ⟨⟨by omega, hf, ha, ⟨rfl, ?_⟩, ?_, ⟨?_, ?_, trivial⟩, rfl, trivial, rfl, List.Perm.refl _, ⟨fun _ => rfl, trivial⟩, rfl, by omega⟩,
      List.Perm.refl _, fun b hb => by cases hb⟩
    · show base + 16 + (len - 16) = base + len
      omega
    · intro b hb
      simp only [List.mem_singleton] at hb
      subst hb
      simp only
      rw [setHdr_eq, if_neg (by omega), if_neg (by omega), if_neg (by omega), if_pos rfl, setHdr_eq, if_neg (by omega), if_neg (by omega), if_pos rfl]
      exact ⟨rfl, rfl, by omega⟩
    · simp only; rw [setHdr_eq, if_pos rfl]
    · simp only; rw [setHdr_eq, if_neg (by omega), if_pos rfl]; rfl

theorem reach_good {m : Mem} {base len : Nat} {s0 : Heap} (hi : init m base len = some s0) (hf : base + len < 2 ^ 32) (ha : base % 4 = 0)
    (hl : len % 4 = 0) {s : Heap} {L : Live} (hr : Reach s0 s L) : ∃ B A, Good s base len L B A := by
  induction hr with
  | init => exact ⟨_, _, init_good hi hf ha hl⟩
  | step _ hlg hs ih =>
    obtain ⟨B, A, h⟩ := ih
    obtain ⟨s', L', B', A', e, g, _⟩ := step_good h hlg
    rw [hs] at e
    cases e
    exact ⟨B', A', g⟩

/-! ### The properties -/

section
variable {m : Mem} {base len : Nat} {s0 : Heap} (hi : init m base len = some s0) (hf : base + len < 2 ^ 32) (ha : base % 4 = 0)
  (hl : len % 4 = 0) {s : Heap} {L : Live} (hr : Reach s0 s L)
include hi hf ha hl hr

/-- **C31.** After every history the live blocks are disjoint and inside the arena. Missing: requests within 20 bytes of 4 GiB, for which
it is false (`huge_leaves_arena`). -/
theorem live_disjoint_partial : L.Pairwise Disjoint ∧ ∀ b ∈ L, base ≤ b.1 ∧ b.1 + b.2 ≤ base + len ∧ b.1 % 4 = 0 := by
  obtain ⟨B, A, h⟩ := reach_good hi hf ha hl hr
  refine ⟨?_, fun b hb => ?_⟩
  · have hn := h.nodup
    unfold List.Nodup at hn
    rw [List.pairwise_map] at hn
    refine List.Pairwise.imp_of_mem (fun {b c} hb hc hne => ?_) hn
    have := h.disjoint (p := b.1) (n := b.2) (q := c.1) (k := c.2) hb hc hne
    have := up4_le b.2
    have := up4_le c.2
    unfold Disjoint
    omega
  · obtain ⟨c, c1, c2, c3, c4⟩ := h.sizes b hb
    have := h.inv.bounds c1
    have := up4_le b.2
    refine ⟨by omega, by omega, ?_⟩
    have key : ∀ (l : List Blk) (a e : Nat), Tiles a e l → a % 4 = 0 → (∀ b ∈ l, b.size % 4 = 0) → ∀ b ∈ l, b.addr % 4 = 0 := by
      intro l
      induction l with
      | nil => intro a e _ _ _ b hb; cases hb
      | cons d l ih =>
        intro a e ht h0 hs b hb
        have hd := hs d (by simp)
        have e1 : d.stop = d.addr + 16 + d.size := rfl
        have := ht.1
        rcases List.mem_cons.mp hb with rfl | hb
        · omega
        · exact ih d.stop e ht.2 (by omega) (fun b hb => hs b (by simp [hb])) b hb
    have := key B base _ h.inv.tiles ha (fun b hb => (h.inv.hdr b hb).2.2) c c1
    omega

/-- **C31.** Every legal call ends, and the blocks that stay live keep their contents. -/
theorem contents_kept_partial {o : Op} (hlg : o.legal L) : ∃ s' L', step s L o = some (s', L') ∧ Frame s s' L L' o := by
  obtain ⟨B, A, h⟩ := reach_good hi hf ha hl hr
  obtain ⟨s', L', B', A', e, _, g⟩ := step_good h hlg
  exact ⟨s', L', e, g⟩

/-- A window of memory that touches no allocated block lies in one free block. -/
theorem window_free {B : List Blk} {a e x w : Nat} (ht : Tiles a e B) (hn : NoAdj B) (h1 : a ≤ x) (h2 : x + w ≤ e) (hw : 0 < w)
    (hd : ∀ b ∈ B, b.free = false → b.stop ≤ x ∨ x + w ≤ b.addr) : ∃ b ∈ B, b.free = true ∧ b.addr ≤ x ∧ x + w ≤ b.stop := by
  clear hi hf ha hl hr
  induction B generalizing a with
  | nil => unfold Tiles at ht; omega
  | cons b B ih =>
    by_cases hx : b.stop ≤ x
    · obtain ⟨c, c1, c2⟩ := ih ht.2 hn.2 hx (fun c hc => hd c (by simp [hc]))
      exact ⟨c, by simp [c1], c2⟩
    · have hb := ht.1
      cases hbf : b.free with
      | false => have := hd b (by simp) hbf; omega
      | true =>
        refine ⟨b, by simp, hbf, by omega, ?_⟩
        cases B with
        | nil => have := ht.2; unfold Tiles at this; omega
        | cons c B =>
          have hc := ht.2.1
          have hcf := hn.1 hbf
          simp only [headFree] at hcf
          have hcs : c.stop = c.addr + 16 + c.size := rfl
          have := hd c (by simp) hcf
          omega

/-- **C31.** NULL is returned only if there is no room: every window of the arena that would hold the block and a spare control block touches a
live block or its control block. Memory that was given back is therefore used again, whatever the order it was given back in. -/
theorem null_means_full {n : Nat} (hn : n + 20 ≤ 2 ^ 32) {s' : Heap} (he : allocate s n = some (s', 0)) {x : Nat} (hx : base ≤ x)
    (hx2 : x + (up4 n + 32) ≤ base + len) : ∃ b ∈ L, b.1 - 16 < x + (up4 n + 32) ∧ x < b.1 + up4 b.2 := by
  obtain ⟨B, A, h⟩ := reach_good hi hf ha hl hr
  rcases h.alloc hn with ⟨e, hno⟩ | ⟨s1, r, B', e, _⟩
  · refine Classical.byContradiction (fun hc => ?_)
    obtain ⟨b, b1, b2, b3, b4⟩ := window_free hi hf ha hl hr h.inv.tiles h.inv.noAdj hx hx2 (by omega) (fun b hb hbf => by
      have hm : b.addr + 16 ∈ L.map Prod.fst := h.ptrs.mem_iff.mpr (List.mem_map.mpr ⟨b.addr, mem_addrs.mpr ⟨b, hb, hbf, rfl⟩, rfl⟩)
      obtain ⟨l, l1, l2⟩ := List.mem_map.mp hm
      obtain ⟨c, c1, c2, c3, c4⟩ := h.sizes l l1
      have := h.inv.tiles.unique hb c1 (by omega)
      subst this
      have e : b.stop = b.addr + 16 + b.size := rfl
      refine Classical.byContradiction (fun hcc => hc ⟨l, l1, by omega, by omega⟩))
    have := hno b b1 b2
    have e : b.stop = b.addr + 16 + b.size := rfl
    omega
  · rw [he] at e
    cases e

/-- **C31.** A block that was given back can be allocated again. -/
theorem free_then_alloc {p n k : Nat} (hp : (p, n) ∈ L) (hk : up4 k = up4 n) (hn : k + 20 ≤ 2 ^ 32) :
    ∃ s' s'' q, free s p = some s' ∧ allocate s' k = some (s'', q) ∧ q ≠ 0 := by
  obtain ⟨B, A, h⟩ := reach_good hi hf ha hl hr
  obtain ⟨s', B', A', C1, C2, a, f1, f2, f3, f4, f5, f6⟩ := h.free hp
  rcases f4.alloc hn with ⟨e, hno⟩ | ⟨s1, r, B'', e, _⟩
  · obtain ⟨c, c1, c2, c3⟩ := f5.room
    have := hno c c1 c2
    omega
  · exact ⟨s', s1, r + 16, f3, e, by omega⟩

/-- **C31.** When everything has been given back the heap is as it was: a single block of the whole arena, in whatever order it was given back. -/
theorem all_freed (hL : L = []) (n : Nat) (hn : up4 n = len - 16 ∨ up4 n + 32 ≤ len) : ∃ s' q, allocate s n = some (s', q) ∧ q ≠ 0 := by
  obtain ⟨B, A, h⟩ := reach_good hi hf ha hl hr
  subst hL
  have hn2 : n + 20 ≤ 2 ^ 32 := by have := up4_le n; have := h.inv.pos; have := h.inv.room; omega
  rcases h.alloc hn2 with ⟨e, hno⟩ | ⟨s1, r, B'', e, _⟩
  · exfalso
    have hfree : ∀ b ∈ B, b.free = true := fun b hb => by
      cases hbf : b.free with
      | true => rfl
      | false =>
        have hm : b.addr + 16 ∈ ([] : Live).map Prod.fst := h.ptrs.mem_iff.mpr (List.mem_map.mpr ⟨b.addr, mem_addrs.mpr ⟨b, hb, hbf, rfl⟩, rfl⟩)
        cases hm
    have hroom := h.inv.room
    obtain ⟨b, b1, b2, b3, b4⟩ := window_free hi hf ha hl hr h.inv.tiles h.inv.noAdj (Nat.le_refl base) (Nat.le_refl _) (by omega)
      (fun b hb hbf => by rw [hfree b hb] at hbf; cases hbf)
    have := h.inv.bounds b1
    have := hno b b1 b2
    have e : b.stop = b.addr + 16 + b.size := rfl
    omega
  · exact ⟨s1, r + 16, e, by omega⟩

/-- **C31.** `calloc` returns zeroed memory. -/
theorem calloc_zero {num size : Nat} (hn : num * size + 20 ≤ 2 ^ 32) {s' : Heap} {q : Nat} (he : allocateZero s num size = some (s', q)) (hq : q ≠ 0)
    (i : Nat) (hi' : 4 * i < num * size) : s'.mem (q + 4 * i) = 0 := by
  obtain ⟨B, A, h⟩ := reach_good hi hf ha hl hr
  have hu : u32 (num * size) = num * size := u32_id (by omega)
  unfold allocateZero at he
  simp only [hu] at he
  rcases h.alloc hn with ⟨e, hno⟩ | ⟨s1, r, B'', e, _⟩
  · rw [e] at he; simp only [ne_eq, not_true, if_false] at he; cases he; exact (hq rfl).elim
  · rw [e] at he
    simp only [ne_eq, Nat.add_eq_zero_iff, Nat.reduceEqDiff, and_false, not_false_eq_true, if_true] at he
    cases he
    exact (zeroWords_spec _ _ _).2 i (by omega)

/-- **C31.** `realloc` of a live block either fails, and then nothing changes, or keeps the contents up to the smaller of the two sizes. -/
theorem realloc_contents {p n k : Nat} (hn : n + 20 ≤ 2 ^ 32) (hp : (p, k) ∈ L) : ∃ s' q, reallocate s p n = some (s', q) ∧
    (q = 0 → s' = s) ∧ (q ≠ 0 → ∀ i, 4 * i < min n k → s'.mem (q + 4 * i) = s.mem (p + 4 * i)) := by
  obtain ⟨B, A, h⟩ := reach_good hi hf ha hl hr
  rcases h.realloc hn hp with e | ⟨s', q, B', A', hq0, e, g1, g2, g3, g4⟩
  · exact ⟨s, 0, e, fun _ => rfl, fun h => (h rfl).elim⟩
  · exact ⟨s', q, e, fun h => (hq0 h).elim, fun _ => g2⟩

end

/-! ### Where it fails: sizes close to 4 GiB -/

/-- A request of 0xFFFFFFF0 bytes is not refused: size plus control block wraps to 0, the first free block is taken to fit, and the control
block of the new block is written behind the arena. Every arena is affected. -/
theorem huge_leaves_arena {m : Mem} {base len : Nat} {s : Heap} (hi : init m base len = some s) (hf : base + len + 16 < 2 ^ 32) :
    ∃ s', allocate s 0xFFFFFFF0 = some (s', base + len + 16) ∧ s'.mem (base + len) = magic := by
  unfold init at hi
  split at hi
  · cases hi
  · rename_i hc
    cases hi
    obtain ⟨k, rfl⟩ : ∃ k, len = k + 1 := ⟨len - 1, by omega⟩
    have e4 : setHdr m base magic (k + 1 - 16) 0 0 (base + 4) = k + 1 - 16 := by
      rw [setHdr_eq, if_neg (by omega), if_neg (by omega), if_pos rfl]
    unfold allocate findFit
    simp only
    rw [if_neg (by omega), e4, show round4 0xFFFFFFF0 = 0xFFFFFFF0 from rfl, show u32 (0xFFFFFFF0 + 16) = 0 from rfl,
      if_neg (by omega), if_pos (by omega)]
    simp only [Nat.sub_zero, e4]
    have hend : blockEnd (upd (setHdr m base magic (k + 1 - 16) 0 0) (base + 4) (k + 1 - 16)) base = base + (k + 1) := by
      unfold blockEnd
      rw [upd_same, u32_id (by omega)]; omega
    rw [hend]
    unfold finish
    simp only [ne_eq, not_true, if_false]
    rw [u32_id (by omega)]
    refine ⟨_, rfl, ?_⟩
    simp only
    rw [setHdr_eq, if_neg (by omega), if_neg (by omega), if_neg (by omega), if_pos rfl]

/-- A request of 4 GiB - 3 or more wraps to 0 when it is rounded: the caller gets a block of no bytes. -/
theorem huge_rounds_to_nothing {m : Mem} {base len n : Nat} {s : Heap} (hi : init m base len = some s) (hf : base + len < 2 ^ 32) (hlen : 32 < len)
    (hn : 2 ^ 32 - 3 ≤ n) (hn2 : n < 2 ^ 32) : ∃ s' q, allocate s n = some (s', q) ∧ q ≠ 0 ∧ blockSize s'.mem q = 0 := by
  unfold init at hi
  split at hi
  · cases hi
  · rename_i hc
    cases hi
    obtain ⟨k, rfl⟩ : ∃ k, len = k + 1 := ⟨len - 1, by omega⟩
    have e4 : setHdr m base magic (k + 1 - 16) 0 0 (base + 4) = k + 1 - 16 := by
      rw [setHdr_eq, if_neg (by omega), if_neg (by omega), if_pos rfl]
    have er : round4 n = 0 := by simp only [round4, u32]; omega
    unfold allocate findFit
    simp only
    rw [if_neg (by omega), e4, er, show u32 (0 + 16) = 16 from rfl, if_neg (by omega), if_pos (by omega)]
    have hend : blockEnd (upd (setHdr m base magic (k + 1 - 16) 0 0) (base + 4) (k + 1 - 16 - 16)) base = base + (k + 1 - 16) := by
      unfold blockEnd
      rw [upd_same, u32_id (by omega)]; omega
    simp only [e4, hend]
    unfold finish
    simp only [ne_eq, not_true, if_false]
    refine ⟨_, _, rfl, ?_, ?_⟩
    · rw [u32_id (by omega)]; omega
    · unfold blockSize
      rw [u32_id (by omega), if_neg (by omega)]
      simp only
      rw [show base + (k + 1 - 16) + 16 - 16 + 4 = base + (k + 1 - 16) + 4 by omega, setHdr_eq, if_neg (by omega), if_neg (by omega), if_pos rfl]

/-! ### Non-vacuity -/

/-- An arena of 256 bytes at 0x1000. -/
def heap0 : Heap := ⟨setHdr (fun _ => 0) 0x1000 magic 240 0 0, 0, 0x1000, 256⟩

example : init (fun _ => 0) 0x1000 256 = some heap0 := rfl

/-- Three blocks, the middle one given back, the last one moved: pointers as the code computes them. -/
def demo : Option (Live × Nat × Nat × Nat) := do
  let (s, L) ← step heap0 [] (.alloc 10)
  let (s, L) ← step s L (.alloc 20)
  let (s, L) ← step s L (.calloc 2 3)
  let (s, L) ← step s L (.free (L[1]!).1)
  let (s, L) ← step s L (.realloc (L[0]!).1 17)
  let (s, L) ← step s L (.write (L[0]!).1 77)
  some (L, s.mem (L[0]!).1, s.free, s.alloc)

example : demo = some ([(0x1094, 17), (0x10f4, 10)], 77, 0x1000, 0x1084) := by decide +kernel

example : ∃ s L, Reach heap0 s L ∧ L.length = 2 :=
  ⟨_, _, .step (o := .alloc 20) (.step (o := .alloc 10) .init (by unfold Op.legal; decide) rfl) (by unfold Op.legal; decide) rfl, by decide +kernel⟩

end Verif.Heap
