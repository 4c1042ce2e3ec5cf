import Verif.Heap.Alloc
import Verif.Heap.Spec
/-! The blocks of the allocator and the live blocks of the user. -/
namespace Verif.Heap

/-- The allocated blocks are the live blocks. -/
structure Good (s : Heap) (base len : Nat) (L : Live) (B : List Blk) (A : List Nat) : Prop where
  inv : Inv s base len B A
  ptrs : (L.map Prod.fst).Perm ((addrs false B).map (· + 16))
  sizes : ∀ b ∈ L, ∃ c ∈ B, c.free = false ∧ b.1 = c.addr + 16 ∧ c.size = up4 b.2

theorem round4_eq {n : Nat} (h : n + 20 ≤ 2 ^ 32) : round4 n = up4 n ∧ round4 n + 16 < 2 ^ 32 := by
  simp only [round4, up4, u32]
  omega

/-- A block at an address is unique. -/
theorem Tiles.unique {base e : Nat} {B : List Blk} (h : Tiles base e B) {b c : Blk} (hb : b ∈ B) (hc : c ∈ B) (he : b.addr = c.addr) : b = c := by
  obtain ⟨i, hi, rfl⟩ := List.getElem_of_mem hb
  obtain ⟨j, hj, rfl⟩ := List.getElem_of_mem hc
  have hp := List.pairwise_iff_getElem.mp h.pairwise
  have e1 : B[i].stop = B[i].addr + 16 + B[i].size := rfl
  have e2 : B[j].stop = B[j].addr + 16 + B[j].size := rfl
  rcases Nat.lt_trichotomy i j with hlt | rfl | hlt
  · have := hp i j hi hj hlt; omega
  · rfl
  · have := hp j i hj hi hlt; omega

theorem Allocated.addrs {n : Nat} {B B' : List Blk} {r : Nat} (h : Allocated n B B' r) : (addrs false B').Perm (r :: addrs false B) := by
  cases h with
  | exact B1 B2 r => rw [addrs_append, addrs_append, addrs_cons, addrs_cons]; simp
  | carve B1 B2 r sz h => rw [addrs_append, addrs_append, addrs_cons, addrs_cons, addrs_cons]; simp

theorem Allocated.keep {n : Nat} {B B' : List Blk} {r : Nat} (h : Allocated n B B' r) {c : Blk} (hc : c ∈ B) (hf : c.free = false) : c ∈ B' := by
  cases h with
  | exact B1 B2 r => simp at hc ⊢; rcases hc with h | h | h <;> simp_all
  | carve B1 B2 r sz h => simp at hc ⊢; rcases hc with h | h | h <;> simp_all

theorem Allocated.new {n : Nat} {B B' : List Blk} {r : Nat} (h : Allocated n B B' r) : ⟨r, n, false⟩ ∈ B' := by
  cases h <;> simp

theorem Freed.keep {B1 B2 B' : List Blk} {a sz : Nat} (h : Freed B1 a sz B2 B') {c : Blk} (hc : c ∈ B1 ++ B2) (hf : c.free = false) : c ∈ B' := by
  obtain ⟨C1, b, sz1, sz2, C2, h1, h2, rfl⟩ := h
  cases h1 <;> cases h2 <;> grind

theorem Freed.room {B1 B2 B' : List Blk} {a sz : Nat} (h : Freed B1 a sz B2 B') : ∃ c ∈ B', c.free = true ∧ (c.size = sz ∨ sz + 16 ≤ c.size) := by
  obtain ⟨C1, b, sz1, sz2, C2, h1, h2, rfl⟩ := h
  refine ⟨⟨b, sz2, true⟩, by simp, rfl, ?_⟩
  cases h1 <;> cases h2 <;> grind

theorem nodup_add {l : List Nat} (h : l.Nodup) : (l.map (· + 16)).Nodup := by
  unfold List.Nodup at h ⊢
  rw [List.pairwise_map]
  exact h.imp (fun {a b} h => by omega)

theorem Good.nodup {s : Heap} {base len : Nat} {L : Live} {B : List Blk} {A : List Nat} (h : Good s base len L B A) : (L.map Prod.fst).Nodup := by
  refine h.ptrs.nodup_iff.mpr ?_
  exact nodup_add (tiles_addrs_nodup h.inv.tiles false)

/-- Allocation. -/
theorem Good.alloc {s : Heap} {base len : Nat} {L : Live} {B : List Blk} {A : List Nat} (h : Good s base len L B A) {n : Nat}
    (hn : n + 20 ≤ 2 ^ 32) :
    (allocate s n = some (s, 0) ∧ ∀ b ∈ B, b.free = true → b.size ≠ up4 n ∧ b.size < up4 n + 16) ∨
    ∃ s' r B', allocate s n = some (s', r + 16) ∧ Good s' base len ((r + 16, n) :: L) B' (r :: A) ∧ Allocated (up4 n) B B' r ∧
      SameContents B s.mem s'.mem := by
  obtain ⟨hr, hr2⟩ := round4_eq hn
  have := allocate_spec h.inv n hr2
  rw [hr] at this
  rcases this with g | ⟨s', r, B', g1, g2, g3, g4⟩
  · exact .inl g
  · refine .inr ⟨s', r, B', g1, ⟨g3, ?_, ?_⟩, g2, g4⟩
    · refine (List.Perm.cons (r + 16) h.ptrs).trans ?_
      exact (g2.addrs.map (· + 16)).symm
    · intro b hb
      rcases List.mem_cons.mp hb with rfl | hb
      · exact ⟨_, g2.new, rfl, rfl, rfl⟩
      · obtain ⟨c, c1, c2, c3⟩ := h.sizes b hb
        exact ⟨c, g2.keep c1 c2, c2, c3⟩

theorem filter_perm {l : List (Nat × Nat)} {l' : List Nat} {p : Nat} (h : (l.map Prod.fst).Perm (p :: l')) (hn : (p :: l').Nodup) :
    ((l.filter (fun b => b.1 ≠ p)).map Prod.fst).Perm l' := by
  have h1 := h.filter (fun x => decide (x ≠ p))
  rw [List.filter_map] at h1
  have h2 : (p :: l').filter (fun x => decide (x ≠ p)) = l' := by
    rw [List.filter_cons]
    simp only [ne_eq, not_true, decide_false, Bool.false_eq_true, if_false]
    rw [List.filter_eq_self]
    intro x hx
    have := (List.nodup_cons.mp hn).1
    simp only [ne_eq, decide_not, Bool.not_eq_true', decide_eq_false_iff_not]
    rintro rfl
    exact this hx
  rw [h2] at h1
  exact h1

/-- Giving a block back. -/
theorem Good.free {s : Heap} {base len : Nat} {L : Live} {B : List Blk} {A : List Nat} (h : Good s base len L B A) {p n : Nat}
    (hp : (p, n) ∈ L) :
    ∃ s' B' A' B1 B2 a, p = a + 16 ∧ B = B1 ++ ⟨a, up4 n, false⟩ :: B2 ∧ Verif.Heap.free s p = some s' ∧
      Good s' base len (L.filter (fun b => b.1 ≠ p)) B' A' ∧ Freed B1 a (up4 n) B2 B' ∧ SameContents (B1 ++ B2) s.mem s'.mem := by
  obtain ⟨⟨a, sz, cf⟩, c1, c2, c3, c4⟩ := h.sizes (p, n) hp
  simp only at c2 c3 c4
  subst c2; subst c3; subst c4
  obtain ⟨B1, B2, rfl⟩ := List.append_of_mem c1
  obtain ⟨s', B', A', g1, g2, g3, g4⟩ := free_spec h.inv
  have hnd := tiles_addrs_nodup h.inv.tiles false
  have hpm : (addrs false (B1 ++ ⟨a, up4 n, false⟩ :: B2)).Perm (a :: addrs false B') := by
    rw [g2.addrs, addrs_append, addrs_cons]
    simp only [if_true]
    exact List.perm_middle
  refine ⟨s', B', A', B1, B2, a, rfl, rfl, g1, ⟨g3, ?_, ?_⟩, g2, g4⟩
  · refine filter_perm (h.ptrs.trans (hpm.map (· + 16))) ?_
    exact nodup_add (hpm.nodup_iff.mp hnd)
  · intro b hb
    obtain ⟨hb1, hb2⟩ := List.mem_filter.mp hb
    obtain ⟨c, d1, d2, d3, d4⟩ := h.sizes b hb1
    refine ⟨c, g2.keep ?_ d2, d2, d3, d4⟩
    have hne : c ≠ ⟨a, up4 n, false⟩ := by
      rintro rfl
      simp only at d3
      simp [d3] at hb2
    simp at d1 ⊢
    grind

/-- A change of memory inside the live blocks. -/
theorem Good.mem {s : Heap} {base len : Nat} {L : Live} {B : List Blk} {A : List Nat} (h : Good s base len L B A) (m' : Mem)
    (hm : ∀ y, (∃ b ∈ B, b.addr ≤ y ∧ y < b.addr + 16) → m' y = s.mem y) : Good { s with mem := m' } base len L B A := by
  have hh : ∀ b ∈ B, ∀ k, k < 16 → m' (b.addr + k) = s.mem (b.addr + k) := fun b hb k hk => hm _ ⟨b, hb, by omega⟩
  have hx : ∀ f, ∀ x ∈ addrs f B, m' (x + 8) = s.mem (x + 8) ∧ m' (x + 12) = s.mem (x + 12) := fun f x hx => by
    obtain ⟨b, h1, _, rfl⟩ := mem_addrs.mp hx
    exact ⟨hh b h1 8 (by omega), hh b h1 12 (by omega)⟩
  refine ⟨⟨h.inv.pos, h.inv.fits, h.inv.align, h.inv.tiles, fun b hb => ?_, h.inv.freeSeg.congr (hx true), h.inv.freeHead,
    h.inv.allocSeg.congr (fun x hxA => hx false x (h.inv.perm.mem_iff.mp hxA)), h.inv.allocHead, h.inv.perm, h.inv.noAdj, h.inv.fuel, h.inv.room⟩,
    h.ptrs, h.sizes⟩
  have g0 := hh b hb 0 (by omega)
  have g4 := hh b hb 4 (by omega)
  simp only [Nat.add_zero] at g0
  show m' _ = _ ∧ m' _ = _ ∧ _
  rw [g0, g4]
  exact h.inv.hdr b hb

theorem zeroWords_spec (k : Nat) : ∀ (m : Mem) (d : Nat), (∀ y, y < d ∨ d + 4 * k ≤ y → zeroWords m d k y = m y) ∧ ∀ i < k, zeroWords m d k (d + 4 * i) = 0 := by
  induction k with
  | zero => intro m d; exact ⟨fun y _ => rfl, fun i hi => by omega⟩
  | succ k ih =>
    intro m d
    unfold zeroWords
    obtain ⟨h1, h2⟩ := ih (upd m d 0) (d + 4)
    refine ⟨fun y hy => ?_, fun i hi => ?_⟩
    · rw [h1 y (by omega), upd_ne _ _ (by omega)]
    · cases i with
      | zero => rw [h1 _ (by omega), Nat.mul_zero, Nat.add_zero, upd_same]
      | succ i => have := h2 i (by omega); rw [show d + 4 * (i + 1) = d + 4 + 4 * i by omega]; exact this

theorem copyWords_spec (k : Nat) : ∀ (m : Mem) (d c : Nat), (d + 4 * k ≤ c ∨ c + 4 * k ≤ d) →
    (∀ y, y < d ∨ d + 4 * k ≤ y → copyWords m d c k y = m y) ∧ ∀ i < k, copyWords m d c k (d + 4 * i) = m (c + 4 * i) := by
  induction k with
  | zero => intro m d c _; exact ⟨fun y _ => rfl, fun i hi => by omega⟩
  | succ k ih =>
    intro m d c hdc
    unfold copyWords
    obtain ⟨h1, h2⟩ := ih (upd m d (m c)) (d + 4) (c + 4) (by omega)
    refine ⟨fun y hy => ?_, fun i hi => ?_⟩
    · rw [h1 y (by omega), upd_ne _ _ (by omega)]
    · cases i with
      | zero => rw [h1 _ (by omega), Nat.mul_zero, Nat.add_zero, upd_same, Nat.add_zero]
      | succ i =>
        have := h2 i (by omega)
        rw [show d + 4 * (i + 1) = d + 4 + 4 * i by omega, this, upd_ne _ _ (by omega)]
        congr 1; omega

/-- The payload of an allocated block is outside all control blocks and outside other blocks. -/
theorem Good.payload {s : Heap} {base len : Nat} {L : Live} {B : List Blk} {A : List Nat} (h : Good s base len L B A) {p n y : Nat}
    (hp : (p, n) ∈ L) (h1 : p ≤ y) (h2 : y < p + up4 n) : ∀ b ∈ B, ¬ (b.addr ≤ y ∧ y < b.addr + 16) := by
  obtain ⟨c, c1, c2, c3, c4⟩ := h.sizes _ hp
  simp only at c3 c4
  intro b hb
  have e : c.stop = c.addr + 16 + c.size := rfl
  have := h.inv.payload c1 (y := y) (by omega) (by omega) b.addr (List.mem_map.mpr ⟨b, hb, rfl⟩)
  omega

theorem Good.disjoint {s : Heap} {base len : Nat} {L : Live} {B : List Blk} {A : List Nat} (h : Good s base len L B A) {p n q k : Nat}
    (hp : (p, n) ∈ L) (hq : (q, k) ∈ L) (hne : p ≠ q) : p + up4 n + 16 ≤ q ∨ q + up4 k + 16 ≤ p := by
  obtain ⟨c, c1, c2, c3, c4⟩ := h.sizes _ hp
  obtain ⟨d, d1, d2, d3, d4⟩ := h.sizes _ hq
  simp only at c3 c4 d3 d4
  have := h.inv.tiles.apart c1 d1 (by omega)
  have e : c.stop = c.addr + 16 + c.size := rfl
  have e : d.stop = d.addr + 16 + d.size := rfl
  omega

end Verif.Heap
