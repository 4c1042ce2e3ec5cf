import Verif.Heap.Free
/-! What `heap_with_defrag_allocate` does to the blocks. -/
namespace Verif.Heap

/-- The blocks after an allocation of `size` bytes: a free block of that size is used, or the end of a larger one. -/
inductive Allocated (size : Nat) : List Blk → List Blk → Nat → Prop
  | exact (B1 B2 : List Blk) (r : Nat) : Allocated size (B1 ++ ⟨r, size, true⟩ :: B2) (B1 ++ ⟨r, size, false⟩ :: B2) r
  | carve (B1 B2 : List Blk) (r sz : Nat) (h : size + 16 ≤ sz) :
    Allocated size (B1 ++ ⟨r, sz, true⟩ :: B2)
      (B1 ++ ⟨r, sz - (size + 16), true⟩ :: ⟨r + 16 + (sz - (size + 16)), size, false⟩ :: B2) (r + 16 + (sz - (size + 16)))

theorem split_of_mem {B : List Blk} {a : Nat} {f : Bool} (h : a ∈ addrs f B) : ∃ B1 B2 sz, B = B1 ++ ⟨a, sz, f⟩ :: B2 := by
  obtain ⟨b, h1, h2, h3⟩ := mem_addrs.mp h
  obtain ⟨B1, B2, e⟩ := List.append_of_mem h1
  exact ⟨B1, B2, b.size, by rw [e]; congr 2; cases b; simp_all⟩

theorem allocate_spec {s : Heap} {base len : Nat} {B : List Blk} {A : List Nat} (h : Inv s base len B A) (n : Nat)
    (hn : round4 n + 16 < 2 ^ 32) :
    (allocate s n = some (s, 0) ∧ ∀ b ∈ B, b.free = true → b.size ≠ round4 n ∧ b.size < round4 n + 16) ∨
    ∃ s' r B', allocate s n = some (s', r + 16) ∧ Allocated (round4 n) B B' r ∧ Inv s' base len B' (r :: A) ∧ SameContents B s.mem s'.mem := by
  have hfz : ∀ a ∈ addrs true B, a ≠ 0 := fun a ha => by
    obtain ⟨b, h1, _, h3⟩ := mem_addrs.mp ha
    have := (h.bounds h1).1
    omega
  have hAz : ∀ a ∈ A, a ≠ 0 := fun a ha => by
    obtain ⟨b, h1, _, h3⟩ := mem_addrs.mp (h.perm.mem_iff.mp ha)
    have := (h.bounds h1).1
    omega
  have hAf : ∀ x ∈ addrs true B, ∀ y ∈ A, x + 16 ≤ y ∨ y + 16 ≤ x := fun x hx y hy => h.split hx (h.perm.mem_iff.mp hy)
  have hAsub : ∀ a ∈ A, a ∈ B.map (·.addr) := fun a ha => addrs_sub false B a (h.perm.mem_iff.mp ha)
  have hsepA : Sep A := by
    have h1 : Sep (addrs false B) := List.Pairwise.sublist (addrs_sublist false B) h.sep
    exact h.perm.symm.pairwise h1 (fun {x y} hxy => by omega)
  have hsepF : Sep (addrs true B) := List.Pairwise.sublist (addrs_sublist true B) h.sep
  have hfit := findFit_spec s.mem (round4 n) (u32 (round4 n + 16)) (addrs true B) s.fuel 0
    (by have := h.fuel_lt; have := addrs_length true B; omega) h.freeSeg hfz
  rw [← h.freeHead] at hfit
  unfold allocate
  simp only
  rw [u32_id hn] at hfit ⊢
  rcases hfit with ⟨e, hno⟩ | ⟨r, hr, e, hsz⟩ | ⟨r, hr, e, hsz⟩
  · left
    rw [e]
    refine ⟨rfl, fun b hb hf => ?_⟩
    have := hno b.addr (mem_addrs.mpr ⟨b, hb, hf, rfl⟩)
    rw [(h.hdr b hb).2.1] at this
    exact this
  · right
    rw [e]
    simp only
    obtain ⟨B1, B2, sz, hB⟩ := split_of_mem hr
    have hb : (⟨r, sz, true⟩ : Blk) ∈ B := by rw [hB]; simp
    have hsz2 : sz = round4 n := by have := (h.hdr _ hb).2.1; simp only at this; omega
    subst hsz2
    have hbd := h.bounds hb
    simp only at hbd
    have hF : addrs true B = addrs true B1 ++ [r] ++ addrs true B2 := by rw [hB, addrs_append, addrs_cons]; simp
    have hseg := h.freeSeg
    rw [hF] at hseg hsepF hfz hAf
    have hcross := (List.pairwise_append.mp hsepF)
    have hapart : Apart (addrs true B1 ++ addrs true B2) r := fun z hz => by
      rcases hsepF.of (x := z) (y := r) (by simp at hz ⊢; grind) (by simp) with e1 | e1
      · exfalso
        subst e1
        have hnd := hsepF.nodup
        simp [List.nodup_append] at hnd hz
        rcases hz with hz | hz
        · exact (hnd.2.2 z hz).1 rfl
        · exact hnd.2.1.1 hz
      · exact e1
    have hun := unlink_spec hseg (fun z hz => hfz z (by simp at hz ⊢; grind)) hapart (fun x hx y hy => hcross.2.2 x (by simp [hx]) y hy)
    rw [← hF, ← h.freeHead] at hun
    rw [hun]
    have hAoff : ∀ a ∈ A, Apart (addrs true B1 ++ addrs true B2) a := fun a ha z hz => hAf z (by simp at hz ⊢; grind) a ha
    have hsr : Sep (r :: A) := List.pairwise_cons.mpr ⟨fun a ha => hAf r (by simp) a ha, hsepA⟩
    have hfin := finish_spec (s := ⟨unlinked s.mem (addrs true B1) (addrs true B2), s.alloc, first (addrs true B1 ++ addrs true B2) 0, s.fuel⟩)
      (A := A) (r := r) (size := round4 n) (h.allocSeg.congr (fun a ha =>
        ⟨unlinked_off ((hAoff a ha).off (by omega)), unlinked_off ((hAoff a ha).off (by omega))⟩)) h.allocHead hsr hAz (by omega)
    obtain ⟨f1, f2, f3, f4, f5, f6, f7, f8, f9⟩ := hfin
    simp only at f3 f4 f8 f9 ⊢
    generalize finish ⟨unlinked s.mem (addrs true B1) (addrs true B2), s.alloc, first (addrs true B1 ++ addrs true B2) 0, s.fuel⟩ r (round4 n) = res at f1 f2 f3 f4 f5 f6 f7 f8 f9
    obtain ⟨s', p⟩ := res
    simp only at f1 f2 f3 f4 f5 f6 f7 f8 f9
    subst f1
    have hB' : addrs true (B1 ++ ⟨r, round4 n, false⟩ :: B2) = addrs true B1 ++ addrs true B2 := by rw [addrs_append, addrs_cons]; simp
    refine ⟨s', r, _, rfl, hB ▸ Allocated.exact B1 B2 r, ⟨h.pos, h.fits, h.align, ?_, ?_, ?_, ?_, f7, by rw [f2]; rfl, ?_, ?_, by rw [f4]; exact h.fuel, h.room⟩, ?_⟩
    · have := h.tiles
      rw [hB, tiles_append] at this
      rw [tiles_append]
      exact this
    · intro c hc
      have hc' : c ∈ B1 ++ B2 ∨ c = ⟨r, round4 n, false⟩ := by simp at hc ⊢; grind
      rcases hc' with hc' | rfl
      · have hcB : c ∈ B := by rw [hB]; simp at hc' ⊢; grind
        have hne : c.addr ≠ r := fun e => by
          have hp := h.sep.nodup
          rw [hB] at hp
          simp [List.nodup_append] at hp hc'
          rcases hc' with hc' | hc'
          · exact (hp.2.2 c hc').1 e
          · exact hp.2.1.1 c hc' e
        have hall : ∀ y ∈ B.map (·.addr), y = c.addr ∨ y + 16 ≤ c.addr ∨ c.addr + 16 ≤ y := fun y hy =>
          h.sep.of hy (List.mem_map.mpr ⟨c, hcB, rfl⟩)
        have g : ∀ k, k < 8 → s'.mem (c.addr + k) = s.mem (c.addr + k) := fun k hk => by
          rw [f9 c.addr k hk hne (fun y hy => ?_), unlinked_low hk (fun y hy => ?_)]
          · exact hall y (addrs_sub true B y (by rw [hF]; simp at hy ⊢; grind))
          · rcases List.mem_cons.mp hy with rfl | hy
            · exact hall y (List.mem_map.mpr ⟨_, hb, rfl⟩)
            · exact hall y (hAsub y hy)
        have := h.hdr c hcB
        have g0 := g 0 (by omega)
        have g4 := g 4 (by omega)
        simp only [Nat.add_zero] at g0
        rw [g0, g4]; exact this
      · exact ⟨f5, f6, (h.hdr _ hb).2.2⟩
    · rw [hB']
      refine (unlinked_seg hseg hsepF).congr (fun a ha => ?_)
      have hap : Apart (r :: A) a := fun z hz => by
        rcases List.mem_cons.mp hz with rfl | hz
        · have := hapart a ha; omega
        · have := hAoff z hz a ha; omega
      exact ⟨f8 _ (hap.off (by omega)), f8 _ (hap.off (by omega))⟩
    · rw [f3, hB']
    · refine (List.Perm.cons r h.perm).trans ?_
      rw [hB, addrs_append, addrs_append, addrs_cons, addrs_cons]
      simp only [if_true]
      exact List.perm_middle.symm
    · have := h.noAdj
      rw [hB, noAdj_append] at this
      rw [noAdj_append]
      exact ⟨this.1, ⟨fun hh => by simp at hh, this.2.1.2⟩, fun _ => rfl⟩
    · intro c hc hcf y h1 h2
      have hoff := h.payload hc h1 h2
      rw [f8 y (hoff.sub (fun z hz => ?_)), unlinked_off (hoff.sub (fun z hz => ?_))]
      · exact addrs_sub true B z (by rw [hF]; simp at hz ⊢; grind)
      · rcases List.mem_cons.mp hz with rfl | hz
        · exact List.mem_map.mpr ⟨_, hb, rfl⟩
        · exact hAsub z hz
  · right
    rw [e]
    simp only
    obtain ⟨B1, B2, sz, hB⟩ := split_of_mem hr
    have hb : (⟨r, sz, true⟩ : Blk) ∈ B := by rw [hB]; simp
    have hszm := (h.hdr _ hb).2.1
    simp only at hszm
    have hbd := h.bounds hb
    simp only at hbd
    have hF : addrs true B = addrs true B1 ++ [r] ++ addrs true B2 := by rw [hB, addrs_append, addrs_cons]; simp
    rw [hszm] at hsz ⊢
    have hbe : blockEnd (upd s.mem (r + 4) (sz - (round4 n + 16))) r = r + 16 + (sz - (round4 n + 16)) := by
      unfold blockEnd; rw [upd_same, u32_id (by omega)]
    rw [hbe]
    have hd : ∀ c ∈ B1 ++ B2, c.stop ≤ r ∨ r + 16 + sz ≤ c.addr := fun c hc => by
      have hp := h.tiles.pairwise
      rw [hB] at hp
      rw [List.pairwise_append, List.pairwise_cons] at hp
      rcases List.mem_append.mp hc with hc | hc
      · left; exact hp.2.2 c hc ⟨r, sz, true⟩ (by simp)
      · right; exact hp.2.1.1 c hc
    have hdA : ∀ a ∈ A, a + 16 ≤ r ∨ r + 16 + sz ≤ a := fun a ha => by
      obtain ⟨c, c1, c2, c3⟩ := mem_addrs.mp (h.perm.mem_iff.mp ha)
      have hcs : c.stop = c.addr + 16 + c.size := rfl
      have : c ∈ B1 ++ B2 := by
        rw [hB] at c1
        simp at c1 ⊢
        rcases c1 with c1 | c1 | c1
        · exact .inl c1
        · rw [c1] at c2; cases c2
        · exact .inr c1
      have := hd c this
      omega
    generalize hN : r + 16 + (sz - (round4 n + 16)) = N
    have hN2 : r + 16 ≤ N ∧ N + 16 + round4 n = r + 16 + sz := by omega
    have hsr : Sep (N :: A) := List.pairwise_cons.mpr ⟨fun a ha => by have := hdA a ha; omega, hsepA⟩
    have hfin := finish_spec (s := ⟨upd s.mem (r + 4) (sz - (round4 n + 16)), s.alloc, s.free, s.fuel⟩) (A := A) (r := N) (size := round4 n)
      (h.allocSeg.congr (fun a ha => by
        have := hdA a ha
        exact ⟨upd_ne _ _ (by omega), upd_ne _ _ (by omega)⟩)) h.allocHead hsr hAz (by omega)
    obtain ⟨f1, f2, f3, f4, f5, f6, f7, f8, f9⟩ := hfin
    simp only at f3 f4 f8 f9 ⊢
    generalize finish ⟨upd s.mem (r + 4) (sz - (round4 n + 16)), s.alloc, s.free, s.fuel⟩ N (round4 n) = res at f1 f2 f3 f4 f5 f6 f7 f8 f9
    obtain ⟨s', p⟩ := res
    simp only at f1 f2 f3 f4 f5 f6 f7 f8 f9
    subst f1
    have hrs : ∀ k, k < 8 → s'.mem (r + k) = upd s.mem (r + 4) (sz - (round4 n + 16)) (r + k) := fun k hk => by
      refine f9 r k hk (by omega) (fun y hy => ?_)
      rcases List.mem_cons.mp hy with rfl | hy
      · omega
      · have := hdA y hy; omega
    have hr0 := hrs 0 (by omega)
    have hr4 := hrs 4 (by omega)
    rw [upd_ne _ _ (by omega)] at hr0
    rw [upd_same] at hr4
    refine ⟨s', N, _, rfl, hN ▸ hB ▸ Allocated.carve B1 B2 r sz hsz, ⟨h.pos, h.fits, h.align, ?_, ?_, ?_, ?_, f7, by rw [f2]; rfl, ?_, ?_, by rw [f4]; exact h.fuel, h.room⟩, ?_⟩
    · have := h.tiles
      rw [hB, tiles_append] at this
      rw [tiles_append]
      obtain ⟨x, t1, t2, t3⟩ := this
      refine ⟨x, t1, t2, ?_, ?_⟩
      · simp only [Blk.stop]; omega
      · simp only [Blk.stop] at t3 ⊢
        rw [show N + 16 + round4 n = r + 16 + sz by omega]
        exact t3
    · intro c hc
      have hc' : c ∈ B1 ++ B2 ∨ c = ⟨r, sz - (round4 n + 16), true⟩ ∨ c = ⟨N, round4 n, false⟩ := by simp at hc ⊢; grind
      rcases hc' with hc' | rfl | rfl
      · have hcB : c ∈ B := by rw [hB]; simp at hc' ⊢; grind
        have hcs : c.stop = c.addr + 16 + c.size := rfl
        have hdc := hd c hc'
        have g : ∀ k, k < 8 → s'.mem (c.addr + k) = s.mem (c.addr + k) := fun k hk => by
          rw [f9 c.addr k hk (by omega) (fun y hy => ?_), upd_ne _ _ (by omega)]
          rcases List.mem_cons.mp hy with rfl | hy
          · omega
          · exact h.sep.of (hAsub y hy) (List.mem_map.mpr ⟨c, hcB, rfl⟩)
        have := h.hdr c hcB
        have g0 := g 0 (by omega)
        have g4 := g 4 (by omega)
        simp only [Nat.add_zero] at g0
        rw [g0, g4]; exact this
      · have := h.hdr _ hb
        simp only at this ⊢
        refine ⟨by rw [Nat.add_zero] at hr0; rw [hr0]; exact this.1, hr4, ?_⟩
        have : round4 n % 4 = 0 := by unfold round4; omega
        omega
      · exact ⟨f5, f6, by simp only [round4]; omega⟩
    · have hB' : addrs true (B1 ++ ⟨r, sz - (round4 n + 16), true⟩ :: ⟨N, round4 n, false⟩ :: B2) = addrs true B := by
        rw [hF, addrs_append, addrs_cons, addrs_cons]; simp
      rw [hB']
      refine h.freeSeg.congr (fun a ha => ?_)
      have hap : Apart (N :: A) a := fun z hz => by
        rcases List.mem_cons.mp hz with rfl | hz
        · obtain ⟨c, c1, c2, c3⟩ := mem_addrs.mp ha
          have hcs : c.stop = c.addr + 16 + c.size := rfl
          rw [hB] at c1
          simp at c1
          have : c = ⟨r, sz, true⟩ ∨ c ∈ B1 ++ B2 := by simp; grind
          rcases this with e1 | e1
          · rw [e1] at c3; simp only at c3; omega
          · have := hd c e1; omega
        · have := hAf a ha z hz; omega
      have har : a = r ∨ a + 16 ≤ r ∨ r + 16 ≤ a := hsepF.of ha hr
      exact ⟨by rw [f8 _ (hap.off (by omega)), upd_ne _ _ (by omega)], by rw [f8 _ (hap.off (by omega)), upd_ne _ _ (by omega)]⟩
    · rw [f3, h.freeHead, hF, addrs_append, addrs_cons, addrs_cons]; simp
    · refine (List.Perm.cons N h.perm).trans ?_
      rw [hB, addrs_append, addrs_append, addrs_cons, addrs_cons, addrs_cons]
      simp only [if_true]
      exact List.perm_middle.symm
    · have := h.noAdj
      rw [hB, noAdj_append] at this
      rw [noAdj_append]
      exact ⟨this.1, ⟨fun _ => rfl, ⟨fun hh => by simp at hh, this.2.1.2⟩⟩, this.2.2⟩
    · intro c hc hcf y h1 h2
      have hoff := h.payload hc h1 h2
      have hcd : c ∈ B1 ++ B2 := by
        rw [hB] at hc
        simp at hc ⊢
        rcases hc with hc | hc | hc
        · exact .inl hc
        · rw [hc] at hcf; cases hcf
        · exact .inr hc
      have := hd c hcd
      rw [f8 y (fun z hz => ?_), upd_ne _ _ (by omega)]
      rcases List.mem_cons.mp hz with rfl | hz
      · omega
      · exact hoff z (hAsub z hz)

end Verif.Heap
