import Verif.RiotSha.Words
/-! One call of `SHA256_Transform` is the compression of FIPS 180-4. -/
namespace Verif.RiotSha
open Spec (Words)

theorem K256_eq : K256 = Spec.K := by decide +kernel
theorem initialHash_eq : initialHash = Spec.H0 := by decide +kernel

theorem turn_eq (r : Words) (k w : UInt32) : turn r k w = Spec.step r k w := rfl
theorem sigma0_eq (x : UInt32) : sigma0 x = Spec.sigma0 x := rfl
theorem sigma1_eq (x : UInt32) : sigma1 x = Spec.sigma1 x := rfl

/-! ### The message schedule -/

/-- The schedule after `n` words have been appended. -/
def sched (blk : Bytes) (n : Nat) : List UInt32 :=
  (List.range n).foldl
    (fun W _ =>
      let t := W.length
      W ++ [Spec.sigma1 (W.getD (t - 2) 0) + W.getD (t - 7) 0 + Spec.sigma0 (W.getD (t - 15) 0)
        + W.getD (t - 16) 0])
    ((List.range 16).map (Spec.word blk))

theorem sched_succ (blk : Bytes) (n : Nat) :
    sched blk (n + 1) = sched blk n ++
      [Spec.sigma1 ((sched blk n).getD ((sched blk n).length - 2) 0)
        + (sched blk n).getD ((sched blk n).length - 7) 0
        + Spec.sigma0 ((sched blk n).getD ((sched blk n).length - 15) 0)
        + (sched blk n).getD ((sched blk n).length - 16) 0] := by
  simp only [sched, List.range_succ, List.foldl_append, List.foldl_cons, List.foldl_nil]

theorem sched_length (blk : Bytes) (n : Nat) : (sched blk n).length = 16 + n := by
  induction n with
  | zero => simp [sched]
  | succ n ih => rw [sched_succ, List.length_append, ih]; simp; omega

theorem sched_stable (blk : Bytes) (n k t : Nat) (h : t < 16 + n) :
    (sched blk (n + k)).getD t 0 = (sched blk n).getD t 0 := by
  induction k with
  | zero => rfl
  | succ k ih =>
    rw [← Nat.add_assoc, sched_succ, List.getD_eq_getElem?_getD, List.getElem?_append_left,
      ← List.getD_eq_getElem?_getD, ih]
    rw [sched_length]; omega

theorem schedule_eq (blk : Bytes) : Spec.schedule blk = sched blk 48 := rfl

theorem schedule_first (blk : Bytes) (t : Nat) (h : t < 16) :
    (Spec.schedule blk).getD t 0 = Spec.word blk t := by
  have := sched_stable blk 0 48 t (by omega)
  rw [Nat.zero_add] at this
  rw [schedule_eq, this]
  simp [sched, h]

theorem schedule_next (blk : Bytes) (t : Nat) (h : 16 ≤ t) (h' : t < 64) :
    (Spec.schedule blk).getD t 0 =
      Spec.sigma1 ((Spec.schedule blk).getD (t - 2) 0) + (Spec.schedule blk).getD (t - 7) 0
        + Spec.sigma0 ((Spec.schedule blk).getD (t - 15) 0) + (Spec.schedule blk).getD (t - 16) 0 := by
  have st : ∀ k n u, n + k = 48 → u < 16 + n → (Spec.schedule blk).getD u 0 = (sched blk n).getD u 0 := by
    intro k n u hk hu
    rw [schedule_eq, ← hk]
    exact sched_stable blk n k u hu
  rw [st (64 - t - 1) (t - 16 + 1) t (by omega) (by omega),
    st (64 - t) (t - 16) (t - 2) (by omega) (by omega),
    st (64 - t) (t - 16) (t - 7) (by omega) (by omega),
    st (64 - t) (t - 16) (t - 15) (by omega) (by omega),
    st (64 - t) (t - 16) (t - 16) (by omega) (by omega), sched_succ]
  have hl := sched_length blk (t - 16)
  have ht : 16 + (t - 16) = t := by omega
  rw [ht] at hl
  rw [List.getD_eq_getElem?_getD, List.getElem?_append_right (by omega), hl]
  simp

/-! ### The loops -/

theorem getD_set (W : List UInt32) (i j : Nat) (w : UInt32) (h : i < W.length) :
    (W.set i w).getD j 0 = if j = i then w else W.getD j 0 := by
  simp only [List.getD_eq_getElem?_getD, List.getElem?_set]
  by_cases hj : j = i
  · subst hj; simp [h]
  · rw [if_neg (Ne.symm hj), if_neg hj]

/-- The registers of FIPS 180-4 after `n` steps. -/
def regs (h : Words) (blk : Bytes) (n : Nat) : Words :=
  (List.range n).foldl (fun r t => Spec.step r (Spec.K.getD t 0) ((Spec.schedule blk).getD t 0)) h

theorem regs_succ (h : Words) (blk : Bytes) (n : Nat) :
    regs h blk (n + 1) =
      Spec.step (regs h blk n) (Spec.K.getD n 0) ((Spec.schedule blk).getD n 0) := by
  simp only [regs, List.range_succ, List.foldl_append, List.foldl_cons, List.foldl_nil]

theorem loop1_spec (data : List UInt32 → Nat → UInt32) (h : Words) (W : List UInt32) (blk : Bytes)
    (hW : W.length = 16)
    (hd : ∀ W' j, j < 16 → (∀ i, j ≤ i → W'.getD i 0 = W.getD i 0) →
      reverse32 (data W' j) = Spec.word blk j) (n : Nat) (hn : n ≤ 16) :
    let s := (List.range n).foldl (loop1 data) (h, W)
    s.1 = regs h blk n ∧ s.2.length = 16 ∧ (∀ i, i < n → s.2.getD i 0 = Spec.word blk i)
      ∧ (∀ i, n ≤ i → s.2.getD i 0 = W.getD i 0) := by
  induction n with
  | zero => exact ⟨rfl, hW, fun i hi => absurd hi (by omega), fun _ _ => rfl⟩
  | succ n ih =>
    obtain ⟨h1, h2, h3, h4⟩ := ih (by omega)
    simp only [List.range_succ, List.foldl_append, List.foldl_cons, List.foldl_nil]
    generalize (List.range n).foldl (loop1 data) (h, W) = s at h1 h2 h3 h4
    have hw := hd s.2 n (by omega) h4
    simp only [loop1, hw]
    refine ⟨?_, by simp [h2], ?_, ?_⟩
    · rw [regs_succ, h1, turn_eq, K256_eq, schedule_first blk n (by omega)]
    · intro i hi
      rw [getD_set _ _ _ _ (by omega)]
      by_cases hin : i = n
      · rw [if_pos hin, hin]
      · rw [if_neg hin]; exact h3 i (by omega)
    · intro i hi
      rw [getD_set _ _ _ _ (by omega), if_neg (by omega)]
      exact h4 i (by omega)

theorem and15 (n : Nat) : n &&& 0x0f = n % 16 := Nat.and_two_pow_sub_one_eq_mod n 4

theorem loop2_spec (s0 : Words × List UInt32) (h : Words) (blk : Bytes)
    (h1 : s0.1 = regs h blk 16) (h2 : s0.2.length = 16)
    (h3 : ∀ i, i < 16 → s0.2.getD i 0 = Spec.word blk i) (n : Nat) (hn : n ≤ 48) :
    let s := (List.range' 16 n).foldl loop2 s0
    s.1 = regs h blk (16 + n) ∧ s.2.length = 16
      ∧ (∀ u, n ≤ u → u < 16 + n → s.2.getD (u % 16) 0 = (Spec.schedule blk).getD u 0) := by
  induction n with
  | zero =>
    refine ⟨h1, h2, ?_⟩
    intro u _ hu
    rw [show u % 16 = u by omega]
    exact (h3 u (by omega)).trans (schedule_first blk u (by omega)).symm
  | succ n ih =>
    obtain ⟨g1, g2, g3⟩ := ih (by omega)
    rw [show List.range' 16 (n + 1) = List.range' 16 n ++ [16 + n] from by
      rw [List.range'_1_concat]]
    simp only [List.foldl_append, List.foldl_cons, List.foldl_nil]
    generalize (List.range' 16 n).foldl loop2 s0 = s at g1 g2 g3
    have e1 : s.2.getD ((16 + n + 1) % 16) 0 = (Spec.schedule blk).getD (16 + n - 15) 0 := by
      rw [show (16 + n + 1) % 16 = (16 + n - 15) % 16 by omega]; exact g3 _ (by omega) (by omega)
    have e2 : s.2.getD ((16 + n + 14) % 16) 0 = (Spec.schedule blk).getD (16 + n - 2) 0 := by
      rw [show (16 + n + 14) % 16 = (16 + n - 2) % 16 by omega]; exact g3 _ (by omega) (by omega)
    have e3 : s.2.getD ((16 + n + 9) % 16) 0 = (Spec.schedule blk).getD (16 + n - 7) 0 := by
      rw [show (16 + n + 9) % 16 = (16 + n - 7) % 16 by omega]; exact g3 _ (by omega) (by omega)
    have e4 : s.2.getD ((16 + n) % 16) 0 = (Spec.schedule blk).getD (16 + n - 16) 0 := by
      rw [show (16 + n) % 16 = (16 + n - 16) % 16 by omega]; exact g3 _ (by omega) (by omega)
    have hw : s.2.getD ((16 + n) % 16) 0 + (sigma1 (s.2.getD ((16 + n + 14) % 16) 0)
        + s.2.getD ((16 + n + 9) % 16) 0 + sigma0 (s.2.getD ((16 + n + 1) % 16) 0))
        = (Spec.schedule blk).getD (16 + n) 0 := by
      rw [e1, e2, e3, e4, schedule_next blk (16 + n) (by omega) (by omega), sigma0_eq, sigma1_eq]
      exact UInt32.add_comm _ _
    simp only [loop2, and15, hw]
    refine ⟨?_, by simp [g2], ?_⟩
    · rw [show 16 + (n + 1) = (16 + n) + 1 by omega, regs_succ, g1, turn_eq, K256_eq]
    · intro u hu hu'
      rw [getD_set _ _ _ _ (by omega)]
      by_cases hun : u = 16 + n
      · rw [hun, if_pos rfl]
      · rw [if_neg (by omega)]; exact g3 u (by omega) (by omega)

/-! ### The whole transform -/

/-- The bytes `SHA256_Transform` reads. -/
def source (c : Ctx) : Option Bytes → Bytes
  | none => c.buffer
  | some d => d

theorem word_load (d : Bytes) (j : Nat) (hd : d.length = 64) (hj : j < 16) :
    reverse32 (load32 d j) = Spec.word d j := by
  rw [load32, reverse32_load _ (by simp; omega), Spec.word]

theorem work_regs (c : Ctx) (src : Option Bytes) (hs : (source c src).length = 64) :
    (work c src).1 = regs c.state (source c src) 64 := by
  have key : ∀ data : List UInt32 → Nat → UInt32,
      (∀ W' j, j < 16 → (∀ i, j ≤ i → W'.getD i 0 = ((List.range 16).map (load32 c.buffer)).getD i 0) →
        reverse32 (data W' j) = Spec.word (source c src) j) →
      ((List.range' 16 48).foldl loop2 ((List.range 16).foldl (loop1 data)
        (c.state, (List.range 16).map (load32 c.buffer)))).1 = regs c.state (source c src) 64 := by
    intro data hd
    generalize hW : (List.range 16).map (load32 c.buffer) = W at hd
    have hl : W.length = 16 := by rw [← hW]; simp
    obtain ⟨h1, h2, h3, -⟩ := loop1_spec data c.state W (source c src) hl hd 16 (Nat.le_refl _)
    generalize (List.range 16).foldl (loop1 data) (c.state, W) = s at h1 h2 h3
    obtain ⟨g1, -, -⟩ := loop2_spec s c.state (source c src) h1 h2 h3 48 (Nat.le_refl _)
    generalize (List.range' 16 48).foldl loop2 s = s' at g1
    exact g1
  unfold work
  cases src with
  | none =>
    refine key (fun W j => W.getD j 0) ?_
    intro W' j hj hW
    show reverse32 (W'.getD j 0) = _
    rw [hW j (Nat.le_refl _)]
    simp only [List.getD_eq_getElem?_getD, List.getElem?_map, List.getElem?_range hj,
      Option.map_some, Option.getD_some]
    exact word_load _ _ hs hj
  | some d => exact key (fun _ j => load32 d j) (fun _ j hj _ => word_load d j hs hj)

theorem compress_eq (h : Words) (blk : Bytes) : Spec.compress h blk = addState h (regs h blk 64) := by
  unfold Spec.compress regs addState
  rfl

theorem loop1_length (data) (s : Words × List UInt32) (j : Nat) : (loop1 data s j).2.length = s.2.length := by
  simp [loop1]
theorem loop2_length (s : Words × List UInt32) (j : Nat) : (loop2 s j).2.length = s.2.length := by
  simp [loop2]

theorem foldl_length {f : Words × List UInt32 → Nat → Words × List UInt32}
    (hf : ∀ s j, (f s j).2.length = s.2.length) (l : List Nat) (s) :
    (l.foldl f s).2.length = s.2.length := by
  induction l generalizing s with
  | nil => rfl
  | cons a l ih => rw [List.foldl_cons, ih, hf]

theorem flatMap_store_length (l : List UInt32) : (l.flatMap store32).length = 4 * l.length := by
  induction l with
  | nil => rfl
  | cons a l ih => simp only [List.flatMap_cons, List.length_append, ih, store32, toLE_length, List.length_cons]; omega

theorem work_length (c : Ctx) (src : Option Bytes) : (work c src).2.length = 16 := by
  have h : ∀ (data : List UInt32 → Nat → UInt32) (W : List UInt32), W.length = 16 →
      ((List.range' 16 48).foldl loop2 ((List.range 16).foldl (loop1 data) (c.state, W))).2.length = 16 := by
    intro data W hW
    have h1 := foldl_length (loop1_length data) (List.range 16) (c.state, W)
    generalize (List.range 16).foldl (loop1 data) (c.state, W) = s at h1
    have h2 := foldl_length loop2_length (List.range' 16 48) s
    generalize (List.range' 16 48).foldl loop2 s = s' at h2
    rw [h2, h1, hW]
  unfold work
  generalize hW : (List.range 16).map (load32 c.buffer) = W
  have hl : W.length = 16 := by rw [← hW]; simp
  cases src <;> exact h _ W hl

attribute [local irreducible] work

theorem transform_eq (c : Ctx) (src : Option Bytes) : transform c src =
    ⟨addState c.state (work c src).1, c.bitcount, (work c src).2.flatMap store32⟩ := by
  unfold transform; exact Eq.refl _

attribute [local irreducible] transform

theorem transform_state (c : Ctx) (src : Option Bytes) (hs : (source c src).length = 64) :
    (transform c src).state = Spec.compress c.state (source c src) := by
  rw [compress_eq, ← work_regs c src hs, transform_eq]

theorem transform_bitcount (c : Ctx) (src : Option Bytes) : (transform c src).bitcount = c.bitcount := by
  rw [transform_eq]

theorem transform_length (c : Ctx) (src : Option Bytes) : (transform c src).buffer.length = 64 := by
  have h := work_length c src
  rw [transform_eq, flatMap_store_length, h]

end Verif.RiotSha
