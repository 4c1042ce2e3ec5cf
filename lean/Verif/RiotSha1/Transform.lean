import Verif.RiotSha1.Model
import Verif.RiotSha1.Spec
import Verif.RiotSha.Transform
import Mathlib.Tactic.IntervalCases
/-! One call of `SHA1_Transform` is the compression of FIPS 180-4. -/
namespace Verif.RiotSha1
open Spec (Words)
open RiotSha.Spec (word)
open RiotSha (load32 store32 reverse32 reverse32_bits reverse32_load getD_set flatMap_store_length)

theorem swap_bits (x : UInt32) (i : Nat) (h : i < 32) :
    (swap x).toBitVec.getLsbD i = x.toBitVec.getLsbD (24 - 8 * (i / 8) + i % 8) := by
  simp only [swap, rol]
  interval_cases i <;> simp

theorem swap_eq (x : UInt32) : swap x = reverse32 x := by
  apply UInt32.toBitVec_inj.mp
  apply BitVec.eq_of_getLsbD_eq
  intro i hi
  rw [swap_bits x i hi, reverse32_bits x i hi]

theorem ch_eq (x y z : UInt32) : (x &&& (y ^^^ z)) ^^^ z = RiotSha.Spec.ch x y z := by
  apply UInt32.toBitVec_inj.mp
  apply BitVec.eq_of_getLsbD_eq
  intro i hi
  simp only [RiotSha.Spec.ch, UInt32.toBitVec_xor, UInt32.toBitVec_and, UInt32.toBitVec_not, BitVec.getLsbD_xor,
    BitVec.getLsbD_and, BitVec.getLsbD_not, hi, decide_true, Bool.true_and]
  cases x.toBitVec.getLsbD i <;> cases y.toBitVec.getLsbD i <;> cases z.toBitVec.getLsbD i <;> rfl

theorem maj_eq (x y z : UInt32) : ((x ||| y) &&& z) ||| (x &&& y) = RiotSha.Spec.maj x y z := by
  apply UInt32.toBitVec_inj.mp
  apply BitVec.eq_of_getLsbD_eq
  intro i hi
  simp only [RiotSha.Spec.maj, UInt32.toBitVec_xor, UInt32.toBitVec_and, UInt32.toBitVec_or, BitVec.getLsbD_xor,
    BitVec.getLsbD_and, BitVec.getLsbD_or]
  cases x.toBitVec.getLsbD i <;> cases y.toBitVec.getLsbD i <;> cases z.toBitVec.getLsbD i <;> rfl

theorem fn_eq (i : Nat) (x y z : UInt32) : fn i x y z = Spec.f i x y z := by
  simp only [fn, Spec.f, ch_eq, maj_eq]

theorem const_eq (i : Nat) : const i = Spec.K i := by
  simp only [const, Spec.K]
  split
  · decide +kernel
  · split
    · decide +kernel
    · split <;> decide +kernel

theorem rol_eq (x n : UInt32) : rol x n = Spec.rotl n x := rfl

/-- The working variables of FIPS 180-4 before step `i`: the names rotate. -/
def view (i : Nat) (r : Regs) : Words :=
  match i % 5 with
  | 0 => ⟨r.a, r.b, r.c, r.d, r.e⟩
  | 1 => ⟨r.e, r.a, r.b, r.c, r.d⟩
  | 2 => ⟨r.d, r.e, r.a, r.b, r.c⟩
  | 3 => ⟨r.c, r.d, r.e, r.a, r.b⟩
  | _ => ⟨r.b, r.c, r.d, r.e, r.a⟩

theorem sum_eq (z f u k v : UInt32) : z + (f + u + k + v) = v + f + z + k + u := by ac_rfl

theorem op_view (i : Nat) (u : UInt32) (r : Regs) : view (i + 1) (op i u r) = Spec.step (view i r) i u := by
  have h5 : i % 5 < 5 := Nat.mod_lt _ (by omega)
  have h1 : (i + 1) % 5 = (i % 5 + 1) % 5 := by omega
  unfold view op
  rw [h1]
  generalize i % 5 = k at h5
  interval_cases k <;> simp only [Spec.step, fn_eq, const_eq, rol_eq, sum_eq]

/-! ### The message schedule -/

/-- The schedule after `n` words have been appended. -/
def sched (blk : Bytes) (n : Nat) : List UInt32 :=
  (List.range n).foldl
    (fun W _ =>
      let t := W.length
      W ++ [Spec.rotl 1 (W.getD (t - 3) 0 ^^^ W.getD (t - 8) 0 ^^^ W.getD (t - 14) 0 ^^^ W.getD (t - 16) 0)])
    ((List.range 16).map (word blk))

theorem sched_succ (blk : Bytes) (n : Nat) :
    sched blk (n + 1) = sched blk n ++
      [Spec.rotl 1 ((sched blk n).getD ((sched blk n).length - 3) 0 ^^^ (sched blk n).getD ((sched blk n).length - 8) 0
        ^^^ (sched blk n).getD ((sched blk n).length - 14) 0 ^^^ (sched blk n).getD ((sched blk n).length - 16) 0)] := by
  simp only [sched, List.range_succ, List.foldl_append, List.foldl_cons, List.foldl_nil]

theorem sched_length (blk : Bytes) (n : Nat) : (sched blk n).length = 16 + n := by
  induction n with
  | zero => simp [sched]
  | succ n ih => rw [sched_succ, List.length_append, ih]; simp; omega

theorem sched_stable (blk : Bytes) (n k t : Nat) (h : t < 16 + n) :
    (sched blk (n + k)).getD t 0 = (sched blk n).getD t 0 := by
  induction k with
  | zero => rfl
  | succ k ih =>
    rw [← Nat.add_assoc, sched_succ, List.getD_eq_getElem?_getD, List.getElem?_append_left,
      ← List.getD_eq_getElem?_getD, ih]
    rw [sched_length]; omega

theorem schedule_eq (blk : Bytes) : Spec.schedule blk = sched blk 64 := rfl

theorem schedule_first (blk : Bytes) (t : Nat) (h : t < 16) :
    (Spec.schedule blk).getD t 0 = word blk t := by
  have := sched_stable blk 0 64 t (by omega)
  rw [Nat.zero_add] at this
  rw [schedule_eq, this]
  simp [sched, h]

theorem schedule_next (blk : Bytes) (t : Nat) (h : 16 ≤ t) (h' : t < 80) :
    (Spec.schedule blk).getD t 0 =
      Spec.rotl 1 ((Spec.schedule blk).getD (t - 3) 0 ^^^ (Spec.schedule blk).getD (t - 8) 0
        ^^^ (Spec.schedule blk).getD (t - 14) 0 ^^^ (Spec.schedule blk).getD (t - 16) 0) := by
  have st : ∀ k n u, n + k = 64 → u < 16 + n → (Spec.schedule blk).getD u 0 = (sched blk n).getD u 0 := by
    intro k n u hk hu
    rw [schedule_eq, ← hk]
    exact sched_stable blk n k u hu
  rw [st (80 - t - 1) (t - 16 + 1) t (by omega) (by omega),
    st (80 - t) (t - 16) (t - 3) (by omega) (by omega),
    st (80 - t) (t - 16) (t - 8) (by omega) (by omega),
    st (80 - t) (t - 16) (t - 14) (by omega) (by omega),
    st (80 - t) (t - 16) (t - 16) (by omega) (by omega), sched_succ]
  have hl := sched_length blk (t - 16)
  have ht : 16 + (t - 16) = t := by omega
  rw [ht] at hl
  rw [List.getD_eq_getElem?_getD, List.getElem?_append_right (by omega), hl]
  simp

/-! ### The operations -/

/-- The working variables of FIPS 180-4 after `n` steps. -/
def regs (h : Words) (blk : Bytes) (n : Nat) : Words :=
  (List.range n).foldl (fun r t => Spec.step r t ((Spec.schedule blk).getD t 0)) h

theorem regs_succ (h : Words) (blk : Bytes) (n : Nat) :
    regs h blk (n + 1) = Spec.step (regs h blk n) n ((Spec.schedule blk).getD n 0) := by
  simp only [regs, List.range_succ, List.foldl_append, List.foldl_cons, List.foldl_nil]

theorem and15 (n : Nat) : n &&& 15 = n % 16 := Nat.and_two_pow_sub_one_eq_mod n 4

theorem turns_spec (h : Regs) (buf : Bytes) (hb : buf.length = 64) (n : Nat) (hn : n ≤ 80) :
    let s := (List.range n).foldl turn (h, (List.range 16).map (load32 buf))
    view n s.1 = regs (view 0 h) buf n ∧ s.2.length = 16 ∧
      (∀ u, n ≤ u + 16 → u < n → s.2.getD (u % 16) 0 = (Spec.schedule buf).getD u 0) ∧
      (∀ i, n ≤ i → i < 16 → s.2.getD i 0 = load32 buf i) := by
  induction n with
  | zero =>
    refine ⟨rfl, by simp, fun u _ hu => absurd hu (by omega), ?_⟩
    intro i _ hi
    simp [List.getD_eq_getElem?_getD, hi]
  | succ n ih =>
    obtain ⟨g1, g2, g3, g4⟩ := ih (by omega)
    simp only [List.range_succ (n := n), List.foldl_append, List.foldl_cons, List.foldl_nil]
    generalize (List.range n).foldl turn (h, (List.range 16).map (load32 buf)) = s at g1 g2 g3 g4
    by_cases h16 : n < 16
    · have hw : swap (s.2.getD n 0) = (Spec.schedule buf).getD n 0 := by
        rw [g4 n (Nat.le_refl _) h16, swap_eq, schedule_first buf n h16]
        exact RiotSha.word_load buf n hb h16
      simp only [turn, if_pos h16, hw]
      refine ⟨?_, by simp [g2], ?_, ?_⟩
      · rw [op_view, g1, regs_succ]
      · intro u hu hu'
        rw [getD_set _ _ _ _ (by omega)]
        by_cases hun : u = n
        · rw [hun, if_pos (Nat.mod_eq_of_lt h16)]
        · rw [if_neg (by omega)]; exact g3 u (by omega) (by omega)
      · intro i hi hi'
        rw [getD_set _ _ _ _ (by omega), if_neg (by omega)]
        exact g4 i (by omega) hi'
    · have e1 : s.2.getD ((n + 13) % 16) 0 = (Spec.schedule buf).getD (n - 3) 0 := by
        rw [show (n + 13) % 16 = (n - 3) % 16 by omega]; exact g3 _ (by omega) (by omega)
      have e2 : s.2.getD ((n + 8) % 16) 0 = (Spec.schedule buf).getD (n - 8) 0 := by
        rw [show (n + 8) % 16 = (n - 8) % 16 by omega]; exact g3 _ (by omega) (by omega)
      have e3 : s.2.getD ((n + 2) % 16) 0 = (Spec.schedule buf).getD (n - 14) 0 := by
        rw [show (n + 2) % 16 = (n - 14) % 16 by omega]; exact g3 _ (by omega) (by omega)
      have e4 : s.2.getD (n % 16) 0 = (Spec.schedule buf).getD (n - 16) 0 := by
        rw [show n % 16 = (n - 16) % 16 by omega]; exact g3 _ (by omega) (by omega)
      have hw : blk s.2 n = (Spec.schedule buf).getD n 0 := by
        rw [blk, and15, and15, and15, and15, e1, e2, e3, e4, schedule_next buf n (by omega) (by omega), rol_eq]
      simp only [turn, if_neg h16, hw, and15]
      refine ⟨?_, by simp [g2], ?_, fun i hi hi' => absurd hi' (by omega)⟩
      · rw [op_view, g1, regs_succ]
      · intro u hu hu'
        rw [getD_set _ _ _ _ (by omega)]
        by_cases hun : u = n
        · rw [hun, if_pos rfl]
        · rw [if_neg (by omega)]; exact g3 u (by omega) (by omega)

/-- The state as the hash value of FIPS 180-4. -/
def toWords (r : Regs) : Words := ⟨r.a, r.b, r.c, r.d, r.e⟩

theorem work_spec (h : Regs) (buf : Bytes) (hb : buf.length = 64) :
    toWords (work h buf).1 = regs (toWords h) buf 80 ∧ (work h buf).2.length = 16 := by
  have t := turns_spec h buf hb 80 (Nat.le_refl _)
  unfold work
  generalize (List.range 80).foldl turn (h, (List.range 16).map (load32 buf)) = s at t
  exact ⟨t.1, t.2.1⟩

theorem compress_eq (h : Words) (b : Bytes) : Spec.compress h b =
    ⟨h.a + (regs h b 80).a, h.b + (regs h b 80).b, h.c + (regs h b 80).c, h.d + (regs h b 80).d, h.e + (regs h b 80).e⟩ := by
  unfold Spec.compress regs
  rfl

attribute [local irreducible] work

theorem transform_eq (c : Ctx) : transform c =
    ⟨addState c.state (work c.state c.buffer).1, c.count0, c.count1, (work c.state c.buffer).2.flatMap store32⟩ := by
  unfold transform; exact Eq.refl _

theorem add_eq (h r : Regs) : toWords (addState h r) =
    ⟨(toWords h).a + (toWords r).a, (toWords h).b + (toWords r).b, (toWords h).c + (toWords r).c,
      (toWords h).d + (toWords r).d, (toWords h).e + (toWords r).e⟩ := rfl

attribute [local irreducible] transform

theorem transform_state (c : Ctx) (hb : c.buffer.length = 64) :
    toWords (transform c).state = Spec.compress (toWords c.state) c.buffer := by
  have w := (work_spec c.state c.buffer hb).1
  rw [compress_eq, ← w, transform_eq]
  exact add_eq _ _

theorem transform_length (c : Ctx) (hb : c.buffer.length = 64) : (transform c).buffer.length = 64 := by
  have w := (work_spec c.state c.buffer hb).2
  rw [transform_eq, flatMap_store_length, w]

theorem transform_count0 (c : Ctx) : (transform c).count0 = c.count0 := by rw [transform_eq]
theorem transform_count1 (c : Ctx) : (transform c).count1 = c.count1 := by rw [transform_eq]

end Verif.RiotSha1
