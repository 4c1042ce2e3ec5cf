import Verif.CommonMath.Model
/-! Helper lemmas for `common_math.c`. -/
namespace Verif.CommonMath

theorem getD_mid (pre : Bytes) (x : UInt8) (post : Bytes) : (pre ++ x :: post).getD pre.length 0 = x := by
  simp [List.getD]

theorem set_mid (pre : Bytes) (x y : UInt8) (post : Bytes) :
    (pre ++ x :: post).set pre.length y = pre ++ y :: post := by
  simp

theorem exists_snoc (l : Bytes) (h : l ≠ []) : ∃ a b, l = a ++ [b] := by
  exact ⟨l.dropLast, l.getLast h, (List.dropLast_concat_getLast h).symm⟩

theorem incLoop_spec (n : Nat) : ∀ (pre : Bytes) (x : UInt8) (k : Nat), pre.length = n →
    ∃ pre' x' k', incLoop (pre ++ x :: List.replicate k 0) pre.length
        = (pre' ++ x' :: List.replicate k' 0, pre'.length) ∧
      pre ++ x :: List.replicate k 0xff = pre' ++ x' :: List.replicate k' 0xff ∧
      (pre' = [] ∨ x' ≠ 0xff) := by
  induction n with
  | zero =>
    intro pre x k h
    have : pre = [] := List.length_eq_zero_iff.mp h
    subst this
    exact ⟨[], x, k, rfl, rfl, .inl rfl⟩
  | succ n ih =>
    intro pre x k h
    by_cases hx : x = 0xff
    · obtain ⟨p, y, rfl⟩ := exists_snoc pre (by intro h'; simp [h'] at h)
      have hl : p.length = n := by simpa using h
      obtain ⟨pre', x', k', e1, e2, e3⟩ := ih p y (k+1) hl
      refine ⟨pre', x', k', ?_, ?_, e3⟩
      · rw [← e1, List.length_append]
        simp only [List.length_singleton, incLoop]
        rw [if_pos]
        · have := set_mid (p ++ [y]) x 0 (List.replicate k 0)
          simp only [List.length_append, List.length_singleton] at this
          rw [this]
          simp [List.replicate_succ]
        · have := getD_mid (p ++ [y]) x (List.replicate k 0)
          simp only [List.length_append, List.length_singleton] at this
          rw [this, hx]
      · rw [← e2, hx]; simp [List.replicate_succ]
    · refine ⟨pre, x, k, ?_, rfl, .inr hx⟩
      rw [h]
      simp only [incLoop]
      rw [if_neg]
      rw [← h, getD_mid]; exact hx

theorem decLoop_spec (n : Nat) : ∀ (pre : Bytes) (x : UInt8) (k : Nat), pre.length = n →
    ∃ pre' x' k', decLoop (pre ++ x :: List.replicate k 0xff) pre.length
        = (pre' ++ x' :: List.replicate k' 0xff, pre'.length) ∧
      pre ++ x :: List.replicate k 0 = pre' ++ x' :: List.replicate k' 0 ∧
      (pre' = [] ∨ x' ≠ 0) := by
  induction n with
  | zero =>
    intro pre x k h
    have : pre = [] := List.length_eq_zero_iff.mp h
    subst this
    exact ⟨[], x, k, rfl, rfl, .inl rfl⟩
  | succ n ih =>
    intro pre x k h
    by_cases hx : x = 0
    · obtain ⟨p, y, rfl⟩ := exists_snoc pre (by intro h'; simp [h'] at h)
      have hl : p.length = n := by simpa using h
      obtain ⟨pre', x', k', e1, e2, e3⟩ := ih p y (k+1) hl
      refine ⟨pre', x', k', ?_, ?_, e3⟩
      · rw [← e1, List.length_append]
        simp only [List.length_singleton, decLoop]
        rw [if_pos]
        · have := set_mid (p ++ [y]) x 0xff (List.replicate k 0xff)
          simp only [List.length_append, List.length_singleton] at this
          rw [this]
          simp [List.replicate_succ]
        · have := getD_mid (p ++ [y]) x (List.replicate k 0xff)
          simp only [List.length_append, List.length_singleton] at this
          rw [this, hx]
      · rw [← e2, hx]; simp [List.replicate_succ]
    · refine ⟨pre, x, k, ?_, rfl, .inr hx⟩
      rw [h]
      simp only [decLoop]
      rw [if_neg]
      rw [← h, getD_mid]; exact hx

theorem toNat_succ {x : UInt8} (h : x ≠ 0xff) : (x + 1).toNat = x.toNat + 1 := by
  have hx : x.toNat ≠ 255 := fun e => h (UInt8.toNat_inj.mp e)
  have := x.toNat_lt
  rw [UInt8.toNat_add]; simp only [UInt8.toNat_one]; omega

theorem toNat_pred {x : UInt8} (h : x ≠ 0) : (x - 1).toNat + 1 = x.toNat := by
  have hx : x.toNat ≠ 0 := fun e => h (UInt8.toNat_inj.mp e)
  have := x.toNat_lt
  rw [UInt8.toNat_sub]; simp only [UInt8.toNat_one]; omega

theorem isArrayZero_iff (l : Bytes) (h : l ≠ []) : isArrayZero l = true ↔ beNat l = 0 := by
  have key : ∀ (l : Bytes) z, l.foldl (fun z b => z && (b == 0)) z = true ↔ z = true ∧ beNat l = 0 := by
    intro l
    induction l with
    | nil => simp
    | cons b bs ih =>
      intro z
      simp only [List.foldl_cons, ih, Bool.and_eq_true, beq_iff_eq, beNat_cons, Nat.add_eq_zero_iff,
        Nat.mul_eq_zero, Nat.pow_eq_zero]
      have : b = 0 ↔ b.toNat = 0 := by
        rw [← UInt8.toNat_inj]; rfl
      rw [this]
      have h256 : ¬ ((256:Nat) = 0 ∧ bs.length ≠ 0) := by simp
      grind
  unfold isArrayZero
  rw [if_neg (by simpa using h), key]
  simp

theorem compareLoop_nonzero (a b : Bytes) (r : Int) (h : r ≠ 0) : compareLoop a b r = r := by
  induction a generalizing b with
  | nil => simp [compareLoop]
  | cons x xs ih => cases b with
    | nil => simp [compareLoop]
    | cons y ys => simp [compareLoop, h, ih]

theorem compareLoop_spec (a b : Bytes) (hl : a.length = b.length) :
    (compareLoop a b 0 = 0 ↔ beNat a = beNat b) ∧ (0 < compareLoop a b 0 ↔ beNat b < beNat a) := by
  induction a generalizing b with
  | nil => cases b with
    | nil => simp [compareLoop]
    | cons => simp at hl
  | cons x xs ih => cases b with
    | nil => simp at hl
    | cons y ys =>
      simp only [List.length_cons, Nat.add_right_cancel_iff] at hl
      simp only [compareLoop, if_true, beNat_cons, hl]
      have h1 := beNat_lt xs
      have h2 := beNat_lt ys
      rw [hl] at h1
      generalize hP : 256 ^ ys.length = P at *
      by_cases e : x.toNat = y.toNat
      · rw [show (x.toNat : Int) - y.toNat = 0 by omega]
        obtain ⟨i1, i2⟩ := ih ys hl
        rw [i1, i2, e]
        omega
      · rw [compareLoop_nonzero _ _ _ (by omega)]
        rcases Nat.lt_or_gt_of_ne e with hlt | hgt
        · have : (x.toNat + 1) * P ≤ y.toNat * P := Nat.mul_le_mul_right _ hlt
          rw [Nat.add_mul] at this
          omega
        · have : (y.toNat + 1) * P ≤ x.toNat * P := Nat.mul_le_mul_right _ hgt
          rw [Nat.add_mul] at this
          omega

/-- Structural form of a right shift by less than a byte, with the byte to the left. -/
def shr (s : Nat) : UInt8 → Bytes → Bytes
  | _, [] => []
  | c, b :: bs => shrByte s c b :: shr s b bs

theorem shr_getElem? (s : Nat) (c : UInt8) (l : Bytes) (j : Nat) :
    (shr s c l)[j]? = (l[j]?).map (fun b => shrByte s (if j = 0 then c else l.getD (j-1) 0) b) := by
  induction l generalizing c j with
  | nil => simp [shr]
  | cons b bs ih =>
    cases j with
    | zero => simp [shr]
    | succ j =>
      simp only [shr, List.getElem?_cons_succ, ih]
      cases j <;> simp

theorem shrLoop_getElem? (s stop i : Nat) (l : Bytes) (j : Nat) :
    (shrLoop s stop i l)[j]? =
      if stop < j ∧ j ≤ i then (l[j]?).map (fun b => shrByte s (l.getD (j-1) 0) b) else l[j]? := by
  induction i generalizing l with
  | zero => simp only [shrLoop]; rw [if_neg (by omega)]
  | succ i ih =>
    simp only [shrLoop]
    split
    · rename_i h
      rw [ih]
      by_cases hj : j = i + 1
      · subst hj
        rw [if_neg (by omega), if_pos (by omega)]
        simp only [List.getElem?_set, if_true, Nat.add_sub_cancel]
        split
        · rename_i hl; simp [List.getD, hl]
        · rename_i hl; simp [List.getElem?_eq_none (Nat.le_of_not_lt hl)]
      · by_cases hc : stop < j ∧ j ≤ i
        · rw [if_pos hc, if_pos (by omega)]
          have e1 : (l.set (i + 1) (shrByte s (l.getD i 0) (l.getD (i + 1) 0)))[j]? = l[j]? := by
            rw [List.getElem?_set, if_neg (by omega)]
          have e2 : (l.set (i + 1) (shrByte s (l.getD i 0) (l.getD (i + 1) 0))).getD (j-1) 0 = l.getD (j-1) 0 := by
            simp only [List.getD]
            rw [List.getElem?_set, if_neg (by omega)]
          rw [e1, e2]
        · rw [if_neg hc, if_neg (by omega), List.getElem?_set, if_neg (by omega)]
    · rename_i h
      rw [if_neg (by omega)]

theorem shrByte_toNat (s : Nat) (hs : s < 8) (c b : UInt8) :
    (shrByte s c b).toNat = (c.toNat % 2 ^ s) * 2 ^ (8 - s) + b.toNat / 2 ^ s := by
  have hb := b.toNat_lt
  unfold shrByte
  have h1 : b.toNat >>> s < 2 ^ (8 - s) := by
    rw [Nat.shiftRight_eq_div_pow, Nat.div_lt_iff_lt_mul (Nat.pow_pos (by decide)), ← Nat.pow_add]
    rw [show 8 - s + s = 8 by omega]; omega
  rw [← Nat.shiftLeft_add_eq_or_of_lt h1, UInt8.toNat_ofNat', Nat.shiftLeft_eq, Nat.shiftRight_eq_div_pow]
  rw [Nat.shiftRight_eq_div_pow] at h1
  have e : 2 ^ 8 = 2 ^ s * 2 ^ (8 - s) := by rw [← Nat.pow_add, show s + (8 - s) = 8 by omega]
  have hm : (c.toNat * 2 ^ (8 - s)) % 2 ^ 8 = (c.toNat % 2 ^ s) * 2 ^ (8 - s) := by
    rw [e, Nat.mul_mod_mul_right]
  have hlt : (c.toNat % 2 ^ s) * 2 ^ (8 - s) + b.toNat / 2 ^ s < 2 ^ 8 := by
    have : c.toNat % 2 ^ s < 2 ^ s := Nat.mod_lt _ (Nat.pow_pos (by decide))
    have : (c.toNat % 2 ^ s + 1) * 2 ^ (8 - s) ≤ 2 ^ s * 2 ^ (8 - s) := Nat.mul_le_mul_right _ this
    rw [Nat.add_mul] at this
    rw [e]; omega
  rw [Nat.add_mod, hm]
  have h2 : b.toNat / 2 ^ s % 2 ^ 8 = b.toNat / 2 ^ s := Nat.mod_eq_of_lt (by
    have := Nat.div_le_self b.toNat (2 ^ s); omega)
  rw [h2, Nat.mod_eq_of_lt hlt]

theorem beNat_shr (s : Nat) (hs : s < 8) (c : UInt8) (l : Bytes) :
    beNat (shr s c l) = ((c.toNat % 2 ^ s) * 256 ^ l.length + beNat l) / 2 ^ s := by
  have hp : 0 < 2 ^ s := Nat.pow_pos (by decide)
  have e : 256 = 2 ^ s * 2 ^ (8 - s) := by rw [← Nat.pow_add, show s + (8 - s) = 8 by omega]
  have shrlen : ∀ (c : UInt8) (l : Bytes), (shr s c l).length = l.length := by
    intro c l
    induction l generalizing c with
    | nil => rfl
    | cons b bs ih => simp [shr, ih]
  induction l generalizing c with
  | nil =>
    simp only [shr, beNat_nil, List.length_nil, Nat.pow_zero, Nat.mul_one, Nat.add_zero]
    exact (Nat.div_eq_of_lt (Nat.mod_lt _ hp)).symm
  | cons b bs ih =>
    simp only [shr, beNat_cons, ih, shrByte_toNat s hs, shrlen, List.length_cons]
    generalize hK : 256 ^ bs.length = K
    have hK1 : 256 ^ (bs.length + 1) = 2 ^ s * (2 ^ (8 - s) * K) := by
      rw [Nat.pow_succ, hK, Nat.mul_comm]; conv => lhs; rw [e]
      rw [Nat.mul_assoc]
    rw [hK1]
    have hb : b.toNat = 2 ^ s * (b.toNat / 2 ^ s) + b.toNat % 2 ^ s := (Nat.div_add_mod _ _).symm
    have : c.toNat % 2 ^ s * (2 ^ s * (2 ^ (8 - s) * K)) + (b.toNat * K + beNat bs)
        = 2 ^ s * (c.toNat % 2 ^ s * 2 ^ (8 - s) * K + (b.toNat / 2 ^ s) * K) + (b.toNat % 2 ^ s * K + beNat bs) := by
      conv => lhs; rw [hb]
      simp only [Nat.mul_add, Nat.add_mul]
      have e1 : c.toNat % 2 ^ s * (2 ^ s * (2 ^ (8 - s) * K)) = 2 ^ s * (c.toNat % 2 ^ s * 2 ^ (8 - s) * K) := by
        rw [Nat.mul_left_comm, Nat.mul_assoc (c.toNat % 2 ^ s)]
      rw [e1, Nat.mul_assoc (2 ^ s) (b.toNat / 2 ^ s) K]
      omega
    rw [this, Nat.mul_add_div hp, Nat.add_mul]

/-- Structural form of a left shift by less than a byte. -/
def shl (s : Nat) : Bytes → Bytes
  | [] => []
  | b :: bs => shlByte s b (bs.headD 0) :: shl s bs

theorem shl_getElem? (s : Nat) (l : Bytes) (j : Nat) :
    (shl s l)[j]? = (l[j]?).map (fun b => shlByte s b (l.getD (j+1) 0)) := by
  induction l generalizing j with
  | nil => simp [shl]
  | cons b bs ih =>
    cases j with
    | zero => cases bs <;> simp [shl]
    | succ j => simp only [shl, List.getElem?_cons_succ, ih]; simp

theorem shlLoop_getElem? (s n i : Nat) (l : Bytes) (j : Nat) :
    (shlLoop s n i l)[j]? =
      if i ≤ j ∧ j < i + n then (l[j]?).map (fun b => shlByte s b (l.getD (j+1) 0)) else l[j]? := by
  induction n generalizing l i with
  | zero => simp only [shlLoop]; rw [if_neg (by omega)]
  | succ n ih =>
    simp only [shlLoop]
    rw [ih]
    by_cases hj : j = i
    · subst hj
      rw [if_neg (by omega), if_pos (by omega)]
      simp only [List.getElem?_set, if_true]
      split
      · rename_i hl; simp [List.getD, hl]
      · rename_i hl; simp [List.getElem?_eq_none (Nat.le_of_not_lt hl)]
    · by_cases hc : i ≤ j ∧ j < i + (n + 1)
      · rw [if_pos hc, if_pos (by omega)]
        have e1 : (l.set i (shlByte s (l.getD i 0) (l.getD (i + 1) 0)))[j]? = l[j]? := by
          rw [List.getElem?_set, if_neg (by omega)]
        have e2 : (l.set i (shlByte s (l.getD i 0) (l.getD (i + 1) 0))).getD (j+1) 0 = l.getD (j+1) 0 := by
          simp only [List.getD]
          rw [List.getElem?_set, if_neg (by omega)]
        rw [e1, e2]
      · rw [if_neg hc, if_neg (by omega), List.getElem?_set, if_neg (by omega)]

theorem shlByte_toNat (s : Nat) (hs : s < 8) (b c : UInt8) :
    (shlByte s b c).toNat = (b.toNat % 2 ^ (8 - s)) * 2 ^ s + c.toNat / 2 ^ (8 - s) := by
  have hc := c.toNat_lt
  unfold shlByte
  have h1 : c.toNat >>> (8 - s) < 2 ^ s := by
    rw [Nat.shiftRight_eq_div_pow, Nat.div_lt_iff_lt_mul (Nat.pow_pos (by decide)), ← Nat.pow_add]
    rw [show s + (8 - s) = 8 by omega]; omega
  rw [← Nat.shiftLeft_add_eq_or_of_lt h1, UInt8.toNat_ofNat', Nat.shiftLeft_eq, Nat.shiftRight_eq_div_pow]
  rw [Nat.shiftRight_eq_div_pow] at h1
  have e : 2 ^ 8 = 2 ^ (8 - s) * 2 ^ s := by rw [← Nat.pow_add, show 8 - s + s = 8 by omega]
  have hm : (b.toNat * 2 ^ s) % 2 ^ 8 = (b.toNat % 2 ^ (8 - s)) * 2 ^ s := by
    rw [e, Nat.mul_mod_mul_right]
  have hlt : (b.toNat % 2 ^ (8 - s)) * 2 ^ s + c.toNat / 2 ^ (8 - s) < 2 ^ 8 := by
    have : b.toNat % 2 ^ (8 - s) < 2 ^ (8 - s) := Nat.mod_lt _ (Nat.pow_pos (by decide))
    have : (b.toNat % 2 ^ (8 - s) + 1) * 2 ^ s ≤ 2 ^ (8 - s) * 2 ^ s := Nat.mul_le_mul_right _ this
    rw [Nat.add_mul] at this
    rw [e]; omega
  rw [Nat.add_mod, hm]
  have h2 : c.toNat / 2 ^ (8 - s) % 2 ^ 8 = c.toNat / 2 ^ (8 - s) := Nat.mod_eq_of_lt (by
    have := Nat.div_le_self c.toNat (2 ^ (8 - s)); omega)
  rw [h2, Nat.mod_eq_of_lt hlt]

theorem shl_length (s : Nat) (l : Bytes) : (shl s l).length = l.length := by
  induction l with
  | nil => rfl
  | cons b bs ih => simp [shl, ih]

/-- Exact (unreduced) statement: shifting moves the top `s` bits out. -/
theorem beNat_shl_exact (s : Nat) (hs : s < 8) (l : Bytes) :
    ((l.headD 0).toNat / 2 ^ (8 - s)) * 256 ^ l.length + beNat (shl s l) = beNat l * 2 ^ s := by
  have e : 256 = 2 ^ (8 - s) * 2 ^ s := by rw [← Nat.pow_add, show 8 - s + s = 8 by omega]
  induction l with
  | nil =>
    simp only [List.headD_nil, shl, beNat_nil, UInt8.toNat_zero, Nat.zero_div]; omega
  | cons b bs ih =>
    simp only [shl, beNat_cons, List.headD_cons, List.length_cons, shl_length, shlByte_toNat s hs]
    generalize hK : 256 ^ bs.length = K at *
    have hK1 : 256 ^ (bs.length + 1) = K * (2 ^ (8 - s) * 2 ^ s) := by
      rw [Nat.pow_succ, hK, ← e]
    rw [hK1, Nat.add_mul, Nat.add_mul, ← ih]
    have hb : b.toNat = 2 ^ (8-s) * (b.toNat / 2 ^ (8-s)) + b.toNat % 2 ^ (8-s) := (Nat.div_add_mod _ _).symm
    have : b.toNat * K * 2 ^ s = b.toNat / 2 ^ (8 - s) * (K * (2 ^ (8 - s) * 2 ^ s)) + b.toNat % 2 ^ (8 - s) * 2 ^ s * K := by
      conv => lhs; rw [hb]
      generalize b.toNat / 2 ^ (8 - s) = q
      generalize b.toNat % 2 ^ (8 - s) = r
      generalize 2 ^ (8 - s) = u
      generalize 2 ^ s = v
      simp only [Nat.add_mul]
      have a1 : u * q * K * v = q * (K * (u * v)) := by
        simp only [Nat.mul_left_comm, Nat.mul_comm]
      have a2 : r * K * v = r * v * K := by rw [Nat.mul_right_comm]
      omega
    omega

theorem beNat_shl (s : Nat) (hs : s < 8) (l : Bytes) :
    beNat (shl s l) = beNat l * 2 ^ s % 256 ^ l.length := by
  rw [← beNat_shl_exact s hs l, Nat.add_comm, Nat.add_mul_mod_self_right, Nat.mod_eq_of_lt]
  have := beNat_lt (shl s l)
  rwa [shl_length] at this

end Verif.CommonMath
