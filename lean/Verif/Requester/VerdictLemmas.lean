import Verif.Requester.VerdictSpec
namespace Verif.Requester

theorem firstDiff_congr {f g : Nat → Int} : ∀ {l : List Nat}, (∀ i ∈ l, f i = g i) → firstDiff f l = firstDiff g l
  | [], _ => rfl
  | [i], h => by simp only [firstDiff, h i (by simp)]
  | i :: j :: rest, h => by
    have h1 := h i (by simp)
    have h2 := firstDiff_congr (l := j :: rest) fun k hk => h k (by simp [hk])
    simp only [firstDiff, h1, h2]

theorem firstDiff_map (f : Nat → Int) (g : Nat → Nat) : ∀ l : List Nat, firstDiff f (l.map g) = firstDiff (fun i => f (g i)) l
  | [] => rfl
  | [i] => rfl
  | i :: j :: rest => by
    have := firstDiff_map f g (j :: rest)
    simp only [List.map_cons] at this ⊢
    simp only [firstDiff, this]

/-- The sign of a comparison. -/
def Sign (r : Int) (a b : Nat) : Prop := (r = 0 ↔ a = b) ∧ (0 < r ↔ b < a)

theorem accepts_iff (c : Check) {r : Int} {a b : Nat} (h : Sign r a b) : accepts c r = true ↔ c.Holds a b := by
  obtain ⟨h0, h1⟩ := h
  unfold accepts
  by_cases e : r = 0
  · have := h0.1 e
    subst this
    cases c <;> simp [e, Check.Holds]
  · have hne : a ≠ b := fun x => e (h0.2 x)
    by_cases p : 0 < r
    · have := h1.1 p
      cases c <;> simp [e, p, Check.Holds] <;> omega
    · have : ¬ b < a := fun x => p (h1.2 x)
      cases c <;> simp [e, p, Check.Holds] <;> omega

/-- The difference of two strings at an index. -/
def dif (x y : Bytes) (i : Nat) : Int := ((x.getD i 0).toNat : Int) - ((y.getD i 0).toNat : Int)

theorem range_succ_map (n : Nat) : List.range (n + 1) = 0 :: (List.range n).map Nat.succ := List.range_succ_eq_map

theorem firstDiff_big : ∀ (x y : Bytes), x.length = y.length → x ≠ [] → ∃ r, firstDiff (dif x y) (List.range x.length) = some r ∧ Sign r (beNat x) (beNat y)
  | [], _, _, h => absurd rfl h
  | [a], [b], _, _ => by
    refine ⟨(a.toNat : Int) - b.toNat, rfl, ?_⟩
    simp only [Sign, beNat, List.length_nil, Nat.pow_zero, Nat.mul_one, Nat.add_zero]
    omega
  | a :: a' :: x, b :: y, h, _ => by
    have hl : (a' :: x).length = y.length := by simpa using h
    obtain ⟨r, h1, h2⟩ := firstDiff_big (a' :: x) y hl (by simp)
    have e : firstDiff (dif (a :: a' :: x) (b :: y)) (List.range (a :: a' :: x).length) =
        if ((a.toNat : Int) - b.toNat) ≠ 0 then some ((a.toNat : Int) - b.toNat) else firstDiff (dif (a' :: x) y) (List.range (a' :: x).length) := by
      have e1 : (List.range (a :: a' :: x).length) = 0 :: (List.range (a' :: x).length).map Nat.succ := range_succ_map _
      have e2 : firstDiff (dif (a :: a' :: x) (b :: y)) ((List.range (a' :: x).length).map Nat.succ) = firstDiff (dif (a' :: x) y) (List.range (a' :: x).length) := by
        rw [firstDiff_map]
        rfl
      rw [← e2, e1]
      have e3 : (List.range (a' :: x).length).map Nat.succ = 1 :: ((List.range x.length).map Nat.succ).map Nat.succ := by
        rw [show (a' :: x).length = x.length + 1 from rfl, range_succ_map]
        rfl
      rw [e3]
      rfl
    rw [e]
    have la := beNat_lt (a' :: x)
    have lb := beNat_lt y
    rw [← hl] at lb
    simp only [Sign]
    rw [beNat_cons a, beNat_cons b, ← hl]
    generalize hp : 256 ^ (a' :: x).length = p at *
    generalize beNat (a' :: x) = u at *
    generalize beNat y = v at *
    by_cases h0 : (a.toNat : Int) - b.toNat = 0
    · have : a.toNat = b.toNat := by omega
      simp only [h0, ne_eq, not_true_eq_false, if_false]
      refine ⟨r, h1, ?_⟩
      simp only [Sign] at h2
      rw [this]
      omega
    · simp only [ne_eq, h0, not_false_eq_true, if_true]
      refine ⟨_, rfl, ?_⟩
      rcases Nat.lt_or_gt_of_ne (show a.toNat ≠ b.toNat by omega) with c | c
      · have : (a.toNat + 1) * p ≤ b.toNat * p := Nat.mul_le_mul_right _ c
        rw [Nat.add_mul] at this
        omega
      · have : (b.toNat + 1) * p ≤ a.toNat * p := Nat.mul_le_mul_right _ c
        rw [Nat.add_mul] at this
        omega

theorem leNat_eq_beNat_reverse : ∀ x : Bytes, leNat x = beNat x.reverse
  | [] => rfl
  | a :: x => by
    rw [List.reverse_cons, beNat_append_singleton, ← leNat_eq_beNat_reverse x]
    simp only [leNat]
    omega

theorem range_reverse (n : Nat) : (List.range n).reverse = (List.range n).map fun i => n - 1 - i := by
  apply List.ext_getElem
  · simp
  · intro i h1 h2
    simp at h1 h2 ⊢

theorem dif_reverse (x y : Bytes) (h : x.length = y.length) (i : Nat) (hi : i < x.length) : dif x y (x.length - 1 - i) = dif x.reverse y.reverse i := by
  unfold dif
  rw [List.getD_eq_getElem?_getD, List.getD_eq_getElem?_getD, List.getD_eq_getElem?_getD, List.getD_eq_getElem?_getD,
    List.getElem?_reverse hi, List.getElem?_reverse (by omega), h]

theorem firstDiff_little (x y : Bytes) (h : x.length = y.length) (h0 : x ≠ []) :
    ∃ r, firstDiff (dif x y) (List.range x.length).reverse = some r ∧ Sign r (leNat x) (leNat y) := by
  obtain ⟨r, h1, h2⟩ := firstDiff_big x.reverse y.reverse (by simpa using h) (by simpa using h0)
  refine ⟨r, ?_, ?_⟩
  · rw [range_reverse, firstDiff_map, ← h1, List.length_reverse]
    exact firstDiff_congr fun i hi => dif_reverse x y h i (by simpa using hi)
  · rw [leNat_eq_beNat_reverse, leNat_eq_beNat_reverse]
    exact h2

theorem masked_length {mask : Option Bytes} {b : Bytes} (h : ∀ m, mask = some m → b.length ≤ m.length) : (masked mask b).length = b.length := by
  cases mask with
  | none => rfl
  | some m =>
    have := h m rfl
    simp only [masked, List.length_zipWith]
    omega

theorem masked_getD {mask : Option Bytes} {b : Bytes} (h : ∀ m, mask = some m → b.length ≤ m.length) {i : Nat} (hi : i < b.length) :
    (masked mask b).getD i 0 = maskByte mask i (b.getD i 0) := by
  cases mask with
  | none => rfl
  | some m =>
    have := h m rfl
    simp only [masked, maskByte, List.getD_eq_getElem?_getD, List.getElem?_zipWith]
    rw [List.getElem?_eq_getElem hi, List.getElem?_eq_getElem (by omega)]
    rfl

theorem diffAt_eq {mask : Option Bytes} {a e : Bytes} (h : ∀ m, mask = some m → a.length ≤ m.length) (hl : e.length = a.length) {i : Nat} (hi : i < a.length) :
    diffAt mask a e i = dif (masked mask a) (masked mask e) i := by
  unfold diffAt dif
  rw [masked_getD h hi, masked_getD (fun m hm => hl ▸ h m hm) (hl ▸ hi)]

end Verif.Requester
