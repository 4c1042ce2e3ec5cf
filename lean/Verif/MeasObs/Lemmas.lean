import Verif.MeasObs.Model
import Verif.Pcr.Props
/-! Helper lemmas: what an update of one measurement does to the store. -/
namespace Verif.MeasObs
open Verif Pcr Spec

/-- The store with another measurement `t`. -/
def put (st : List Bank) (t : Nat) (m : Meas) : List Bank :=
  match st[t / 256]? with
  | some b => st.set (t / 256) (setMeas b (t % 256) m)
  | none => st

theorem lookup_iff {st : List Bank} {t : Nat} {a : Algo} {m : Meas} :
    lookup st t = some (a, m) ↔ ∃ b, st[t / 256]? = some b ∧ b.algo = a ∧ b.list[t % 256]? = some m := by
  unfold lookup
  cases h : st[t / 256]? with
  | none => simp
  | some b =>
    cases g : b.list[t % 256]? with
    | none => simp [g]
    | some m' => simp [g]

theorem lookup_put_self {st : List Bank} {t : Nat} {a : Algo} {m m' : Meas} (h : lookup st t = some (a, m)) :
    lookup (put st t m') t = some (a, m') := by
  obtain ⟨b, hb, ha, hm⟩ := lookup_iff.mp h
  have h1 := (List.getElem?_eq_some_iff.mp hb).1
  have h2 := (List.getElem?_eq_some_iff.mp hm).1
  rw [lookup_iff]
  refine ⟨setMeas b (t % 256) m', ?_, ha, ?_⟩
  · simp only [put, hb]; exact List.getElem?_set_self h1
  · simp only [setMeas]; exact List.getElem?_set_self h2

theorem lookup_put_ne {st : List Bank} {t t' : Nat} {m' : Meas} (ht : t ≠ t') : lookup (put st t m') t' = lookup st t' := by
  unfold put
  cases hb : st[t / 256]? with
  | none => rfl
  | some b =>
    have h1 := (List.getElem?_eq_some_iff.mp hb).1
    unfold lookup
    by_cases hp : t / 256 = t' / 256
    · have hi : t % 256 ≠ t' % 256 := by omega
      rw [← hp]
      simp only [List.getElem?_set_self h1, hb, Option.bind_some, setMeas, List.getElem?_set_ne hi]
    · rw [List.getElem?_set_ne hp]

/-- The measurement after an update with `data`. -/
def updated (H : Hash) (a : Algo) (m : Meas) (data : Bytes) : Meas :=
  { m with digest := H (.sha2 a) (toLE 4 m.event ++ [0] ++ data), config := mkConfig true true false, version := 0 }

theorem set_self {α : Type} (l : List α) (i : Nat) (x : α) (h : l[i]? = some x) : l.set i x = l := by
  obtain ⟨h1, h2⟩ := List.getElem?_eq_some_iff.mp h
  rw [← h2]; exact List.set_getElem_self h1

theorem update_some {H : Hash} (hH : GoodHash H) (f : Fail) {st : List Bank} {t : Nat} (ht : t < 65536) {a : Algo} {m : Meas}
    (h : lookup st t = some (a, m)) (d : Bytes) :
    update H f st t d = if f.1 ∨ f.2 then (st, .err .hash) else if m.isConstant then (st, .err .constantMeasurement)
      else (put st t (updated H a m d), .ok ()) := by
  obtain ⟨b, hb, rfl, hm⟩ := lookup_iff.mp h
  have h1 := (List.getElem?_eq_some_iff.mp hb).1
  obtain ⟨h2, h3⟩ := List.getElem?_eq_some_iff.mp hm
  have hp : pcrOf t = t / 256 := by unfold pcrOf; omega
  have hat : at' b (t % 256) = .ok m := by rw [at'_lt h2, h3]
  have hl : (H (.sha2 b.algo) (toLE 4 m.event ++ [0] ++ d)).length = b.algo.len := hH _ _
  unfold update onBank
  rw [hp, if_neg (by omega), hb]
  simp only [idxOf, updateBufferCommon, eventBytes, hat]
  rcases f with ⟨f1, f2⟩
  cases f1
  · cases f2
    · simp only [Bool.true_eq_false, false_and, if_false, if_true, or_self, Bool.false_eq_true, Option.toList_some]
      unfold updateDigestCommon
      rw [if_neg (by simp only [ne_eq, hl, not_true, not_false_eq_true]), if_neg (by omega), hat]
      simp only
      by_cases hc : m.isConstant = true
      · simp only [if_pos hc, set_self _ _ _ hb]
      · rw [if_neg hc, if_neg hc]
        simp only [put, hb, updated]
        rfl
    · simp [set_self _ _ _ hb]
  · simp [set_self _ _ _ hb]

theorem update_none {H : Hash} (f : Fail) {st : List Bank} {t : Nat} (ht : t < 65536) (h : lookup st t = none) (d : Bytes) :
    (update H f st t d).1 = st ∧ (update H f st t d).2 ≠ .ok () := by
  have hp : pcrOf t = t / 256 := by unfold pcrOf; omega
  unfold update onBank
  rw [hp]
  by_cases hl : t / 256 ≥ st.length
  · rw [if_pos hl]; simp
  · rw [if_neg hl]
    have hb := List.getElem?_eq_getElem (show t / 256 < st.length by omega)
    rw [hb]
    simp only [lookup, hb, Option.bind_some, Option.map_eq_none_iff] at h
    have hat : at' st[t / 256] (t % 256) = .oob := by unfold at'; rw [h]
    simp only [idxOf, updateBufferCommon, eventBytes, hat]
    rcases f with ⟨f1, f2⟩
    cases f1 <;> simp

end Verif.MeasObs
