import Verif.Attest.Spec
/-! The properties of the responder. -/
namespace Verif.Attest

theorem missing_false {d : Option Bytes} : missing d = false ↔ ∃ x, d = some x ∧ x ≠ [] := by
  cases d with
  | none => simp [missing]
  | some x => cases x <;> simp [missing]

theorem usable_iff {c : Certs} {slot : Nat} : (¬ slot > 1 ∧ auxCheck c slot = none ∧ keysCheck c slot = none) ↔ Usable c slot := by
  unfold Usable auxCheck keysCheck
  rw [← missing_false]
  have h2 := missing_false (d := c.alias)
  constructor
  · rintro ⟨h0, h1, h3⟩
    cases hd : missing c.devid with
    | true => rw [hd] at h3; cases h3
    | false =>
      refine ⟨rfl, ?_⟩
      rcases Nat.lt_or_ge slot 1 with hs | hs
      · have : slot = 0 := by omega
        subst this
        cases ha : missing c.alias with
        | true => rw [hd, ha] at h3; cases h3
        | false => exact .inl ⟨rfl, h2.mp ha⟩
      · have : slot = 1 := by omega
        subst this
        refine .inr ⟨rfl, ?_⟩
        rw [if_pos rfl] at h1
        split at h1
        · cases h1
        · cases h1
        · rename_i a ha; exact ⟨a, ha⟩
  · rintro ⟨hd, h⟩
    rw [hd]
    rcases h with ⟨rfl, ha⟩ | ⟨rfl, a, ha⟩
    · rw [← h2] at ha
      rw [ha]
      exact ⟨by omega, rfl, rfl⟩
    · rw [ha]; exact ⟨by omega, rfl, rfl⟩

theorem lastCert_some {c : Certs} {slot : Nat} (h : Usable c slot) : ∃ l d, c.devid = some d ∧ lastCert c slot = some l ∧ chain c slot = c.root.toList ++ c.inter.toList ++ [d, l] := by
  obtain ⟨⟨d, hd, -⟩, h⟩ := h
  rcases h with ⟨rfl, a, ha, -⟩ | ⟨rfl, a, ha⟩
  · exact ⟨a, d, hd, by rw [lastCert, if_pos rfl, ha], by simp [chain, hd, ha]⟩
  · exact ⟨a, d, hd, by rw [lastCert, if_neg (by omega), ha]; rfl, by simp [chain, hd, ha]⟩

/-- A certificate is given exactly if the slot can be used and has so many certificates, and it is the one at this place of the chain, if there is no intermediate CA without root CA. -/
theorem certificate_exact_partial (c : Certs) (hi : c.inter ≠ none → c.root ≠ none) (slot num : Nat) (r : Option Bytes) :
    getCertificate c c slot num = .ok r ↔ Usable c slot ∧ num < (chain c slot).length ∧ r = (chain c slot)[num]? := by
  unfold getCertificate
  by_cases hs : slot > 1
  · rw [if_pos hs]
    exact ⟨fun h => (by cases h), fun h => absurd hs (usable_iff.mpr h.1).1⟩
  · rw [if_neg hs]
    by_cases hu : Usable c slot
    · obtain ⟨-, h1, h2⟩ := usable_iff.mpr hu
      obtain ⟨l, d, e1, e2, e3⟩ := lastCert_some hu
      rw [h1, h2, e1, e2, e3]
      cases hr : c.root with
      | none =>
        have : c.inter = none := by
          cases hx : c.inter with
          | none => rfl
          | some x => exact absurd hr (hi (by rw [hx]; simp))
        simp only [this]
        rcases num with _ | _ | n
        · simp [hu, eq_comm]
        · simp [hu, eq_comm]
        · simp; intro _ h; omega
      | some x =>
        cases hx : c.inter with
        | none =>
          rcases num with _ | _ | _ | n
          · simp [hu, eq_comm]
          · simp [hu, eq_comm]
          · simp [hu, eq_comm]
          · simp; intro _ h; omega
        | some y =>
          rcases num with _ | _ | _ | _ | n
          · simp [hu, eq_comm]
          · simp [hu, eq_comm]
          · simp [hu, eq_comm]
          · simp [hu, eq_comm]
          · simp; intro _ h; omega
    · constructor
      · intro h
        cases h1 : auxCheck c slot with
        | some e => rw [h1] at h; simp only at h; revert h; (repeat' split) <;> (intro h; cases h)
        | none =>
          cases h2 : keysCheck c slot with
          | some e => rw [h1, h2] at h; simp only at h; revert h; (repeat' split) <;> (intro h; cases h)
          | none => exact absurd (usable_iff.mp ⟨hs, h1, h2⟩) hu
      · intro h; exact absurd h.1 hu

theorem hashAll_ok {H : Nat → Bytes → Except Nat Bytes} : ∀ {n : Nat} {l : List Bytes} {d : Bytes}, hashAll H n (l.map some) = .ok d ↔
    ∃ ds : List Bytes, ds.length = l.length ∧ (∀ i x, l[i]? = some x → ∃ y, ds[i]? = some y ∧ H (n + i) x = .ok y) ∧ d = ds.flatten := by
  intro n l
  induction l generalizing n with
  | nil =>
    intro d
    simp only [List.map_nil, hashAll, List.length_nil]
    constructor
    · intro h; injection h with h; exact ⟨[], rfl, fun i x hx => by simp at hx, by simp [← h]⟩
    · rintro ⟨ds, h1, -, h3⟩
      rw [List.length_eq_zero_iff.mp h1] at h3; rw [h3]; rfl
  | cons x l ih =>
    intro d
    simp only [List.map_cons, hashAll]
    cases hH : H n x with
    | error e =>
      constructor
      · intro h; cases h
      · rintro ⟨ds, -, h2, -⟩
        obtain ⟨y, -, hy⟩ := h2 0 x rfl
        rw [Nat.add_zero, hH] at hy; cases hy
    | ok y =>
      simp only
      cases hr : hashAll H (n + 1) (l.map some) with
      | error e =>
        constructor
        · intro h; cases h
        · rintro ⟨ds, h1, h2, h3⟩
          cases ds with
          | nil => cases h1
          | cons z ds =>
            have := (ih (n := n + 1) (d := ds.flatten)).mpr ⟨ds, by simpa using h1, fun i w hw => by
              obtain ⟨v, hv, e'⟩ := h2 (i + 1) w (by simpa using hw)
              exact ⟨v, by simpa using hv, by rw [show n + 1 + i = n + (i + 1) by omega]; exact e'⟩, rfl⟩
            rw [hr] at this; cases this
      | ok hs =>
        constructor
        · intro h
          injection h with h
          obtain ⟨ds, h1, h2, h3⟩ := ih.mp hr
          refine ⟨y :: ds, by simp [h1], fun i w hw => ?_, by rw [List.flatten_cons, ← h3, h]⟩
          cases i with
          | zero => simp at hw; subst hw; exact ⟨y, rfl, hH⟩
          | succ i =>
            obtain ⟨v, hv, e'⟩ := h2 i w (by simpa using hw)
            exact ⟨v, by simpa using hv, by rw [show n + (i + 1) = n + 1 + i by omega]; exact e'⟩
        · rintro ⟨ds, h1, h2, h3⟩
          cases ds with
          | nil => cases h1
          | cons z ds =>
            have := (ih (n := n + 1) (d := ds.flatten)).mpr ⟨ds, by simpa using h1, fun i w hw => by
              obtain ⟨v, hv, e'⟩ := h2 (i + 1) w (by simpa using hw)
              exact ⟨v, by simpa using hv, by rw [show n + 1 + i = n + (i + 1) by omega]; exact e'⟩, rfl⟩
            rw [hr] at this; injection this with this
            obtain ⟨v, hv, e'⟩ := h2 0 x rfl
            rw [Nat.add_zero, hH] at e'
            injection e' with e'
            simp at hv
            rw [h3, List.flatten_cons, ← this, hv, ← e']

/-- Digests are given exactly if the slot can be used, there is room for all of them and no hash fails; they are those of all certificates of the chain in order, with their number. -/
theorem digests_exact (H : Nat → Bytes → Except Nat Bytes) (c : Certs) (slot room : Nat) (d : Bytes) (num : Nat) :
    getDigests H c slot room = .ok (d, num) ↔ Usable c slot ∧ num = (chain c slot).length ∧ 32 * num ≤ room ∧
      ∃ ds : List Bytes, ds.length = num ∧ (∀ i x, (chain c slot)[i]? = some x → ∃ y, ds[i]? = some y ∧ H i x = .ok y) ∧ d = ds.flatten := by
  unfold getDigests
  by_cases hs : slot > 1
  · rw [if_pos hs]
    exact ⟨fun h => (by cases h), fun h => absurd hs (usable_iff.mpr h.1).1⟩
  · rw [if_neg hs]
    by_cases hu : Usable c slot
    · obtain ⟨-, h1, h2⟩ := usable_iff.mpr hu
      obtain ⟨l, x, e1, e2, e3⟩ := lastCert_some hu
      have e4 : (if c.root.isSome then [c.root] else []) ++ (if c.inter.isSome then [c.inter] else []) ++ [c.devid] ++ [lastCert c slot] = (chain c slot).map some := by
        rw [e3, e1, e2]
        cases c.root <;> cases c.inter <;> rfl
      have e5 : 2 + (if c.root.isSome then 1 else 0) + (if c.inter.isSome then 1 else 0) = (chain c slot).length := by
        rw [e3]
        cases c.root <;> cases c.inter <;> rfl
      rw [h1, h2]
      simp only
      rw [e4, e5]
      by_cases hroom : room < 32 * (chain c slot).length
      · rw [if_pos hroom]
        constructor
        · intro h; cases h
        · rintro ⟨-, rfl, h, -⟩; omega
      · rw [if_neg hroom]
        have key := @hashAll_ok H 0 (chain c slot)
        cases hh : hashAll H 0 ((chain c slot).map some) with
        | error e =>
          constructor
          · intro h; cases h
          · rintro ⟨-, rfl, -, ds, a1, a2, a3⟩
            have := (key (d := d)).mpr ⟨ds, a1, fun i x hx => by rw [Nat.zero_add]; exact a2 i x hx, a3⟩
            rw [hh] at this; cases this
        | ok v =>
          constructor
          · intro h
            injection h with h; injection h with ha hb
            subst ha; subst hb
            obtain ⟨ds, a1, a2, a3⟩ := key.mp hh
            exact ⟨hu, rfl, by omega, ds, a1, fun i x hx => by have := a2 i x hx; rwa [Nat.zero_add] at this, a3⟩
          · rintro ⟨-, rfl, -, ds, a1, a2, a3⟩
            have := (key (d := d)).mpr ⟨ds, a1, fun i x hx => by rw [Nat.zero_add]; exact a2 i x hx, a3⟩
            rw [hh] at this; injection this with this; rw [this]
    · constructor
      · intro h
        split at h
        · cases h
        · rename_i h1
          split at h
          · cases h
          · rename_i h2; exact absurd (usable_iff.mp ⟨hs, h1, h2⟩) hu
      · intro h; exact absurd h.1 hu

end Verif.Attest
