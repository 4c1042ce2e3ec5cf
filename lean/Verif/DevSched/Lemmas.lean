import Verif.DevSched.Model
/-! Helper lemmas. -/
namespace Verif.DevSched
open Verif

theorem canBeAttested_iff (s : Nat) : canBeAttested s = true ↔ Spec.attestable s := by
  simp only [canBeAttested, unauthenticated, Spec.attestable, Spec.valid, Bool.or_eq_true, beq_iff_eq]
  omega

theorem unauthenticated_iff (s : Nat) : unauthenticated s = true ↔ Spec.failed s := by
  simp only [unauthenticated, Spec.failed, Bool.or_eq_true, beq_iff_eq]
  omega

theorem timeoutFor_eq (m : Mgr) (prev s : Nat) : timeoutFor m prev s = Spec.wait m.authMs m.unauthMs prev s := by
  simp only [timeoutFor, Spec.wait, Bool.and_eq_true, Bool.or_eq_true, unauthenticated_iff, beq_iff_eq]

/-- Device `j` can be attested, and it is time to. -/
def isDue (devs : List Dev) (now j : Nat) : Prop := ∃ d, devs[j]? = some d ∧ Spec.attestable d.state ∧ d.due ≤ now

theorem scan_ok (devs : List Dev) (now : Nat) (fails : Nat → Bool) :
    ∀ k i j, i < devs.length → scan devs now fails k i = .ok j →
      ∃ t, t < k ∧ j = (i + t) % devs.length ∧ isDue devs now j ∧ ∀ s, s < t → ¬ isDue devs now ((i + s) % devs.length) := by
  intro k
  induction k with
  | zero => intro i j _ h; cases h
  | succ k ih =>
    intro i j hi h
    have hn : 0 < devs.length := by omega
    have hlt : (i + 1) % devs.length < devs.length := Nat.mod_lt _ hn
    have hd : devs[i]? = some devs[i] := List.getElem?_eq_getElem hi
    simp only [scan, hd] at h
    have step : ¬ isDue devs now i → scan devs now fails k ((i + 1) % devs.length) = .ok j →
        ∃ t, t < k + 1 ∧ j = (i + t) % devs.length ∧ isDue devs now j ∧ ∀ s, s < t → ¬ isDue devs now ((i + s) % devs.length) := by
      intro hnd hs
      obtain ⟨t, ht, hj, hdj, hall⟩ := ih _ j hlt hs
      refine ⟨t + 1, by omega, ?_, hdj, ?_⟩
      · rw [hj, Nat.mod_add_mod]; congr 1; omega
      · intro s hs
        cases s with
        | zero => rw [Nat.add_zero, Nat.mod_eq_of_lt hi]; exact hnd
        | succ s =>
          have := hall s (by omega)
          rw [Nat.mod_add_mod] at this
          rwa [show i + (s + 1) = i + 1 + s by omega]
    split at h
    · rename_i hc
      refine step ?_ h
      rintro ⟨d, hd', ha, _⟩
      rw [hd] at hd'
      have := Option.some.inj hd'
      subst this
      rw [(canBeAttested_iff _).mpr ha] at hc
      cases hc
    · rename_i hc
      split at h
      · cases h
      · split at h
        · rename_i hdue
          have := Res.ok.inj h
          subst this
          refine ⟨0, by omega, by rw [Nat.add_zero, Nat.mod_eq_of_lt hi], ⟨_, hd, ?_, hdue⟩, by intro s hs; omega⟩
          apply (canBeAttested_iff _).mp
          cases hcc : canBeAttested devs[i].state with
          | true => rfl
          | false => rw [hcc] at hc; exact absurd rfl hc
        · rename_i hdue
          refine step ?_ h
          rintro ⟨d, hd', _, hle⟩
          rw [hd] at hd'
          have := Option.some.inj hd'
          subst this
          exact hdue hle

theorem scan_none (devs : List Dev) (now : Nat) (fails : Nat → Bool) :
    ∀ k i, i < devs.length → scan devs now fails k i = .err .none →
      ∀ s, s < k → ¬ isDue devs now ((i + s) % devs.length) := by
  intro k
  induction k with
  | zero => intro i _ _ s hs; omega
  | succ k ih =>
    intro i hi h
    have hn : 0 < devs.length := by omega
    have hlt : (i + 1) % devs.length < devs.length := Nat.mod_lt _ hn
    have hd : devs[i]? = some devs[i] := List.getElem?_eq_getElem hi
    simp only [scan, hd] at h
    have step : ¬ isDue devs now i → scan devs now fails k ((i + 1) % devs.length) = .err .none →
        ∀ s, s < k + 1 → ¬ isDue devs now ((i + s) % devs.length) := by
      intro hnd hs s hsk
      cases s with
      | zero => rw [Nat.add_zero, Nat.mod_eq_of_lt hi]; exact hnd
      | succ s =>
        have := ih _ hlt hs s (by omega)
        rw [Nat.mod_add_mod] at this
        rwa [show i + (s + 1) = i + 1 + s by omega]
    split at h
    · rename_i hc
      refine step ?_ h
      rintro ⟨d, hd', ha, _⟩
      rw [hd] at hd'
      have := Option.some.inj hd'
      subst this
      rw [(canBeAttested_iff _).mpr ha] at hc
      cases hc
    · split at h
      · cases h
      · split at h
        · cases h
        · rename_i hdue
          refine step ?_ h
          rintro ⟨d, hd', _, hle⟩
          rw [hd] at hd'
          have := Option.some.inj hd'
          subst this
          exact hdue hle

/-- When no timer fails, the search ends with a device or without one. -/
theorem scan_total (devs : List Dev) (now : Nat) :
    ∀ k i, i < devs.length → scan devs now (fun _ => false) k i = .err .none ∨ ∃ j, scan devs now (fun _ => false) k i = .ok j := by
  intro k
  induction k with
  | zero => intro i _; exact .inl rfl
  | succ k ih =>
    intro i hi
    have hlt : (i + 1) % devs.length < devs.length := Nat.mod_lt _ (by omega)
    have hd : devs[i]? = some devs[i] := List.getElem?_eq_getElem hi
    simp only [scan, hd, Bool.false_eq_true, if_false]
    split
    · exact ih _ hlt
    · split
      · exact .inr ⟨i, rfl⟩
      · exact ih _ hlt

/-- The search never leaves the table. -/
theorem scan_ne_oob (devs : List Dev) (now : Nat) (fails : Nat → Bool) :
    ∀ k i, i < devs.length → scan devs now fails k i ≠ .oob := by
  intro k
  induction k with
  | zero => intro i _ h; cases h
  | succ k ih =>
    intro i hi
    have hlt : (i + 1) % devs.length < devs.length := Nat.mod_lt _ (by omega)
    have hd : devs[i]? = some devs[i] := List.getElem?_eq_getElem hi
    simp only [scan, hd]
    split
    · exact ih _ hlt
    · split
      · intro h; cases h
      · split
        · intro h; cases h
        · exact ih _ hlt

theorem distance_lt {n last i : Nat} (hn : 0 < n) : Spec.distance n last i < n := Nat.mod_lt _ hn

theorem mod_two {a n : Nat} (h : a < 2 * n) : a % n = if a < n then a else a - n := by
  by_cases h1 : a < n
  · rw [if_pos h1, Nat.mod_eq_of_lt h1]
  · rw [if_neg h1, Nat.mod_eq_sub_mod (by omega), Nat.mod_eq_of_lt (by omega)]

theorem distance_step {n last t : Nat} (hl : last < n) (ht : t < n) :
    Spec.distance n last (((last + 1) % n + t) % n) = t := by
  unfold Spec.distance
  rw [Nat.mod_add_mod, Nat.add_assoc, Nat.mod_add_mod]
  have : last + 1 + (t + (n - 1 - last)) = t + n := by omega
  rw [this, Nat.add_mod_right, Nat.mod_eq_of_lt ht]

theorem step_distance {n last j : Nat} (hl : last < n) (hj : j < n) :
    ((last + 1) % n + Spec.distance n last j) % n = j := by
  unfold Spec.distance
  rw [Nat.mod_add_mod, Nat.add_mod_mod]
  have : last + 1 + (j + (n - 1 - last)) = j + n := by omega
  rw [this, Nat.add_mod_right, Nat.mod_eq_of_lt hj]

theorem distance_next {n last r j : Nat} (hl : last < n) (hr : r < n) (hj : j < n)
    (h : Spec.distance n last r < Spec.distance n last j) :
    Spec.distance n r j + Spec.distance n last r + 1 = Spec.distance n last j := by
  unfold Spec.distance at *
  rw [mod_two (by omega)] at *
  rw [mod_two (by omega)] at *
  rw [mod_two (by omega)]
  split at h <;> split at h <;> (try split) <;> (try split) <;> (try split) <;> omega

theorem next_parts {m m' : Mgr} {now : Nat} {fails : Nat → Bool} {i : Nat} (h : nextToAttest m now fails = .ok (m', i)) :
    0 < m.devs.length ∧ scan m.devs now fails m.devs.length ((m.last + 1) % m.devs.length) = .ok i ∧ m' = { m with last := i } := by
  unfold nextToAttest at h
  split at h
  · cases h
  · rename_i hn
    cases hs : scan m.devs now fails m.devs.length ((m.last + 1) % m.devs.length) with
    | ok j =>
      rw [hs] at h
      have := Prod.mk.inj (Res.ok.inj h)
      obtain ⟨h1, h2⟩ := this
      subst h2
      exact ⟨by omega, rfl, h1.symm⟩
    | err e => rw [hs] at h; cases h
    | oob => rw [hs] at h; cases h

/-! ### The report -/

theorem writeAt_at (pre rest data : Bytes) (h : data.length ≤ rest.length) :
    writeAt (pre ++ rest) pre.length data = pre ++ data ++ rest.drop data.length := by
  have h1 : data.take (pre.length + rest.length - pre.length) = data := List.take_of_length_le (by omega)
  simp only [writeAt, List.length_append, List.take_left, h1, List.drop_append]
  rw [List.drop_eq_nil_of_le (by omega), Nat.add_sub_cancel_left, List.nil_append]

/-- The byte written for a device. -/
def stateByte (inv : Bool) (s : Nat) : UInt8 := if !inv then UInt8.ofNat s else 0xff

/-- The remaining instances of a component. -/
theorem statusLoop_states (inv : Bool) (c : Nat) (hc : c < 2 ^ 32) (ds : List Dev) (k : List Dev) (pre : Bytes) :
    ∀ (done rest : Bytes) (cnt : UInt8), (∀ d ∈ ds, d.comp = c) → ds.length ≤ rest.length →
    statusLoop inv (ds ++ k) (some pre.length) (pre.length + 5 + done.length) (pre ++ toLE 4 c ++ [cnt] ++ done ++ rest)
      = statusLoop inv k (some pre.length) (pre.length + 5 + done.length + ds.length)
          (pre ++ toLE 4 c ++ [cnt + UInt8.ofNat ds.length] ++ (done ++ ds.map fun d => stateByte inv d.state) ++ rest.drop ds.length) := by
  induction ds with
  | nil =>
    intro done rest cnt _ _
    simp only [List.nil_append, List.map_nil, List.append_nil, List.length_nil, List.drop_zero, Nat.add_zero]
    rw [show cnt + UInt8.ofNat 0 = cnt from by simp]
  | cons d ds ih =>
    intro done rest cnt hall hl
    have hd : d.comp = c := hall d (List.mem_cons_self ..)
    have hw : leNat (window (pre ++ toLE 4 c ++ [cnt] ++ done ++ rest) pre.length 4) = d.comp := by
      have h4 : (toLE 4 c).length = 4 := toLE_length 4 c
      have : window (pre ++ toLE 4 c ++ [cnt] ++ done ++ rest) pre.length 4 = toLE 4 c := by
        simp only [List.append_assoc, window, List.drop_left]
        rw [List.take_append_of_le_length (by omega), List.take_of_length_le (by omega)]
      rw [this, leNat_toLE, hd]
      exact Nat.mod_eq_of_lt (by omega)
    simp only [List.length_cons] at hl
    have hlen : pre.length + 5 ≤ (pre ++ toLE 4 c ++ [cnt] ++ done ++ rest).length ∧
        pre.length + 5 + done.length < (pre ++ toLE 4 c ++ [cnt] ++ done ++ rest).length := by
      simp only [List.length_append, toLE_length, List.length_cons, List.length_nil]; omega
    have hg : (pre ++ toLE 4 c ++ [cnt] ++ done ++ rest).getD (pre.length + 4) 0 = cnt := by
      have : pre ++ toLE 4 c ++ [cnt] ++ done ++ rest = (pre ++ toLE 4 c) ++ (cnt :: (done ++ rest)) := by simp
      rw [this, List.getD_eq_getElem?_getD, List.getElem?_append_right (by simp)]
      simp
    have hw1 : writeAt (pre ++ toLE 4 c ++ [cnt] ++ done ++ rest) (pre.length + 4) [cnt + 1] = pre ++ toLE 4 c ++ [cnt + 1] ++ done ++ rest := by
      have e1 : pre ++ toLE 4 c ++ [cnt] ++ done ++ rest = (pre ++ toLE 4 c) ++ ([cnt] ++ done ++ rest) := by simp
      have e2 : pre.length + 4 = (pre ++ toLE 4 c).length := by simp
      rw [e1, e2, writeAt_at _ _ _ (by simp)]
      simp
    have hw2 : writeAt (pre ++ toLE 4 c ++ [cnt + 1] ++ done ++ rest) (pre.length + 5 + done.length) [stateByte inv d.state]
        = pre ++ toLE 4 c ++ [cnt + 1] ++ (done ++ [stateByte inv d.state]) ++ rest.drop 1 := by
      have e2 : pre.length + 5 + done.length = (pre ++ toLE 4 c ++ [cnt + 1] ++ done).length := by
        simp only [List.length_append, toLE_length, List.length_cons, List.length_nil]
      rw [e2, writeAt_at _ _ _ (by simp only [List.length_cons, List.length_nil]; omega)]
      simp
    have hrest : ds.length ≤ (rest.drop 1).length := by rw [List.length_drop]; omega
    have key := ih (done ++ [stateByte inv d.state]) (rest.drop 1) (cnt + 1) (fun x hx => hall x (List.mem_cons_of_mem _ hx)) hrest
    rw [List.cons_append]
    simp only [statusLoop, if_pos hw, if_pos hlen, hg, hw1]
    rw [show (if (!inv) = true then UInt8.ofNat d.state else 255) = stateByte inv d.state from rfl, hw2]
    rw [show pre.length + 5 + done.length + 1 = pre.length + 5 + (done ++ [stateByte inv d.state]).length by
      simp only [List.length_append, List.length_cons, List.length_nil]; omega]
    rw [key]
    have hcnt : cnt + 1 + UInt8.ofNat ds.length = cnt + UInt8.ofNat (ds.length + 1) := by
      rw [UInt8.ofNat_add, UInt8.add_assoc, UInt8.add_comm 1]; rfl
    rw [hcnt]
    simp only [List.length_append, List.length_cons, List.length_nil, List.map_cons, List.drop_drop, List.append_assoc, List.singleton_append]
    rw [show 1 + ds.length = ds.length + 1 from Nat.add_comm .., show pre.length + 5 + (done.length + (0 + 1)) + ds.length = pre.length + 5 + done.length + (ds.length + 1) by omega]

/-- The number of the component of the current header. -/
def headerIs (buf : Bytes) (hdr : Option Nat) (c : Nat) : Prop := ∃ h, hdr = some h ∧ leNat (window buf h 4) = c

/-- The first instance of a component. -/
theorem statusLoop_first (inv : Bool) (c : Nat) (d : Dev) (k : List Dev) (pre rest : Bytes) (hdr : Option Nat) (hd : d.comp = c)
    (hne : ¬ headerIs (pre ++ rest) hdr c) (hl : 6 ≤ rest.length) :
    statusLoop inv (d :: k) hdr pre.length (pre ++ rest)
      = statusLoop inv k (some pre.length) (pre.length + 5 + 1) (pre ++ toLE 4 c ++ [1] ++ [stateByte inv d.state] ++ rest.drop 6) := by
  have hpos : pre.length + 5 < (pre ++ rest).length := by rw [List.length_append]; omega
  have hw1 : writeAt (pre ++ rest) pre.length (toLE 4 c ++ [1]) = pre ++ toLE 4 c ++ [1] ++ rest.drop 5 := by
    rw [writeAt_at _ _ _ (by simp only [List.length_append, toLE_length, List.length_cons, List.length_nil]; omega)]
    simp
  have hw2 : writeAt (pre ++ toLE 4 c ++ [1] ++ rest.drop 5) (pre.length + 5) [stateByte inv d.state]
      = pre ++ toLE 4 c ++ [1] ++ [stateByte inv d.state] ++ rest.drop 6 := by
    have e2 : pre.length + 5 = (pre ++ toLE 4 c ++ [1]).length := by
      simp only [List.length_append, toLE_length, List.length_cons, List.length_nil]
    rw [e2, writeAt_at _ _ _ (by simp only [List.length_cons, List.length_nil, List.length_drop]; omega)]
    simp
  have hb : (if (!inv) = true then UInt8.ofNat d.state else 255) = stateByte inv d.state := rfl
  cases hdr with
  | none => simp only [statusLoop, if_pos hpos, hd, hw1, hb, hw2]
  | some h =>
    have : ¬ leNat (window (pre ++ rest) h 4) = d.comp := fun e => hne ⟨h, rfl, by rw [e, hd]⟩
    simp only [statusLoop, if_neg this, if_pos hpos]
    simp only [hd, hw1, hb, hw2]

/-- The bytes of the devices of one component. -/
def blockBytes (inv : Bool) (b : Nat × List Dev) : Bytes :=
  toLE 4 b.1 ++ [UInt8.ofNat b.2.length] ++ b.2.map fun d => stateByte inv d.state

theorem blockBytes_length (inv : Bool) (b : Nat × List Dev) : (blockBytes inv b).length = 5 + b.2.length := by
  simp only [blockBytes, List.length_append, toLE_length, List.length_cons, List.length_nil, List.length_map]

theorem statusLoop_block (inv : Bool) (c : Nat) (hc : c < 2 ^ 32) (ds k : List Dev) (pre rest : Bytes) (hdr : Option Nat)
    (hne : ds ≠ []) (hall : ∀ d ∈ ds, d.comp = c) (hh : ¬ headerIs (pre ++ rest) hdr c) (hl : 5 + ds.length ≤ rest.length) :
    statusLoop inv (ds ++ k) hdr pre.length (pre ++ rest)
      = statusLoop inv k (some pre.length) (pre ++ blockBytes inv (c, ds)).length (pre ++ blockBytes inv (c, ds) ++ rest.drop (5 + ds.length)) := by
  cases ds with
  | nil => exact absurd rfl hne
  | cons d ds =>
    simp only [List.length_cons] at hl
    rw [List.cons_append, statusLoop_first inv c d _ pre rest hdr (hall d (List.mem_cons_self ..)) hh (by omega)]
    have key := statusLoop_states inv c hc ds k pre [stateByte inv d.state] (rest.drop 6) 1 (fun x hx => hall x (List.mem_cons_of_mem _ hx))
      (by rw [List.length_drop]; omega)
    simp only [List.length_cons, List.length_nil, Nat.zero_add] at key
    rw [key]
    have hcnt : (1 : UInt8) + UInt8.ofNat ds.length = UInt8.ofNat (ds.length + 1) := by
      rw [UInt8.ofNat_add, UInt8.add_comm]; rfl
    rw [hcnt, List.drop_drop]
    rw [List.length_append, blockBytes_length]
    simp only [blockBytes, List.length_cons, List.map_cons, List.append_assoc, List.singleton_append, List.cons_append, List.nil_append]
    rw [show pre.length + 5 + 1 + ds.length = pre.length + (5 + (ds.length + 1)) by omega, show 6 + ds.length = 5 + (ds.length + 1) by omega]

theorem statusLoop_blocks (inv : Bool) (bs : List (Nat × List Dev)) :
    ∀ (pre rest : Bytes) (hdr : Option Nat),
    (∀ b ∈ bs, b.1 < 2 ^ 32 ∧ b.2 ≠ [] ∧ ∀ d ∈ b.2, d.comp = b.1) → (bs.map (·.1)).Nodup →
    (∀ b ∈ bs, ∀ r, ¬ headerIs (pre ++ r) hdr b.1) → (bs.flatMap (blockBytes inv)).length ≤ rest.length →
    statusLoop inv (bs.flatMap (·.2)) hdr pre.length (pre ++ rest)
      = .ok (pre ++ bs.flatMap (blockBytes inv) ++ rest.drop (bs.flatMap (blockBytes inv)).length) := by
  induction bs with
  | nil =>
    intro pre rest hdr _ _ _ _
    simp [statusLoop]
  | cons b bs ih =>
    obtain ⟨c, ds⟩ := b
    intro pre rest hdr hall hnd hh hl
    obtain ⟨hc, hne, hcomp⟩ := hall (c, ds) (List.mem_cons_self ..)
    simp only [List.flatMap_cons, List.length_append, blockBytes_length] at hl
    simp only [List.map_cons, List.nodup_cons] at hnd
    rw [List.flatMap_cons, statusLoop_block inv c hc ds _ pre rest hdr hne hcomp (hh _ (List.mem_cons_self ..) _) (by omega)]
    rw [ih (pre ++ blockBytes inv (c, ds)) (rest.drop (5 + ds.length)) (some pre.length) (fun b hb => hall b (List.mem_cons_of_mem _ hb)) hnd.2 ?_
      (by rw [List.length_drop]; omega)]
    · rw [List.flatMap_cons, List.length_append, blockBytes_length, List.drop_drop]
      simp only [List.append_assoc]
    · rintro b hb r ⟨h, hh1, hh2⟩
      have := Option.some.inj hh1
      subst this
      have hw : window (pre ++ blockBytes inv (c, ds) ++ r) pre.length 4 = toLE 4 c := by
        simp only [blockBytes, List.append_assoc, window, List.drop_left]
        rw [List.take_append_of_le_length (by rw [toLE_length]; omega), List.take_of_length_le (by rw [toLE_length]; omega)]
      rw [hw, leNat_toLE, show c % 256 ^ 4 = c from Nat.mod_eq_of_lt (by omega)] at hh2
      exact hnd.1 (hh2 ▸ List.mem_map_of_mem hb)

end Verif.DevSched
