import Verif.Discovery.Model
/-!
C140: discovery of devices behind an MCTP bridge.
-/
namespace Verif.Discovery
open Verif DevSched

/-! ### Helper lemmas -/

theorem rangeEids_eq (r : Spec.Range) : rangeEids r = Spec.eids r := by
  unfold rangeEids Spec.eids
  apply List.map_congr_left
  intro i _
  rw [UInt8.ofNat_add, UInt8.ofNat_toNat]

theorem add_perm (ring : Ring) (e : UInt8) (now : Nat) : ((add ring e now).map (·.eid)).Perm (e :: ring.map (·.eid)) := by
  cases ring with
  | nil => exact List.Perm.refl _
  | cons h t => exact List.Perm.swap ..

theorem add_fresh (ring : Ring) (e : UInt8) (now : Nat) (h : ∀ x ∈ ring, x.timeout = false) : ∀ x ∈ add ring e now, x.timeout = false := by
  cases ring with
  | nil => intro x hx; simp only [add, List.mem_singleton] at hx; rw [hx]
  | cons a t =>
    intro x hx
    simp only [add, List.mem_cons] at hx
    rcases hx with rfl | rfl | hx
    · exact h _ (List.mem_cons_self ..)
    · rfl
    · exact h _ (List.mem_cons_of_mem _ hx)

/-- A range that is added as a whole. -/
theorem addRange_ok (now : Nat) (es : List UInt8) : ∀ (ring : Ring) (room : Nat) (ring' : Ring) (room' : Nat) (r2 : Ring),
    addRange now es ring room = (.ok (ring', room'), r2) →
    (ring'.map (·.eid)).Perm (es ++ ring.map (·.eid)) ∧ room = room' + es.length ∧ ((∀ x ∈ ring, x.timeout = false) → ∀ x ∈ ring', x.timeout = false) := by
  induction es with
  | nil =>
    intro ring room ring' room' r2 h
    simp only [addRange, Prod.mk.injEq, Except.ok.injEq] at h
    obtain ⟨⟨rfl, rfl⟩, _⟩ := h
    exact ⟨List.Perm.refl _, rfl, id⟩
  | cons e es ih =>
    intro ring room ring' room' r2 h
    cases room with
    | zero => simp only [addRange, Prod.mk.injEq, reduceCtorEq, false_and] at h
    | succ room =>
      simp only [addRange] at h
      obtain ⟨h1, h2, h3⟩ := ih _ _ _ _ _ h
      refine ⟨?_, by simp only [List.length_cons]; omega, fun hf => h3 (add_fresh ring e now hf)⟩
      refine h1.trans ?_
      rw [List.cons_append]
      exact (List.Perm.append_left es (add_perm ring e now)).trans List.perm_middle

theorem addRange_room (now : Nat) (es : List UInt8) : ∀ (ring : Ring) (room : Nat), es.length ≤ room →
    ∃ ring' r2, addRange now es ring room = (.ok (ring', room - es.length), r2) := by
  induction es with
  | nil => intro ring room _; exact ⟨ring, ring, rfl⟩
  | cons e es ih =>
    intro ring room h
    cases room with
    | zero => simp only [List.length_cons] at h; omega
    | succ room =>
      obtain ⟨r1, r2, hr⟩ := ih (add ring e now) room (by simp only [List.length_cons] at h; omega)
      refine ⟨r1, r2, ?_⟩
      simp only [addRange, hr, List.length_cons]
      rw [Nat.add_sub_add_right]

/-- The ranges that are not skipped. -/
def kept (devs : List Dev) (rs : List Spec.Range) : List Spec.Range := rs.filter fun r => !unattestable devs r.start

theorem addRanges_ok (devs : List Dev) (now : Nat) (rs : List Spec.Range) : ∀ (ring : Ring) (room : Nat) (ring' : Ring) (room' : Nat) (r2 : Ring),
    addRanges devs now rs ring room = (.ok (ring', room'), r2) →
    (ring'.map (·.eid)).Perm ((kept devs rs).flatMap Spec.eids ++ ring.map (·.eid)) ∧ ((∀ x ∈ ring, x.timeout = false) → ∀ x ∈ ring', x.timeout = false) := by
  induction rs with
  | nil =>
    intro ring room ring' room' r2 h
    simp only [addRanges, Prod.mk.injEq, Except.ok.injEq] at h
    obtain ⟨⟨rfl, rfl⟩, _⟩ := h
    exact ⟨List.Perm.refl _, id⟩
  | cons r rs ih =>
    intro ring room ring' room' r2 h
    simp only [addRanges] at h
    split at h
    · rename_i hu
      have : kept devs (r :: rs) = kept devs rs := by simp [kept, hu]
      rw [this]
      exact ih _ _ _ _ _ h
    · rename_i hu
      have hk : kept devs (r :: rs) = r :: kept devs rs := by simp [kept, hu]
      rw [rangeEids_eq] at h
      split at h
      · simp only [Prod.mk.injEq, reduceCtorEq, false_and] at h
      · rename_i ring1 room1 r3 hr
        obtain ⟨h1, _, h3⟩ := addRange_ok _ _ _ _ _ _ _ hr
        obtain ⟨h4, h5⟩ := ih _ _ _ _ _ h
        refine ⟨?_, fun hf => h5 (h3 hf)⟩
        rw [hk, List.flatMap_cons]
        refine h4.trans ((List.Perm.append_left _ h1).trans ?_)
        rw [← List.append_assoc]
        exact List.Perm.append_right _ List.perm_append_comm

theorem addRanges_room (devs : List Dev) (now : Nat) (rs : List Spec.Range) : ∀ (ring : Ring) (room : Nat),
    ((kept devs rs).flatMap Spec.eids).length ≤ room →
    ∃ ring' r2, addRanges devs now rs ring room = (.ok (ring', room - ((kept devs rs).flatMap Spec.eids).length), r2) := by
  induction rs with
  | nil => intro ring room _; exact ⟨ring, ring, rfl⟩
  | cons r rs ih =>
    intro ring room h
    simp only [addRanges]
    split
    · rename_i hu
      have hk : kept devs (r :: rs) = kept devs rs := by simp [kept, hu]
      rw [hk] at h ⊢
      exact ih _ _ h
    · rename_i hu
      have hk : kept devs (r :: rs) = r :: kept devs rs := by simp [kept, hu]
      rw [hk, List.flatMap_cons, List.length_append] at h
      obtain ⟨r1, r2, h1⟩ := addRange_room now (Spec.eids r) ring room (by omega)
      rw [rangeEids_eq, h1]
      obtain ⟨r3, r4, h2⟩ := ih r1 (room - (Spec.eids r).length) (by omega)
      refine ⟨r3, r4, ?_⟩
      simp only [h2]
      rw [hk, List.flatMap_cons, List.length_append, Nat.sub_sub]

/-- The EIDs of the ranges of a table that are not skipped. -/
def keptOf (devs : List Dev) (ps : List Spec.Page) : List UInt8 := ps.flatMap fun p => (kept devs p.ranges).flatMap Spec.eids

theorem pages_ok (devs : List Dev) (bridge : UInt8 → Option Spec.Page) (now : Nat) : ∀ (fuel : Nat) (h : UInt8) (ring : Ring) (room : Nat) (ring' : Ring),
    pages devs bridge now fuel h ring room = some (.ok (), ring') →
    ∃ ps, Spec.Table bridge h ps ∧ (ring'.map (·.eid)).Perm (keptOf devs ps ++ ring.map (·.eid)) ∧
      ((∀ x ∈ ring, x.timeout = false) → ∀ x ∈ ring', x.timeout = false) := by
  intro fuel
  induction fuel with
  | zero => intro h ring room ring' hp; cases hp
  | succ fuel ih =>
    intro h ring room ring' hp
    simp only [pages] at hp
    split at hp
    · rename_i hh
      simp only [Option.some.injEq, Prod.mk.injEq, true_and] at hp
      subst hp
      exact ⟨[], hh ▸ .done, List.Perm.refl _, id⟩
    · rename_i hh
      split at hp
      · simp only [Option.some.injEq, Prod.mk.injEq, reduceCtorEq, false_and] at hp
      · rename_i p hb
        split at hp
        · simp only [Option.some.injEq, Prod.mk.injEq, reduceCtorEq, false_and] at hp
        · rename_i r1 room1 r2 ha
          obtain ⟨h1, h2⟩ := addRanges_ok _ _ _ _ _ _ _ _ ha
          obtain ⟨ps, ht, h3, h4⟩ := ih _ _ _ _ hp
          refine ⟨p :: ps, .more hh hb ht, ?_, fun hf => h4 (h2 hf)⟩
          rw [keptOf, List.flatMap_cons]
          refine h3.trans ((List.Perm.append_left _ h1).trans ?_)
          rw [← List.append_assoc]
          exact List.Perm.append_right _ List.perm_append_comm

theorem pages_complete (devs : List Dev) (bridge : UInt8 → Option Spec.Page) (now : Nat) (h : UInt8) (ps : List Spec.Page) (ht : Spec.Table bridge h ps) :
    ∀ (fuel : Nat) (ring : Ring) (room : Nat), ps.length < fuel → (keptOf devs ps).length ≤ room →
    ∃ ring', pages devs bridge now fuel h ring room = some (.ok (), ring') := by
  induction ht with
  | done =>
    intro fuel ring room hf _
    cases fuel with
    | zero => omega
    | succ fuel => exact ⟨ring, by simp only [pages, if_true]⟩
  | @more h p ps hh hb _ ih =>
    intro fuel ring room hf hr
    cases fuel with
    | zero => simp only [List.length_cons] at hf; omega
    | succ fuel =>
      simp only [keptOf, List.flatMap_cons, List.length_append] at hr
      obtain ⟨r1, r2, ha⟩ := addRanges_room devs now p.ranges ring room (by omega)
      simp only [pages, if_neg hh, hb, ha]
      refine ih fuel r1 _ (by simp only [List.length_cons] at hf; omega) ?_
      simp only [keptOf]
      omega

theorem table_unique {bridge : UInt8 → Option Spec.Page} {h : UInt8} {ps qs : List Spec.Page} (h1 : Spec.Table bridge h ps) :
    Spec.Table bridge h qs → ps = qs := by
  induction h1 generalizing qs with
  | done =>
    intro h2
    cases h2 with
    | done => rfl
    | more hh _ _ => exact absurd rfl hh
  | more hh hb _ ih =>
    intro h2
    cases h2 with
    | done => exact absurd rfl hh
    | more _ hb2 ht2 =>
      rw [hb] at hb2
      have := Option.some.inj hb2
      subst this
      rw [ih ht2]

theorem filter_flatMap_le {α β : Type} (p : α → Bool) (f : α → List β) (l : List α) : ((l.filter p).flatMap f).length ≤ (l.flatMap f).length := by
  induction l with
  | nil => exact Nat.le_refl _
  | cons a l ih =>
    rw [List.filter_cons, List.flatMap_cons, List.length_append]
    split
    · rw [List.flatMap_cons, List.length_append]; omega
    · omega

/-! ### The routing table -/

/-- After the routing table was read, the devices to be discovered are those of its ranges, each as often as it is listed, except ranges that start with a device known not to be
attestable; all devices that can be attested have to be identified again. -/
theorem routing_sound_partial (st st' : St) (bridge : UInt8 → Option Spec.Page) (now room fuel : Nat) (hw : st.want = true)
    (h : fetch st bridge now room fuel = some (st', .ok ())) :
    ∃ ps, Spec.Table bridge 0 ps ∧
      (st'.ring.map (·.eid)).Perm ((ps.flatMap fun p => p.ranges.filter fun r => !unattestable st.devs r.start).flatMap Spec.eids) ∧
      (∀ e ∈ st'.ring, e.timeout = false) ∧ st'.want = false ∧
      st'.devs = st.devs.map (fun d => if d.state = 5 then d else { d with state := 1 }) := by
  unfold fetch at h
  rw [hw] at h
  simp only [Bool.not_true, Bool.false_eq_true, if_false] at h
  split at h
  · simp only [Option.some.injEq, Prod.mk.injEq, reduceCtorEq, and_false] at h
  · split at h
    · cases h
    · simp only [Option.some.injEq, Prod.mk.injEq, reduceCtorEq, and_false] at h
    · rename_i ring hp
      simp only [Option.some.injEq, Prod.mk.injEq, and_true] at h
      subst h
      obtain ⟨ps, ht, h1, h2⟩ := pages_ok _ _ _ _ _ _ _ _ hp
      refine ⟨ps, ht, ?_, h2 (by simp), rfl, ?_⟩
      · rw [List.flatMap_assoc]
        simpa [keptOf, kept] using h1
      · simp only [restartDevs]
        apply List.map_congr_left
        intro d _
        by_cases hd : d.state = 5
        · simp [hd]
        · simp [hd]

/-- If no range starts with such a device, exactly the listed devices are to be discovered. -/
theorem routing_all (st st' : St) (bridge : UInt8 → Option Spec.Page) (now room fuel : Nat) (ps : List Spec.Page) (hw : st.want = true)
    (ht : Spec.Table bridge 0 ps) (hu : ∀ p ∈ ps, ∀ r ∈ p.ranges, ∀ d ∈ st.devs, d.eid = r.start → d.state ≠ 5)
    (h : fetch st bridge now room fuel = some (st', .ok ())) : (st'.ring.map (·.eid)).Perm (Spec.listed ps) := by
  obtain ⟨qs, ht2, hp, _⟩ := routing_sound_partial st st' bridge now room fuel hw h
  have := table_unique ht ht2
  subst this
  refine hp.trans (List.Perm.of_eq ?_)
  rw [List.flatMap_assoc, Spec.listed]
  simp only [List.flatMap_def]
  congr 1
  apply List.map_congr_left
  intro p hp
  congr 2
  apply List.filter_eq_self.mpr
  intro r hr
  simp only [unattestable]
  cases hf : st.devs.find? (fun d => d.eid == r.start) with
  | none => rfl
  | some d =>
    have h1 := List.find?_some hf
    have h2 := List.mem_of_find?_eq_some hf
    have := hu p hp r hr d h2 (by simpa using h1)
    simp [this]

/-- A routing table with an end is read to its end if there is memory for the devices. -/
theorem routing_complete (st : St) (bridge : UInt8 → Option Spec.Page) (now room fuel : Nat) (ps : List Spec.Page) (hd : 2 ≤ st.devs.length)
    (hw : st.want = true) (ht : Spec.Table bridge 0 ps) (hf : ps.length < fuel) (hr : (Spec.listed ps).length ≤ room) :
    ∃ st', fetch st bridge now room fuel = some (st', .ok ()) := by
  have hk : (keptOf st.devs ps).length ≤ (Spec.listed ps).length := by
    clear ht hf hr
    induction ps with
    | nil => exact Nat.le_refl _
    | cons p ps ih =>
      simp only [keptOf, Spec.listed, List.flatMap_cons, List.length_append] at ih ⊢
      have : ((kept st.devs p.ranges).flatMap Spec.eids).length ≤ (p.ranges.flatMap Spec.eids).length :=
        filter_flatMap_le _ _ _
      omega
  obtain ⟨ring, hp⟩ := pages_complete st.devs bridge now 0 ps ht fuel [] room hf (by omega)
  unfold fetch
  rw [hw]
  simp only [Bool.not_true, Bool.false_eq_true, if_false, if_neg (show ¬ st.devs.length < 2 by omega), hp]
  exact ⟨_, rfl⟩

/-- A bridge whose parts never end (here with an empty range each) keeps the requester busy for ever: no number of responses is enough. -/
theorem counterexample_endless (st : St) (now room : Nat) (hd : 2 ≤ st.devs.length) (hw : st.want = true) (fuel : Nat) :
    fetch st (fun _ => some ⟨0, [⟨0x20, 0⟩]⟩) now room fuel = none := by
  have hp : ∀ fuel ring room, pages st.devs (fun _ => some ⟨0, [⟨0x20, 0⟩]⟩) now fuel 0 ring room = none := by
    intro fuel
    induction fuel with
    | zero => intro _ _; rfl
    | succ fuel ih =>
      intro ring room
      have h0 : ¬ ((0 : UInt8) = 0xff) := by decide
      have ha : ∃ r2, addRanges st.devs now [⟨0x20, 0⟩] ring room = (.ok (ring, room), r2) := by
        simp only [addRanges]
        split <;> exact ⟨_, rfl⟩
      obtain ⟨r2, ha⟩ := ha
      simp only [pages, if_neg h0, ha]
      exact ih ring room
  unfold fetch
  rw [hw]
  simp only [Bool.not_true, Bool.false_eq_true, if_false, if_neg (show ¬ st.devs.length < 2 by omega), hp]

/-! ### The next device to discover -/

theorem search_ok (now : Nat) (fails : Ent → Bool) (es : List Ent) : ∀ k i, search now fails es k = .ok i →
    ∃ pre e post, es = pre ++ e :: post ∧ i = k + pre.length ∧ ready now e = true ∧ ∀ x ∈ pre, ready now x = false := by
  induction es with
  | nil => intro k i h; cases h
  | cons e es ih =>
    intro k i h
    simp only [search] at h
    split at h
    · cases h
    · split at h
      · rename_i hr
        have := Except.ok.inj h
        subst this
        exact ⟨[], e, es, rfl, rfl, hr, fun x hx => (by cases hx)⟩
      · rename_i hr
        obtain ⟨pre, x, post, h1, h2, h3, h4⟩ := ih _ _ h
        refine ⟨e :: pre, x, post, by rw [h1]; rfl, by rw [h2, List.length_cons]; omega, h3, ?_⟩
        intro y hy
        rcases List.mem_cons.mp hy with rfl | hy
        · exact Bool.eq_false_iff.mpr hr
        · exact h4 y hy

theorem search_none (now : Nat) (fails : Ent → Bool) (es : List Ent) : ∀ k, search now fails es k = .error .none → ∀ x ∈ es, ready now x = false := by
  induction es with
  | nil => intro k _ x hx; cases hx
  | cons e es ih =>
    intro k h x hx
    simp only [search] at h
    split at h
    · cases h
    · split at h
      · cases h
      · rename_i hr
        rcases List.mem_cons.mp hx with rfl | hx
        · exact Bool.eq_false_iff.mpr hr
        · exact ih _ h x hx

theorem take_at (pre post : List Ent) (e : Ent) :
    take (pre ++ e :: post) pre.length = (post ++ pre ++ [{ e with timeout := false }], .ok e.eid) := by
  have h1 : (pre ++ e :: post)[pre.length]? = some e := by simp
  have h2 : (pre ++ e :: post).drop (pre.length + 1) = post := by simp
  simp only [take, h1, h2, List.take_left]

/-- A device that is offered for discovery is in the list, and its last attempt did not fail or is long enough ago; those before it have to wait. It becomes the last of the list, so
that the search goes on behind it. -/
theorem offered (ring ring' : Ring) (devs : List Dev) (now : Nat) (fails : Ent → Bool) (eid : UInt8) (h : next ring devs now fails = (ring', .ok eid)) :
    ∃ pre e post, ring = pre ++ e :: post ∧ e.eid = eid ∧ (e.timeout = false ∨ e.due ≤ now) ∧ (∀ x ∈ pre, x.timeout = true ∧ now < x.due) ∧
      ring' = post ++ pre ++ [{ e with timeout := false }] ∧ ∃ d ∈ devs, d.state = 1 := by
  have hready : ∀ e : Ent, ready now e = true → e.timeout = false ∨ e.due ≤ now := by
    intro e he
    simp only [ready, Bool.or_eq_true, Bool.not_eq_true', decide_eq_true_eq] at he
    exact he
  have hnot : ∀ e : Ent, ready now e = false → e.timeout = true ∧ now < e.due := by
    intro e he
    simp only [ready, Bool.or_eq_false_iff, Bool.not_eq_false', decide_eq_false_iff_not] at he
    exact ⟨he.1, by omega⟩
  cases ring with
  | nil => simp only [next, Prod.mk.injEq, reduceCtorEq, and_false] at h
  | cons a t =>
    simp only [next] at h
    split at h
    · simp only [Prod.mk.injEq, reduceCtorEq, and_false] at h
    · rename_i hu
      have hdev : ∃ d ∈ devs, d.state = 1 := by
        cases hc : hasUnidentified devs with
        | false => rw [hc] at hu; exact absurd rfl hu
        | true =>
          obtain ⟨d, hd, h1⟩ := List.any_eq_true.mp hc
          exact ⟨d, hd, by simpa using h1⟩
      split at h
      · simp only [Prod.mk.injEq, reduceCtorEq, and_false] at h
      · split at h
        · rename_i hr
          have := take_at [] t a
          simp only [List.nil_append, List.length_nil] at this
          rw [this] at h
          obtain ⟨h1, h2⟩ := Prod.mk.inj h
          exact ⟨[], a, t, rfl, Except.ok.inj h2, hready a hr, fun x hx => (by cases hx), h1.symm, hdev⟩
        · cases hs : search now fails (a :: t).dropLast 0 with
          | error e => rw [hs] at h; simp only [Prod.mk.injEq, reduceCtorEq, and_false] at h
          | ok i =>
            rw [hs] at h
            obtain ⟨pre, e, post, h1, h2, h3, h4⟩ := search_ok _ _ _ _ _ hs
            have hne : a :: t ≠ [] := List.cons_ne_nil _ _
            have hring : a :: t = pre ++ e :: (post ++ [(a :: t).getLast hne]) := by
              have := List.dropLast_concat_getLast hne
              rw [h1] at this
              exact this.symm.trans (by simp)
            have hi : i = pre.length := by omega
            generalize hz : post ++ [(a :: t).getLast hne] = post' at hring
            dsimp only at h
            rw [hring, hi, take_at] at h
            obtain ⟨h5, h6⟩ := Prod.mk.inj h
            exact ⟨pre, e, post', hring, Except.ok.inj h6, hready e h3, fun x hx => hnot x (h4 x hx), h5.symm, hdev⟩

/-- When no device is offered, there is none in the list, or none to identify (and the list is dropped), or all of the list but the last one have to wait. Missing: the
last one, see `counterexample_last_ignored`. -/
theorem none_offered_partial (ring ring' : Ring) (devs : List Dev) (now : Nat) (fails : Ent → Bool) (h : next ring devs now fails = (ring', .error .none)) :
    ring = [] ∨ ((∀ d ∈ devs, d.state ≠ 1) ∧ ring' = []) ∨
      (ring' = ring ∧ ∀ x ∈ ring.dropLast, x.timeout = true ∧ now < x.due) := by
  have hnot : ∀ e : Ent, ready now e = false → e.timeout = true ∧ now < e.due := by
    intro e he
    simp only [ready, Bool.or_eq_false_iff, Bool.not_eq_false', decide_eq_false_iff_not] at he
    exact ⟨he.1, by omega⟩
  cases ring with
  | nil => exact .inl rfl
  | cons a t =>
    refine .inr ?_
    simp only [next] at h
    split at h
    · rename_i hu
      refine .inl ⟨?_, (Prod.mk.inj h).1.symm⟩
      intro d hd h1
      have : hasUnidentified devs = true := List.any_eq_true.mpr ⟨d, hd, by simp [h1]⟩
      rw [this] at hu; cases hu
    · split at h
      · simp only [Prod.mk.injEq, Except.error.injEq, reduceCtorEq, and_false] at h
      · split at h
        · have := take_at [] t a
          simp only [List.nil_append, List.length_nil] at this
          rw [this] at h
          simp only [Prod.mk.injEq, reduceCtorEq, and_false] at h
        · cases hs : search now fails (a :: t).dropLast 0 with
          | error e =>
            rw [hs] at h
            obtain ⟨h1, h2⟩ := Prod.mk.inj h
            have := Except.error.inj h2
            subst this
            exact .inr ⟨h1.symm, fun x hx => hnot x (search_none _ _ _ _ hs x hx)⟩
          | ok i =>
            rw [hs] at h
            obtain ⟨pre, e, post, h1, h2, _, _⟩ := search_ok _ _ _ _ _ hs
            have hne : a :: t ≠ [] := List.cons_ne_nil _ _
            have hring : a :: t = pre ++ e :: (post ++ [(a :: t).getLast hne]) := by
              have := List.dropLast_concat_getLast hne
              rw [h1] at this
              exact this.symm.trans (by simp)
            have hi : i = pre.length := by omega
            generalize post ++ [(a :: t).getLast hne] = post' at hring
            dsimp only at h
            rw [hring, hi, take_at] at h
            simp only [Prod.mk.injEq, reduceCtorEq, and_false] at h

/-! ### Removing and delaying the device that was tried -/

theorem find_last (ring : Ring) (e : Ent) : ∃ i, find e.eid (ring ++ [e]) = some i ∧ (ring ≠ [] → i ≠ 0) ∧
    ∃ pre x post, ring ++ [e] = pre ++ x :: post ∧ pre.length = i ∧ x.eid = e.eid := by
  cases ring with
  | nil => exact ⟨0, by simp [find], fun h => absurd rfl h, [], e, [], rfl, rfl, rfl⟩
  | cons h t =>
    have : ∃ i, (t ++ [e]).findIdx? (fun x => x.eid == e.eid) = some i := by
      cases hx : (t ++ [e]).findIdx? (fun x => x.eid == e.eid) with
      | some i => exact ⟨i, rfl⟩
      | none =>
        have := List.findIdx?_eq_none_iff.mp hx e (by simp)
        simp at this
    obtain ⟨i, hi⟩ := this
    refine ⟨i + 1, by simp only [List.cons_append, find, hi], fun _ => by omega, ?_⟩
    obtain ⟨hlt, hp, _⟩ := List.findIdx?_eq_some_iff_getElem.mp hi
    refine ⟨h :: (t ++ [e]).take i, (t ++ [e])[i], (t ++ [e]).drop (i + 1), ?_, ?_, by simpa using hp⟩
    · rw [List.cons_append, List.cons_append, List.getElem_cons_drop, List.take_append_drop]
    · rw [List.length_cons, List.length_take, Nat.min_eq_left (by omega)]

/-- Removing the device that was just offered is safe, and takes exactly one entry with its EID from the list, even if the bridge lists an EID twice. -/
theorem remove_offered (ring ring' : Ring) (devs : List Dev) (now : Nat) (fails : Ent → Bool) (eid : UInt8)
    (h : next ring devs now fails = (ring', .ok eid)) :
    ∃ pre e post, ring' = pre ++ e :: post ∧ e.eid = eid ∧ remove ring' eid = .ok (pre ++ post) := by
  obtain ⟨pre, e, post, _, he, _, _, hr, _⟩ := offered ring ring' devs now fails eid h
  subst he
  subst hr
  generalize post ++ pre = l
  obtain ⟨i, hf, hne, p, x, q, hsplit, hlen, hx⟩ := find_last l { e with timeout := false }
  refine ⟨p, x, q, hsplit, hx, ?_⟩
  have hf' : find e.eid (l ++ [{ e with timeout := false }]) = some i := hf
  cases l with
  | nil =>
    cases p with
    | nil =>
      have : q = [] := by
        have := congrArg List.length hsplit
        simp only [List.nil_append, List.length_cons, List.length_nil] at this
        exact List.eq_nil_of_length_eq_zero (by omega)
      subst this
      simp [remove, find]
    | cons a p =>
      have := congrArg List.length hsplit
      simp only [List.nil_append, List.length_cons, List.length_nil, List.length_append, List.cons_append] at this
      omega
  | cons a l =>
    have hi := hne (List.cons_ne_nil _ _)
    obtain ⟨k, rfl⟩ : ∃ k, i = k + 1 := ⟨i - 1, by omega⟩
    cases p with
    | nil => simp only [List.length_nil] at hlen; omega
    | cons b p =>
      simp only [List.cons_append, List.cons.injEq] at hsplit
      obtain ⟨rfl, hs⟩ := hsplit
      simp only [List.cons_append, hs] at hf' ⊢
      simp only [remove, hf']
      have hk : k = p.length := by simp only [List.length_cons] at hlen; omega
      rw [hk, List.eraseIdx_append_of_length_le (Nat.le_refl _), Nat.sub_self]
      rfl

/-- Delaying the device that was just offered always finds it. -/
theorem delay_offered (ring ring' : Ring) (devs : List Dev) (now ms : Nat) (fails : Ent → Bool) (eid : UInt8)
    (h : next ring devs now fails = (ring', .ok eid)) :
    ∃ pre e post, ring' = pre ++ e :: post ∧ e.eid = eid ∧
      timedOut ring' eid now ms = .ok (pre ++ { e with timeout := true, due := now + ms } :: post) := by
  obtain ⟨pre, e, post, _, he, _, _, hr, _⟩ := offered ring ring' devs now fails eid h
  subst he
  subst hr
  generalize post ++ pre = l
  obtain ⟨i, hf, _, p, x, q, hsplit, hlen, hx⟩ := find_last l { e with timeout := false }
  refine ⟨p, x, q, hsplit, hx, ?_⟩
  have hf' : find e.eid (l ++ [{ e with timeout := false }]) = some i := hf
  rw [hsplit] at hf' ⊢
  simp only [timedOut, hf']
  rw [← hlen]
  congr 1
  clear hsplit hlen hf hf'
  induction p with
  | nil => simp [List.modify]
  | cons b p ih => simp only [List.cons_append, List.length_cons, List.modify_succ_cons, ih]

/-- The discovery loop never refers to freed memory, whatever the devices answer. -/
theorem discover_safe (ring : Ring) (devs : List Dev) (now ms : Nat) (fails : Ent → Bool) (good : Bool) :
    ∃ ring', (discover ring devs now ms fails good).1 = .ok ring' := by
  unfold discover
  cases hn : next ring devs now fails with
  | mk ring' r =>
    cases r with
    | error e => exact ⟨ring', rfl⟩
    | ok eid =>
      dsimp only
      split
      · obtain ⟨_, _, _, _, _, h⟩ := remove_offered _ _ _ _ _ _ hn
        rw [h]; exact ⟨_, rfl⟩
      · obtain ⟨_, _, _, _, _, h⟩ := delay_offered _ _ _ _ ms _ _ hn
        rw [h]; exact ⟨_, rfl⟩

/-! ### A round of discovery -/

/-- The EIDs tried when the loop runs as many times as there are answers. -/
def tries (devs : List Dev) (now ms : Nat) : List Bool → Ring → List UInt8
  | [], _ => []
  | g :: gs, ring => match discover ring devs now ms (fun _ => false) g with
    | (.ok ring', eid) => eid.toList ++ tries devs now ms gs ring'
    | (_, eid) => eid.toList

theorem next_fresh (e : Ent) (t : Ring) (devs : List Dev) (now : Nat) (hu : ∃ d ∈ devs, d.state = 1) (he : e.timeout = false) :
    next (e :: t) devs now (fun _ => false) = (t ++ [e], .ok e.eid) := by
  have h1 : hasUnidentified devs = true := by
    obtain ⟨d, hd, hs⟩ := hu
    exact List.any_eq_true.mpr ⟨d, hd, by simp [hs]⟩
  have h2 : ready now e = true := by simp [ready, he]
  have h3 := take_at [] t e
  simp only [List.nil_append, List.length_nil, List.append_nil] at h3
  simp only [next, h1, Bool.not_true, Bool.false_eq_true, if_false, h2, if_true, h3]
  rw [show ({ e with timeout := false } : Ent) = e by cases e; simp only at he; rw [he]]

theorem find_unique (l : Ring) (e : Ent) (hd : ∀ x ∈ l, x.eid ≠ e.eid) : find e.eid (l ++ [e]) = some l.length := by
  cases l with
  | nil => simp [find]
  | cons h t =>
    have : (t ++ [e]).findIdx? (fun x => x.eid == e.eid) = some t.length := by
      rw [List.findIdx?_append, List.findIdx?_eq_none_iff.mpr]
      · simp
      · intro x hx; simp [hd x (List.mem_cons_of_mem _ hx)]
    simp only [List.cons_append, find, this, List.length_cons]

theorem discover_fresh (e : Ent) (t : Ring) (devs : List Dev) (now ms : Nat) (hu : ∃ d ∈ devs, d.state = 1) (he : e.timeout = false)
    (hd : ∀ x ∈ t, x.eid ≠ e.eid) (good : Bool) :
    discover (e :: t) devs now ms (fun _ => false) good =
      (.ok (t ++ if good then [] else [{ e with timeout := true, due := now + ms }]), some e.eid) := by
  have hn := next_fresh e t devs now hu he
  have hf := find_unique t e hd
  unfold discover
  rw [hn]
  cases good with
  | true =>
    simp only [if_true, List.append_nil]
    cases t with
    | nil => simp [remove, find]
    | cons a t =>
      simp only [List.cons_append, List.length_cons] at hf
      simp only [List.cons_append, remove, hf]
      rw [List.eraseIdx_append_of_length_le (Nat.le_refl _), Nat.sub_self]
      simp
  | false =>
    simp only [Bool.false_eq_true, if_false, timedOut, hf]
    congr 2
    clear hn hf hd
    induction t with
    | nil => simp [List.modify]
    | cons b t ih => simp only [List.cons_append, List.length_cons, List.modify_succ_cons, ih]

/-- A round of discovery tries every new device exactly once, in the order of the list, whatever the devices answer. -/
theorem round_complete (devs : List Dev) (now ms : Nat) (hu : ∃ d ∈ devs, d.state = 1) (todo : Ring) :
    ∀ (rest : Ring) (gs : List Bool), gs.length = todo.length → (∀ e ∈ todo, e.timeout = false) → ((todo ++ rest).map (·.eid)).Nodup →
    tries devs now ms gs (todo ++ rest) = todo.map (·.eid) := by
  induction todo with
  | nil =>
    intro rest gs hl _ _
    rw [List.eq_nil_of_length_eq_zero hl]
    rfl
  | cons e todo ih =>
    intro rest gs hl hf hnd
    cases gs with
    | nil => simp only [List.length_nil, List.length_cons] at hl; omega
    | cons g gs =>
      simp only [List.cons_append, List.map_cons, List.nodup_cons] at hnd
      have hd : ∀ x ∈ todo ++ rest, x.eid ≠ e.eid := fun x hx hx2 => hnd.1 (hx2 ▸ List.mem_map_of_mem hx)
      have key := discover_fresh e (todo ++ rest) devs now ms hu (hf e (List.mem_cons_self ..)) hd g
      simp only [List.cons_append, tries, key, Option.toList_some, List.map_cons, List.cons.injEq, true_and, List.singleton_append]
      rw [List.append_assoc]
      refine ih _ gs (by simp only [List.length_cons] at hl; omega) (fun x hx => hf x (List.mem_cons_of_mem _ hx)) ?_
      cases g with
      | true => simpa using hnd.2
      | false =>
        rw [← List.append_assoc, List.map_append, List.nodup_append]
        refine ⟨hnd.2, by simp, ?_⟩
        intro a ha b hb
        simp only [Bool.false_eq_true, if_false, List.map_cons, List.map_nil, List.mem_singleton] at hb
        subst hb
        intro h
        exact hnd.1 (h ▸ ha)

/-! ### Cases that meet the hypotheses -/

/-- The own device and the bridge are not attestable; one device is to be identified. -/
def exDevs : List Dev := [⟨8, 0, 5, 0⟩, ⟨9, 0, 5, 0⟩, ⟨0, 7, 1, 0⟩]

/-- Two parts of a routing table. -/
def exBridge (h : UInt8) : Option Spec.Page :=
  if h = 0 then some ⟨3, [⟨9, 1⟩, ⟨0x20, 2⟩]⟩ else if h = 3 then some ⟨0xff, [⟨0x30, 1⟩]⟩ else none

example : Spec.Table exBridge 0 [⟨3, [⟨9, 1⟩, ⟨0x20, 2⟩]⟩, ⟨0xff, [⟨0x30, 1⟩]⟩] :=
  .more (by decide) rfl (.more (by decide) rfl .done)

example : fetch ⟨[], exDevs, true⟩ exBridge 5 10 3
    = some (⟨[⟨0x20, false, 5⟩, ⟨0x30, false, 5⟩, ⟨0x21, false, 5⟩], exDevs, false⟩, .ok ()) := by rfl

example : next [⟨0x20, true, 50⟩, ⟨0x30, false, 5⟩, ⟨0x21, false, 5⟩] exDevs 10 (fun _ => false)
    = ([⟨0x21, false, 5⟩, ⟨0x20, true, 50⟩, ⟨0x30, false, 5⟩], .ok 0x30) := by rfl
example : tries exDevs 10 100 [true, false, true] [⟨0x20, false, 5⟩, ⟨0x30, false, 5⟩, ⟨0x21, false, 5⟩] = [0x20, 0x30, 0x21] := by decide
example : (discover [⟨0x20, false, 5⟩, ⟨0x20, false, 5⟩] exDevs 10 100 (fun _ => false) true) = (.ok [⟨0x20, false, 5⟩], some 0x20) := by rfl
example : (next [⟨0x20, false, 5⟩] (exDevs.take 2) 10 (fun _ => false)) = ([], .error .none) := by rfl

/-! ### What is false -/

/-- A new device is not always offered: if the others have to wait, the last one of the list has to wait as well, although it was never tried. The requester does not sleep
meanwhile. -/
theorem counterexample_last_ignored (m : Mgr) (hm : m.devs = exDevs) :
    ∃ ring : Ring, (∃ e ∈ ring, e.timeout = false) ∧ next ring exDevs 10 (fun _ => false) = (ring, .error .none) ∧
      timeTillNext m (ring.map (·.due)) 10 (fun _ => false) = 0 := by
  refine ⟨[⟨0x20, true, 5000⟩, ⟨0x21, false, 5⟩], by decide, by rfl, ?_⟩
  unfold timeTillNext
  rw [hm]
  decide

/-- Removing a device by its EID is not safe in general: if it is the head of a longer list, the manager keeps a pointer to freed memory. -/
theorem counterexample_remove_head (h : Ent) (t : Ring) (ht : t ≠ []) (hd : ∀ x ∈ t, x.eid ≠ h.eid) : remove (h :: t) h.eid = .oob := by
  have : t.findIdx? (fun x => x.eid == h.eid) = none := List.findIdx?_eq_none_iff.mpr fun x hx => by simp [hd x hx]
  simp only [remove, find, this, if_true, if_neg ht]

/-- A range that starts with the bridge is skipped as a whole: the devices 0x0A and 0x0B are listed but never discovered. -/
theorem counterexample_range_skipped :
    ∃ bridge st', fetch ⟨[], exDevs, true⟩ bridge 5 10 2 = some (st', .ok ()) ∧
      Spec.Table bridge 0 [⟨0xff, [⟨9, 3⟩]⟩] ∧ (0x0a : UInt8) ∈ Spec.listed [⟨0xff, [⟨9, 3⟩]⟩] ∧ st'.ring = [] := by
  refine ⟨fun _ => some ⟨0xff, [⟨9, 3⟩]⟩, _, rfl, .more (by decide) rfl .done, by decide, rfl⟩

/-- A range that contains the own EID behind its start makes the device discover itself, and a range that goes beyond 0xFF makes it try the null EID. -/
theorem counterexample_own_eid :
    ∃ bridge st', fetch ⟨[], exDevs, true⟩ bridge 5 10 2 = some (st', .ok ()) ∧ (∃ e ∈ st'.ring, e.eid = 8) ∧ ∃ e ∈ st'.ring, e.eid = 0 := by
  refine ⟨fun _ => some ⟨0xff, [⟨7, 2⟩, ⟨0xfe, 3⟩]⟩, _, rfl, by decide, by decide⟩

end Verif.Discovery
