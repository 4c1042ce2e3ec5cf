import Verif.HostFw.Loops
/-! More invariants: accepting authentic images, the SPI filter, differences, migrating and restoring. -/
namespace Verif.HostFw
open Verif.Flash

/-! ### Authentic images are accepted -/

theorem hashLoop_sound {dv : Dev} (hd : Dev.Sound dv) {fail : Nat → Bool} (hf : ∀ n, fail n = false) : ∀ (k len : Nat), len ≤ k →
    ∀ (s : FS) (acc : Bytes) (a : Nat), (hashLoop dv fail s acc a len).1 = .ok := by
  intro k
  induction k with
  | zero => intro len hk s acc a; rw [hashLoop, dif_pos (by omega)]
  | succ k ih =>
    intro len hk s acc a
    rw [hashLoop]
    split
    · rfl
    · rename_i hl
      dsimp only
      rw [read_sound hd]
      dsimp only
      rw [hf]
      exact ih _ (by rw [chunk_eq, verifyBlock]; omega) _ _ _

theorem hashRegions_sound {dv : Dev} (hd : Dev.Sound dv) {fail : Nat → Bool} (hf : ∀ n, fail n = false) (off : Nat)
    (rs : List (Nat × Nat)) : ∀ (s : FS) (acc : Bytes), (hashRegions dv fail off s acc rs).1 = .ok := by
  induction rs with
  | nil => intro s acc; rfl
  | cons r rs ih =>
    intro s acc
    unfold hashRegions
    have := hashLoop_sound hd hf r.2 r.2 (Nat.le_refl _) s acc (u32 (r.1 + off))
    cases hc : hashLoop dv fail s acc (u32 (r.1 + off)) r.2 with
    | mk st x =>
      obtain ⟨acc1, s1⟩ := x
      rw [hc] at this
      dsimp only at this
      subst this
      exact ih _ _

theorem hashFlash_accepts {dv : Dev} (hd : Dev.Sound dv) {eg : Engine} (he : eg.Sound) {off : Nat} {rs : List Region} (hne : rs ≠ [])
    (hf : RegionsFit off rs) {ty : Nat} {d : Bytes} {s : FS} (h : eg.digest ty (content s.mem off rs) = some d) :
    ∃ s', hashFlash dv eg off rs ty s = (.ok d, s') ∧ s'.mem = s.mem := by
  have hm := (hashFlash_mem dv eg off rs ty s hf)
  have hr := hashRegions_sound hd he off (rs.map (fun r => (r.start, r.len))) s []
  have hx := hash_regions_exact dv eg.fail off (rs.map (fun r => (r.start, r.len))) s [] (by
    intro r hr
    simp only [List.mem_map] at hr
    obtain ⟨q, hq, rfl⟩ := hr
    exact hf q hq)
  unfold hashFlash at hm ⊢
  rw [if_neg hne, he] at hm ⊢
  cases hc : hashRegions dv eg.fail off s [] (rs.map (fun r => (r.start, r.len))) with
  | mk st x =>
    obtain ⟨data, s1⟩ := x
    rw [hc] at hr hx
    dsimp only at hr hx
    subst hr
    have hd2 := hx.2 rfl
    rw [List.nil_append, List.map_map] at hd2
    have : data = content s.mem off rs := hd2
    rw [← this] at h
    have he' : ∀ n, eg.fail n = false := he
    simp only [he', h, Bool.false_eq_true, if_false]
    exact ⟨s1, rfl, hx.1⟩

theorem eachUntil_accepts {f : α → FS → Except Err Unit × FS} {l : List α} {m : Mem}
    (hf : ∀ x ∈ l, ∀ s, s.mem = m → ∃ s', f x s = (.ok (), s') ∧ s'.mem = m) :
    ∀ s, s.mem = m → ∃ s', eachUntil f l s = (.ok (), s') ∧ s'.mem = m := by
  induction l with
  | nil => intro s hs; exact ⟨s, rfl, hs⟩
  | cons x xs ih =>
    intro s hs
    obtain ⟨s1, h1, h2⟩ := hf x (by simp) s hs
    unfold eachUntil
    rw [h1]
    exact ih (fun y hy => hf y (by simp [hy])) s1 h2

theorem verifyOnFlash_accepts {dv : Dev} (hd : Dev.Sound dv) {eg : Engine} (he : eg.Sound) (stack : Bytes) (all : Bool) {off : Nat}
    {l : ImageList} {m : Mem} (hg : l.Good eg off) (hc : l.Complete)
    (h : match l with
      | .sig l => ∀ i ∈ l, (all = true ∨ i.always ≠ 0) → i.Authentic eg m off
      | .hash l => ∀ i ∈ l, (all = true ∨ i.always ≠ 0) → i.Authentic eg m off) :
    ∀ s, s.mem = m → ∃ s', verifyOnFlash dv eg stack all off l s = (.ok (), s') ∧ s'.mem = m := by
  cases l with
  | sig l =>
    unfold verifyOnFlash
    apply eachUntil_accepts
    intro i hi s hs
    unfold verifySig
    split
    · rename_i hcond
      rw [if_neg (hc i hi).2]
      obtain ⟨d, h1, h2⟩ := h i hi (by simpa using hcond)
      rw [← hs] at h1
      obtain ⟨s1, h3, h4⟩ := hashFlash_accepts hd he (hc i hi).1 (hg i hi) h1
      rw [h3]
      dsimp only
      rw [if_pos h2]
      exact ⟨s1, rfl, h4.trans hs⟩
    · exact ⟨s, rfl, hs⟩
  | hash l =>
    unfold verifyOnFlash
    apply eachUntil_accepts
    intro i hi s hs
    unfold verifyHash
    split
    · rename_i hcond
      have h1 := h i hi (by simpa using hcond)
      unfold HashImage.Authentic at h1
      rw [← hs] at h1
      obtain ⟨s1, h3, h4⟩ := hashFlash_accepts hd he (hc i hi) (hg i hi).1 h1
      rw [h3]
      dsimp only
      have hlen := (hg i hi).2 _ _ h1
      rw [if_pos (by rw [List.take_append_of_le_length (by omega), List.take_of_length_le (l := i.hash.take i.hashLen) (by omega)])]
      exact ⟨s1, rfl, h4.trans hs⟩
    · exact ⟨s, rfl, hs⟩

/-! ### The SPI filter -/

theorem setRw_allows {fail : Nat → Bool} {f f' : Filter} {id a e : Nat} {r : Except Err Unit} (h : setRw fail f id a e = (r, f')) (x : Nat) :
    f'.Allows x → f.Allows x ∨ (r = .ok () ∧ a ≤ x ∧ x < e) := by
  unfold setRw at h
  split at h
  · simp only [Prod.mk.injEq] at h
    rw [← h.2]
    exact fun h => .inl h
  · simp only [Prod.mk.injEq] at h
    rw [← h.2]
    rintro ⟨i, s, e', h1, h2, h3⟩
    dsimp only at h1
    split at h1
    · simp only [Option.some.injEq, Prod.mk.injEq] at h1
      obtain ⟨rfl, rfl⟩ := h1
      exact .inr ⟨h.1.symm, h2, h3⟩
    · exact .inl ⟨i, s, e', h1, h2, h3⟩

theorem setRw_ok {fail : Nat → Bool} {f f' : Filter} {id a e : Nat} (h : setRw fail f id a e = (.ok (), f')) (hid : id < 256)
    (hn : f.rw id = none) (x : Nat) :
    (f.Allows x ∨ (a ≤ x ∧ x < e) → f'.Allows x) ∧ (∀ i, i ≠ id → f'.rw i = f.rw i) := by
  unfold setRw at h
  split at h
  · simp at h
  · simp only [Prod.mk.injEq, true_and] at h
    rw [← h, Nat.mod_eq_of_lt hid]
    refine ⟨?_, fun i hi => by simp [hi]⟩
    rintro (⟨i, s, e', h1, h2, h3⟩ | ⟨h2, h3⟩)
    · refine ⟨i, s, e', ?_, h2, h3⟩
      dsimp only
      rw [if_neg (by intro hc; rw [hc, hn] at h1; simp at h1)]
      exact h1
    · exact ⟨id, a, e, by simp, h2, h3⟩

theorem clearRw_ok {fail : Nat → Bool} {f f' : Filter} (h : clearRw fail f = (.ok (), f')) : ∀ i, f'.rw i = none := by
  unfold clearRw at h
  split at h
  · simp at h
  · simp only [Prod.mk.injEq, true_and] at h
    rw [← h]
    exact fun _ => rfl

theorem clearRw_error {fail : Nat → Bool} {f f' : Filter} {e : Err} (h : clearRw fail f = (.error e, f')) : f'.rw = f.rw := by
  unfold clearRw at h
  split at h
  · simp only [Prod.mk.injEq] at h
    rw [← h.2]
  · simp at h

theorem Region.stop_le (r : Region) : r.stop ≤ r.start + r.len := by unfold Region.stop u32; exact Nat.mod_le _ _

theorem configLoop_sound (fail : Nat → Bool) (all : List Region) (rs : List Region) : ∀ (i : Nat) (f f' : Filter) (r : Except Err Unit),
    (∀ q ∈ rs, q ∈ all) → (∀ a, f.Allows a → Covered all a) → configLoop fail i rs f = (r, f') → ∀ a, f'.Allows a → Covered all a := by
  induction rs with
  | nil =>
    intro i f f' r _ hf h
    simp only [configLoop, Prod.mk.injEq] at h
    rw [← h.2]; exact hf
  | cons q qs ih =>
    intro i f f' r hsub hf h
    unfold configLoop at h
    cases hs : setRw fail f (i + 1) q.start q.stop with
    | mk x f1 =>
      have hf1 : ∀ a, f1.Allows a → Covered all a := by
        intro a ha
        rcases setRw_allows hs a ha with h1 | ⟨-, h1, h2⟩
        · exact hf a h1
        · exact ⟨q, hsub q (by simp), h1, by have := q.stop_le; omega⟩
      rw [hs] at h
      cases x with
      | error e =>
        simp only [Prod.mk.injEq] at h
        rw [← h.2]; exact hf1
      | ok u => exact ih (i + 1) f1 f' r (fun q hq => hsub q (by simp [hq])) hf1 h

theorem configLoop_exact (fail : Nat → Bool) (rs : List Region) : ∀ (i : Nat) (f f' : Filter), i + rs.length < 256 →
    (∀ q ∈ rs, q.Proper) → (∀ j, i < j → f.rw j = none) → configLoop fail i rs f = (.ok (), f') →
    ∀ a, (f.Allows a ∨ Covered rs a) → f'.Allows a := by
  induction rs with
  | nil =>
    intro i f f' _ _ _ h
    simp only [configLoop, Prod.mk.injEq, true_and] at h
    rw [← h]
    rintro a (h1 | ⟨q, hq, -⟩)
    · exact h1
    · simp at hq
  | cons q qs ih =>
    intro i f f' hlen hp hn h a ha
    unfold configLoop at h
    simp only [List.length_cons] at hlen
    cases hs : setRw fail f (i + 1) q.start q.stop with
    | mk x f1 =>
      rw [hs] at h
      cases x with
      | error e => simp at h
      | ok u =>
        have hok := setRw_ok hs (by omega) (hn _ (by omega))
        refine ih (i + 1) f1 f' (by omega) (fun q hq => hp q (by simp [hq])) (fun j hj => ?_) h a ?_
        · rw [(hok 0).2 j (by omega)]; exact hn j (by omega)
        · rcases ha with ha | ⟨r, hr, hra⟩
          · exact .inl ((hok a).1 (.inl ha))
          · rcases List.mem_cons.1 hr with rfl | hr
            · refine .inl ((hok a).1 (.inr ⟨hra.1, ?_⟩))
              rw [(hp r (by simp)).stop]; exact hra.2
            · exact .inr ⟨r, hr, hra⟩

/-- What has been gathered for the region `p` that is being put together: all of `[p.start, last)` is covered, or everything from
`p.start` to the end of the address space is. -/
def Run (rs : List Region) (p : Region) (last total : Nat) : Prop :=
  (p.start + total < 2 ^ 32 ∧ last = p.start + total ∧ ∀ a, p.start ≤ a → a < last → Covered rs a) ∨
  ∀ a, p.start ≤ a → a < 2 ^ 32 → Covered rs a

theorem Run.covers {rs : List Region} {p : Region} {last total : Nat} (h : Run rs p last total) :
    ∀ a, p.start ≤ a → a < u32 (p.start + total) → Covered rs a := by
  intro a h1 h2
  rcases h with ⟨h3, h4, h5⟩ | h3
  · rw [u32_id h3] at h2
    exact h5 a h1 (by omega)
  · exact h3 a h1 (Nat.lt_trans h2 (Nat.mod_lt _ (by decide)))

theorem Run.new {rs : List Region} {n : Region} (hn : n ∈ rs) : Run rs n n.stop n.len := by
  by_cases h : n.start + n.len < 2 ^ 32
  · exact .inl ⟨h, u32_id h, fun a h1 h2 => ⟨n, hn, h1, by have := n.stop_le; omega⟩⟩
  · exact .inr fun a h1 h2 => ⟨n, hn, h1, by omega⟩

theorem Run.extend {rs : List Region} {p n : Region} {last total : Nat} (h : Run rs p last total) (hn : n ∈ rs) (e : n.start = last) :
    Run rs p (u32 (last + n.len)) (total + n.len) := by
  rcases h with ⟨h3, h4, h5⟩ | h3
  · by_cases hx : last + n.len < 2 ^ 32
    · refine .inl ⟨by omega, by rw [u32_id hx]; omega, fun a h1 h2 => ?_⟩
      rw [u32_id hx] at h2
      by_cases ha : a < last
      · exact h5 a h1 ha
      · exact ⟨n, hn, by omega, by omega⟩
    · refine .inr fun a h1 h2 => ?_
      by_cases ha : a < last
      · exact h5 a h1 ha
      · exact ⟨n, hn, by omega, by omega⟩
  · exact .inr h3

theorem configAllLoop_sound (fail : Nat → Bool) (gs : List (List Region)) (fuel : Nat) : ∀ (prev next : Option Region) (last total id : Nat)
    (f f' : Filter) (r : Except Err Unit), (∀ a, f.Allows a → Covered gs.flatten a) →
    (∀ p, prev.or next = some p → Run gs.flatten p last total) →
    configAllLoop fail gs fuel prev next last total id f = some (r, f') → ∀ a, f'.Allows a → Covered gs.flatten a := by
  induction fuel with
  | zero => intro prev next last total id f f' r _ _ h; simp [configAllLoop] at h
  | succ fuel ih =>
    intro prev next last total id f f' r hf hrun h
    have hl := findGroup_spec last gs
    unfold configAllLoop at h
    have hset : ∀ p, prev.or next = some p → ∀ x f1, setRw fail f (id + 1) p.start (u32 (p.start + total)) = (x, f1) →
        ∀ a, f1.Allows a → Covered gs.flatten a := by
      intro p hp x f1 hs a ha
      rcases setRw_allows hs a ha with h1 | ⟨-, h1, h2⟩
      · exact hf a h1
      · exact (hrun p hp).covers a h1 h2
    cases hp : prev.or next with
    | none =>
      cases hn : findGroup last gs with
      | none =>
        rw [hp, hn] at h
        simp only [Option.some.injEq, Prod.mk.injEq] at h
        rw [← h.2]; exact hf
      | some n =>
        rw [hp, hn] at h
        rw [hn] at hl
        dsimp only at h
        exact ih none (some n) n.stop n.len id f f' r hf (by
          intro p hp
          simp only [Option.none_or, Option.some.injEq] at hp
          subst hp
          exact Run.new hl.1) h
    | some p =>
      cases hn : findGroup last gs with
      | none =>
        rw [hp, hn] at h
        dsimp only at h
        cases hs : setRw fail f (id + 1) p.start (u32 (p.start + total)) with
        | mk x f1 =>
          have := hset p hp x f1 hs
          rw [hs] at h
          cases x with
          | error e => simp only [Option.some.injEq, Prod.mk.injEq] at h; rw [← h.2]; exact this
          | ok u => simp only [Option.some.injEq, Prod.mk.injEq] at h; rw [← h.2]; exact this
      | some n =>
        rw [hp, hn] at h
        rw [hn] at hl
        dsimp only at h
        split at h
        · rename_i he
          exact ih (some p) (some n) _ _ id f f' r hf (by
            intro q hq
            simp only [Option.some_or, Option.some.injEq] at hq
            subst hq
            exact (hrun p hp).extend hl.1 he) h
        · cases hs : setRw fail f (id + 1) p.start (u32 (p.start + total)) with
          | mk x f1 =>
            have := hset p hp x f1 hs
            rw [hs] at h
            cases x with
            | error e => simp only [Option.some.injEq, Prod.mk.injEq] at h; rw [← h.2]; exact this
            | ok u =>
              exact ih none (some n) _ _ (id + 1) f1 f' r this (by
                intro q hq
                simp only [Option.none_or, Option.some.injEq] at hq
                subst hq
                exact Run.new hl.1) h

theorem configAllLoop_ends (fail : Nat → Bool) (gs : List (List Region)) (hp : ∀ r ∈ gs.flatten, r.Proper) (fuel : Nat) :
    ∀ (prev next : Option Region) (last total id : Nat) (f : Filter), remaining last gs.flatten < fuel →
    configAllLoop fail gs fuel prev next last total id f ≠ none := by
  induction fuel with
  | zero => intro prev next last total id f h; omega
  | succ fuel ih =>
    intro prev next last total id f hr
    have hl := findGroup_spec last gs
    unfold configAllLoop
    cases hn : findGroup last gs with
    | none =>
      cases hpr : prev.or next with
      | none => simp
      | some p =>
        dsimp only
        cases hs : setRw fail f (id + 1) p.start (u32 (p.start + total)) with
        | mk x f1 => cases x <;> simp
    | some n =>
      rw [hn] at hl
      have hlt := hl.progress (hp n hl.1)
      cases hpr : prev.or next with
      | none => exact ih _ _ _ _ _ _ (by omega)
      | some p =>
        dsimp only
        split
        · rename_i he
          have : u32 (last + n.len) = n.stop := by rw [← he]; rfl
          rw [this]
          exact ih _ _ _ _ _ _ (by omega)
        · cases hs : setRw fail f (id + 1) p.start (u32 (p.start + total)) with
          | mk x f1 =>
            cases x with
            | error e => simp
            | ok u => exact ih _ _ _ _ _ _ (by omega)

theorem configAllLoop_exact (fail : Nat → Bool) (gs : List (List Region)) (hdis : Disjoint gs.flatten) (fuel : Nat) :
    ∀ (prev next : Option Region) (last total id : Nat) (f f' : Filter),
    (∀ j, id < j → f.rw j = none) → id + remaining last gs.flatten + (if (prev.or next).isSome then 1 else 0) < 256 →
    (∀ p, prev.or next = some p → last = p.start + total ∧ last < 2 ^ 32) →
    configAllLoop fail gs fuel prev next last total id f = some (.ok (), f') →
    ∀ a, (f.Allows a ∨ (∃ r ∈ gs.flatten, r.has a ∧ last ≤ r.start) ∨ (∃ p, prev.or next = some p ∧ p.start ≤ a ∧ a < last)) →
      f'.Allows a := by
  induction fuel with
  | zero => intro prev next last total id f f' _ _ _ h; simp [configAllLoop] at h
  | succ fuel ih =>
    intro prev next last total id f f' hfree hid hrun h a ha
    have hl := findGroup_spec last gs
    unfold configAllLoop at h
    cases hn : findGroup last gs with
    | none =>
      rw [hn] at hl
      have hgone : ¬ ∃ r ∈ gs.flatten, r.has a ∧ last ≤ r.start := by
        rintro ⟨r, hr, -, h2⟩
        have := hl r hr
        omega
      cases hpr : prev.or next with
      | none =>
        rw [hpr, hn] at h
        simp only [Option.some.injEq, Prod.mk.injEq, true_and] at h
        rw [← h]
        rcases ha with ha | ha | ⟨p, hp, -⟩
        · exact ha
        · exact absurd ha hgone
        · rw [hpr] at hp; simp at hp
      | some p =>
        rw [hpr, hn] at h
        rw [hpr] at hid
        simp only [Option.isSome_some, if_true] at hid
        obtain ⟨h1, h2⟩ := hrun p hpr
        dsimp only at h
        cases hs : setRw fail f (id + 1) p.start (u32 (p.start + total)) with
        | mk x f1 =>
          rw [hs] at h
          cases x with
          | error e => simp at h
          | ok u =>
            simp only [Option.some.injEq, Prod.mk.injEq, true_and] at h
            rw [← h]
            have hok := setRw_ok hs (by omega) (hfree _ (by omega)) a
            apply hok.1
            rcases ha with ha | ha | ⟨q, hq, h3, h4⟩
            · exact .inl ha
            · exact absurd ha hgone
            · rw [hpr] at hq
              simp only [Option.some.injEq] at hq
              subst hq
              rw [u32_id (by omega)]
              exact .inr ⟨h3, by omega⟩
    | some n =>
      rw [hn] at hl
      have hpn := hdis.1 n hl.1
      have hlt := hl.progress hpn
      have hnew : (∃ r ∈ gs.flatten, r.has a ∧ last ≤ r.start) →
          (∃ r ∈ gs.flatten, r.has a ∧ n.stop ≤ r.start) ∨ (n.start ≤ a ∧ a < n.stop) := by
        rintro ⟨r, hr, h1, h2⟩
        by_cases hx : n.stop ≤ r.start
        · exact .inl ⟨r, hr, h1, hx⟩
        · rw [hpn.stop] at hx ⊢
          have := hdis.after hl hr h2 (by omega)
          subst this
          exact .inr h1
      cases hpr : prev.or next with
      | none =>
        rw [hpr, hn] at h
        rw [hpr] at hid
        simp only [Option.isSome_none, Bool.false_eq_true, if_false] at hid
        dsimp only at h
        refine ih none (some n) n.stop n.len id f f' hfree (by simp; omega) (by
          intro p hp
          simp only [Option.none_or, Option.some.injEq] at hp
          subst hp
          exact ⟨hpn.stop, by rw [hpn.stop]; exact hpn.2⟩) h a ?_
        rcases ha with ha | ha | ⟨p, hp, -⟩
        · exact .inl ha
        · rcases hnew ha with h1 | h1
          · exact .inr (.inl h1)
          · exact .inr (.inr ⟨n, rfl, h1⟩)
        · rw [hpr] at hp; simp at hp
      | some p =>
        rw [hpr, hn] at h
        rw [hpr] at hid
        simp only [Option.isSome_some, if_true] at hid
        obtain ⟨h1, h2⟩ := hrun p hpr
        dsimp only at h
        split at h
        · rename_i he
          have hst : u32 (last + n.len) = n.stop := by rw [← he]; rfl
          rw [hst] at h
          have hs2 := hpn.stop
          have := hpn.2
          refine ih (some p) (some n) n.stop (total + n.len) id f f' hfree (by simp; omega) (by
            intro q hq
            simp only [Option.some_or, Option.some.injEq] at hq
            subst hq
            exact ⟨by omega, by omega⟩) h a ?_
          rcases ha with ha | ha | ⟨q, hq, h3, h4⟩
          · exact .inl ha
          · rcases hnew ha with h1 | h1
            · exact .inr (.inl h1)
            · exact .inr (.inr ⟨p, rfl, by omega, by omega⟩)
          · rw [hpr] at hq
            simp only [Option.some.injEq] at hq
            subst hq
            exact .inr (.inr ⟨p, rfl, h3, by omega⟩)
        · cases hs : setRw fail f (id + 1) p.start (u32 (p.start + total)) with
          | mk x f1 =>
            rw [hs] at h
            cases x with
            | error e => simp at h
            | ok u =>
              have hok := setRw_ok hs (by omega) (hfree _ (by omega))
              dsimp only at h
              refine ih none (some n) n.stop n.len (id + 1) f1 f' (fun j hj => ?_) (by simp; omega) (by
                intro q hq
                simp only [Option.none_or, Option.some.injEq] at hq
                subst hq
                exact ⟨hpn.stop, by rw [hpn.stop]; exact hpn.2⟩) h a ?_
              · rw [(hok 0).2 j (by omega)]; exact hfree j (by omega)
              · rcases ha with ha | ha | ⟨q, hq, h3, h4⟩
                · exact .inl ((hok a).1 (.inl ha))
                · rcases hnew ha with h1 | h1
                  · exact .inr (.inl h1)
                  · exact .inr (.inr ⟨n, rfl, h1⟩)
                · rw [hpr] at hq
                  simp only [Option.some.injEq] at hq
                  subst hq
                  refine .inl ((hok a).1 (.inr ⟨h3, ?_⟩))
                  rw [u32_id (by omega)]; omega

/-! ### Differences -/

theorem length_filter_ne [DecidableEq α] (l : List α) (h : l.Nodup) (x : α) (hx : x ∈ l) : (l.filter (fun y => y ≠ x)).length + 1 = l.length := by
  induction l with
  | nil => simp at hx
  | cons y ys ih =>
    rw [List.nodup_cons] at h
    by_cases hy : y = x
    · subst hy
      rw [List.filter_cons_of_neg (by simp), List.filter_eq_self.2 (by
        intro z hz
        simp only [ne_eq, decide_not, Bool.not_eq_eq_eq_not, Bool.not_true, decide_eq_false_iff_not]
        rintro rfl
        exact h.1 hz)]
      simp
    · rw [List.filter_cons_of_pos (by simpa using hy)]
      rcases List.mem_cons.1 hx with rfl | hx
      · exact absurd rfl hy
      · simp only [List.length_cons]
        rw [ih h.2 hx]

/-- A list without repetitions that is contained in another one of the same length has the same members. -/
theorem mem_of_subset_length [DecidableEq α] : ∀ (l1 l2 : List α), l1.Nodup → l2.Nodup → l1.length = l2.length → (∀ x ∈ l1, x ∈ l2) →
    ∀ x ∈ l2, x ∈ l1 := by
  intro l1
  induction l1 with
  | nil =>
    intro l2 _ _ hl _ x hx
    have : l2 = [] := List.length_eq_zero_iff.1 hl.symm
    subst this
    exact hx
  | cons y ys ih =>
    intro l2 h1 h2 hl hs x hx
    rw [List.nodup_cons] at h1
    by_cases hxy : x = y
    · simp [hxy]
    · have hc := length_filter_ne l2 h2 y (hs y (by simp))
      simp only [List.length_cons] at hl
      have := ih (l2.filter (fun z => z ≠ y)) h1.2 (h2.filter _) (by omega) (by
        intro z hz
        simp only [ne_eq, decide_not, List.mem_filter, Bool.not_eq_eq_eq_not, Bool.not_true, decide_eq_false_iff_not]
        refine ⟨hs z (by simp [hz]), ?_⟩
        rintro rfl
        exact h1.1 hz) x (by simp [hx, hxy])
      exact List.mem_cons_of_mem _ this

theorem Disjoint.nodup {rs : List Region} (h : Disjoint rs) : rs.Nodup := by
  obtain ⟨h1, h2⟩ := h
  induction rs with
  | nil => exact List.nodup_nil
  | cons r rs ih =>
    rw [List.pairwise_cons] at h2
    rw [List.nodup_cons]
    refine ⟨fun hr => ?_, ih (fun q hq => h1 q (by simp [hq])) h2.2⟩
    have := h2.1 r hr
    have := (h1 r (by simp)).1
    unfold Region.Apart at *
    omega

theorem regionsLoop_false (rs1 rs2 : List Region) (hd : Disjoint rs1) (fuel : Nat) : ∀ last, regionsLoop rs1 rs2 fuel last = some false →
    ∀ r ∈ rs1, last ≤ r.start → r ∈ rs2 := by
  induction fuel with
  | zero => intro last h; simp [regionsLoop] at h
  | succ fuel ih =>
    intro last h r hr hlr
    have hl1 := findNext_spec last rs1
    have hl2 := findNext_spec last rs2
    unfold regionsLoop at h
    cases h1 : findNext last rs1 with
    | none => rw [h1] at hl1; have := hl1 r hr; omega
    | some p1 =>
      rw [h1] at h hl1
      cases h2 : findNext last rs2 with
      | none => rw [h2] at h; simp at h
      | some p2 =>
        rw [h2] at h hl2
        dsimp only at h
        split at h
        · simp at h
        · rename_i e1
          split at h
          · simp at h
          · rename_i e2
            have hp := hd.1 p1 hl1.1
            by_cases hx : p1.stop ≤ r.start
            · exact ih _ h r hr hx
            · rw [hp.stop] at hx
              have := hd.after hl1 hr hlr (by omega)
              subst this
              have : r = p2 := by
                cases r; cases p2
                simp only [ne_eq, Decidable.not_not] at e1 e2
                simp_all
              rw [this]; exact hl2.1

theorem regionsLoop_same (rs1 rs2 : List Region) (hd : Disjoint rs1) (hm : ∀ r, r ∈ rs1 ↔ r ∈ rs2) (fuel : Nat) : ∀ last,
    remaining last rs1 < fuel → regionsLoop rs1 rs2 fuel last = some false := by
  induction fuel with
  | zero => intro last h; omega
  | succ fuel ih =>
    intro last h
    have hl1 := findNext_spec last rs1
    have hl2 := findNext_spec last rs2
    have he := hl1.unique hl2 hm hd.unique
    unfold regionsLoop
    rw [← he]
    cases h1 : findNext last rs1 with
    | none => rfl
    | some p =>
      rw [h1] at hl1
      have := hl1.progress (hd.1 p hl1.1)
      simp only [ne_eq, not_true, if_false]
      exact ih _ (by omega)

theorem regionsLoop_ends (rs1 rs2 : List Region) (hd : ∀ r ∈ rs1, r.Proper) (fuel : Nat) : ∀ last,
    remaining last rs1 < fuel → regionsLoop rs1 rs2 fuel last ≠ none := by
  induction fuel with
  | zero => intro last h; omega
  | succ fuel ih =>
    intro last h
    have hl1 := findNext_spec last rs1
    unfold regionsLoop
    cases h1 : findNext last rs1 with
    | none => simp
    | some p =>
      rw [h1] at hl1
      have := hl1.progress (hd p hl1.1)
      dsimp only
      cases h2 : findNext last rs2 with
      | none => simp
      | some q =>
        dsimp only
        split
        · simp
        · split
          · simp
          · exact ih _ (by omega)

theorem regionsDifferent_iff {fuel : Nat} {rs1 rs2 : List Region} (h1 : Disjoint rs1) (h2 : Disjoint rs2) (hf : rs1.length < fuel) :
    regionsDifferent fuel rs1 rs2 = some false ↔ ∀ r, r ∈ rs1 ↔ r ∈ rs2 := by
  unfold regionsDifferent
  constructor
  · intro h
    split at h
    · simp at h
    · rename_i hl
      simp only [ne_eq, Decidable.not_not] at hl
      have hs : ∀ r ∈ rs1, r ∈ rs2 := fun r hr => regionsLoop_false rs1 rs2 h1 fuel 0 h r hr (Nat.zero_le _)
      exact fun r => ⟨hs r, mem_of_subset_length rs1 rs2 h1.nodup h2.nodup hl hs r⟩
  · intro hm
    have ha : ∀ (a b : List Region), a.Nodup → b.Nodup → (∀ r ∈ a, r ∈ b) → a.length ≤ b.length := by
      intro a
      induction a with
      | nil => intro b _ _ _; simp
      | cons x xs ih =>
        intro b hx hb hs
        rw [List.nodup_cons] at hx
        have hc := length_filter_ne b hb x (hs x (by simp))
        have := ih (b.filter (fun z => z ≠ x)) hx.2 (hb.filter _) (by
          intro z hz
          simp only [ne_eq, decide_not, List.mem_filter, Bool.not_eq_eq_eq_not, Bool.not_true, decide_eq_false_iff_not]
          refine ⟨hs z (by simp [hz]), ?_⟩
          rintro rfl
          exact hx.1 hz)
        simp only [List.length_cons]
        omega
    have h3 := ha rs1 rs2 h1.nodup h2.nodup (fun r hr => (hm r).1 hr)
    have h4 := ha rs2 rs1 h2.nodup h1.nodup (fun r hr => (hm r).2 hr)
    rw [if_neg (by omega)]
    exact regionsLoop_same rs1 rs2 h1 hm fuel 0 (by have := remaining_le rs1 0; omega)

theorem regionsDifferent_ends {fuel : Nat} {rs1 rs2 : List Region} (h1 : ∀ r ∈ rs1, r.Proper) (hf : rs1.length < fuel) :
    regionsDifferent fuel rs1 rs2 ≠ none := by
  unfold regionsDifferent
  split
  · simp
  · exact regionsLoop_ends rs1 rs2 h1 fuel 0 (by have := remaining_le rs1 0; omega)

theorem differentLoop_iff {f : α → α → Option Bool} {R : α → α → Prop} : ∀ (l1 l2 : List α), l1.length = l2.length →
    (∀ a ∈ l1, ∀ b ∈ l2, f a b = some false ↔ R a b) → (differentLoop f l1 l2 = some false ↔ Matching R l1 l2) := by
  intro l1
  induction l1 with
  | nil =>
    intro l2 hl _
    have : l2 = [] := List.length_eq_zero_iff.1 hl.symm
    subst this
    simp [differentLoop, Matching]
  | cons a as ih =>
    intro l2 hl h
    cases l2 with
    | nil => simp at hl
    | cons b bs =>
      have h1 := h a (by simp) b (by simp)
      have h2 := ih bs (by simpa using hl) (fun x hx y hy => h x (by simp [hx]) y (by simp [hy]))
      unfold differentLoop Matching
      rw [← h1, ← h2]
      split
      · rename_i e; simp [e]
      · rename_i e
        constructor
        · intro h; exact absurd h e
        · intro h; exact absurd h.1 e

theorem Matching.length {R : α → α → Prop} : ∀ (l1 l2 : List α), Matching R l1 l2 → l1.length = l2.length := by
  intro l1
  induction l1 with
  | nil => intro l2 h; cases l2 with
    | nil => rfl
    | cons b bs => simp [Matching] at h
  | cons a as ih =>
    intro l2 h
    cases l2 with
    | nil => simp [Matching] at h
    | cons b bs => simp [ih bs h.2]

end Verif.HostFw
