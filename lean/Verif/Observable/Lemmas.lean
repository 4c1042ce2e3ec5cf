import Verif.Observable.Spec
/-! The list in memory. -/
namespace Verif.Observable

/-- From `pos` the cells at `as` hold the observers `os`. -/
inductive Chain (m : Mem) : Nat → List Nat → List Nat → Prop
  | nil : Chain m 0 [] []
  | cons {a n o as os} : a ≠ 0 → m a = some ⟨o, n⟩ → Chain m n as os → Chain m a (a :: as) (o :: os)

theorem Chain.length {m : Mem} {p as os} (h : Chain m p as os) : as.length = os.length := by induction h <;> simp_all

theorem Chain.frame {m m' : Mem} {p as os} (h : Chain m p as os) (hf : ∀ x ∈ as, m' x = m x) : Chain m' p as os := by
  induction h with
  | nil => exact .nil
  | cons h1 h2 _ ih =>
    exact .cons h1 (by rw [hf _ (List.mem_cons_self ..)]; exact h2) (ih (fun x hx => hf x (List.mem_cons_of_mem _ hx)))

/-- The invariant: the list holds `L`, and exactly the cells of the list are allocated. -/
structure Inv (s : State) (as L : List Nat) : Prop where
  chain : Chain s.mem s.head as L
  nodup : as.Nodup
  live : ∀ x, (s.mem x).isSome ↔ x ∈ as
  distinct : L.Nodup
  nonzero : 0 ∉ L

theorem notifyLoop_spec {m : Mem} (cb : Nat → Bool) {p as os} (h : Chain m p as os) : ∀ n, os.length < n → notifyLoop m cb n p = some (os.filter cb) := by
  induction h with
  | nil => intro n hn; cases n with
    | zero => omega
    | succ n => simp [notifyLoop]
  | @cons a nx o as os h1 h2 _ ih =>
    intro n hn
    cases n with
    | zero => omega
    | succ n =>
      simp only [List.length_cons] at hn
      simp only [notifyLoop, h1, if_false, h2, ih n (by omega), Option.map_some, List.filter_cons]

theorem addLoop_spec {m : Mem} (o : Nat) {p as os} (h : Chain m p as os) : ∀ n prev, os.length < n →
    addLoop m o n p prev = some (if o ∈ os then .found else .last ((prev :: as).getLast (by simp))) := by
  induction h with
  | nil => intro n prev hn; cases n with
    | zero => omega
    | succ n => simp [addLoop]
  | @cons a nx q as os h1 h2 _ ih =>
    intro n prev hn
    cases n with
    | zero => omega
    | succ n =>
      simp only [List.length_cons] at hn
      simp only [addLoop, h1, if_false, h2]
      by_cases e : q = o
      · simp [e]
      · rw [if_neg e, ih n a (by omega)]
        have : o ≠ q := fun h => e h.symm
        simp [this]

/-- Appending a cell to a list. -/
theorem Chain.append {m : Mem} {o b} (hb : b ≠ 0) {p as os} (h : Chain m p as os) (hd : as.Nodup) (hm : m b = some ⟨o, 0⟩) (hn : b ∉ as) (hne : as ≠ []) :
    ∃ c, m (as.getLast hne) = some c ∧ Chain (upd m (as.getLast hne) (some { c with next := b })) p (as ++ [b]) (os ++ [o]) := by
  induction h with
  | nil => exact (hne rfl).elim
  | @cons a nx q as os h1 h2 hc ih =>
    simp only [List.nodup_cons, List.mem_cons, not_or] at hd hn
    cases as with
    | nil =>
      cases hc
      refine ⟨_, h2, ?_⟩
      simp only [List.getLast_singleton, List.nil_append, List.cons_append]
      refine .cons h1 (n := b) (by simp [upd]) (.cons hb (n := 0) ?_ .nil)
      simp [upd, hn.1, hm]
    | cons a2 as2 =>
      obtain ⟨c, c1, c2⟩ := ih hd.2 hn.2 (by simp)
      refine ⟨c, by simpa using c1, ?_⟩
      rw [List.getLast_cons (by simp)]
      refine .cons h1 (n := nx) ?_ c2
      have : a ≠ (a2 :: as2).getLast (by simp) := fun e => hd.1 (e ▸ List.getLast_mem _)
      simp [upd, this, h2]

theorem upd_same (m : Mem) (a : Nat) (v : Option Cell) : upd m a v a = v := by simp [upd]
theorem upd_ne (m : Mem) {a x : Nat} (v : Option Cell) (h : x ≠ a) : upd m a v x = m x := by simp [upd, h]

theorem add_inv {s : State} {as L : List Nat} (h : Inv s as L) {o : Nat} {alloc : Option Nat} (hl : Legal s (.add o alloc)) {n : Nat} (hn : L.length < n) :
    ∃ s' as', step n s (.add o alloc) = some (s', expected L (.add o alloc)) ∧ Inv s' as' (registered L (.add o alloc)) := by
  simp only [step, add, expected, registered]
  by_cases ho : o = 0
  · simp only [ho, if_true, Option.map_some, true_or]; exact ⟨s, as, rfl, h⟩
  cases alloc with
  | none => simp only [ho, if_false, Option.map_some, false_or, true_or, if_true]; exact ⟨s, as, rfl, h⟩
  | some a =>
    obtain ⟨ha, hma⟩ := hl
    have hna : a ∉ as := fun hm => by have := (h.live a).mpr hm; rw [hma] at this; simp at this
    have hch : Chain (upd s.mem a (some ⟨o, 0⟩)) s.head as L := h.chain.frame (fun x hx => upd_ne _ _ (fun e => hna (e ▸ hx)))
    simp only [ho, if_false, false_or, reduceCtorEq]
    by_cases hh : s.head = 0
    · have hc := h.chain
      rw [hh] at hc
      cases hc with
      | cons h1 _ _ => exact (h1 rfl).elim
      | nil =>
        rw [if_pos hh]
        simp only [Option.map_some, List.not_mem_nil, if_false, List.nil_append]
        refine ⟨_, [a], rfl, .cons ha (n := 0) (upd_same _ _ _) .nil, by simp, fun x => ?_, by simp, by simpa using fun e => ho e.symm⟩
        by_cases e : x = a
        · simp [upd, e]
        · simp only [upd_ne _ _ e, List.mem_singleton, e, iff_false]
          have := h.live x; simp at this; simp [this]
    · rw [if_neg hh, addLoop_spec o hch n 0 hn]
      by_cases hm : o ∈ L
      · simp only [hm, if_true, Option.map_some]
        refine ⟨_, as, rfl, h.chain.frame (fun x hx => ?_), h.nodup, fun x => ?_, h.distinct, h.nonzero⟩
        · have : x ≠ a := fun e => hna (e ▸ hx)
          show upd _ _ _ x = _
          rw [upd_ne _ _ this, upd_ne _ _ this]
        · by_cases e : x = a
          · simp [upd, e, hna]
          · show (upd _ _ _ x).isSome = true ↔ _
            rw [upd_ne _ _ e, upd_ne _ _ e]; exact h.live x
      · simp only [hm, if_false]
        have hne : as ≠ [] := fun e => by
          have hc := h.chain
          rw [e] at hc
          generalize s.head = hd at hc hh
          cases hc; exact hh rfl
        obtain ⟨c, c1, c2⟩ := Chain.append ha hch h.nodup (upd_same _ _ _) hna hne
        rw [List.getLast_cons hne, c1]
        simp only [Option.map_some]
        refine ⟨_, as ++ [a], rfl, c2, ?_, fun x => ?_, ?_, ?_⟩
        · rw [List.nodup_append]; exact ⟨h.nodup, by simp, fun x hx y hy e => by simp only [List.mem_singleton] at hy; subst hy; subst e; exact hna hx⟩
        · have hl := h.live x
          by_cases e2 : x = as.getLast hne
          · subst e2; simp [upd, List.getLast_mem]
          · show (upd _ _ _ x).isSome = true ↔ _
            rw [upd_ne _ _ e2]
            by_cases e : x = a
            · simp [upd, e]
            · rw [upd_ne _ _ e]; simp [hl, e]
        · rw [List.nodup_append]; exact ⟨h.distinct, by simp, fun x hx y hy e => by simp only [List.mem_singleton] at hy; subst hy; subst e; exact hm hx⟩
        · simp only [List.mem_append, List.mem_singleton, not_or]
          exact ⟨h.nonzero, fun e => ho e.symm⟩

/-- The loop of `remove`, behind the part `pre` of the list already walked through. -/
theorem removeLoop_spec {s : State} (o : Nat) {as L : List Nat} : ∀ (post pre os2 : List Nat) (os1 : List Nat) (p prev n : Nat),
    Inv s as L → as = pre ++ post → L = os1 ++ os2 → pre.length = os1.length → o ∉ os1 → Chain s.mem p post os2 → os2.length < n →
    (pre = [] ∧ prev = 0 ∧ p = s.head ∨ ∃ pre' q, pre = pre' ++ [prev] ∧ prev ≠ 0 ∧ s.mem prev = some ⟨q, p⟩) →
    ∃ s' as', removeLoop s o n p prev = some s' ∧ Inv s' as' (L.filter (· ≠ o)) := by
  intro post
  induction post with
  | nil =>
    intro pre os2 os1 p prev n h ha hL hlen ho hc hn _
    cases hc
    cases n with
    | zero => omega
    | succ n =>
      simp only [List.append_nil] at hL
      subst hL
      refine ⟨s, as, by simp [removeLoop], ?_⟩
      rw [List.filter_eq_self.mpr (fun x hx => by simp only [ne_eq, decide_eq_true_eq]; rintro rfl; exact ho hx)]
      exact h
  | cons a post ih =>
    intro pre os2 os1 p prev n h ha hL hlen ho hc hn hp
    cases n with
    | zero => omega
    | succ n =>
      cases hc with
      | @cons _ nx q _ os2 h1 h2 hc =>
      simp only [List.length_cons] at hn
      simp only [removeLoop, h1, if_false, h2]
      by_cases e : q = o
      · rw [if_pos e]
        subst e
        have hd := h.distinct
        rw [hL, List.nodup_append] at hd
        have ho2 : q ∉ os2 := (List.nodup_cons.mp hd.2.1).1
        have hfil : L.filter (· ≠ q) = os1 ++ os2 := by
          rw [hL, List.filter_append, List.filter_cons]
          simp only [ne_eq, not_true_eq_false, decide_false, Bool.false_eq_true, if_false]
          rw [List.filter_eq_self.mpr (fun x hx => by simp only [ne_eq, decide_eq_true_eq]; rintro rfl; exact ho hx),
            List.filter_eq_self.mpr (fun x hx => by simp only [ne_eq, decide_eq_true_eq]; rintro rfl; exact ho2 hx)]
        rw [hfil]
        have hd2 : (os1 ++ os2).Nodup := by rw [← hfil]; exact h.distinct.filter _
        have hz : 0 ∉ os1 ++ os2 := by rw [← hfil]; intro hm; exact h.nonzero (List.mem_filter.mp hm).1
        have hnd := h.nodup
        rw [ha, List.nodup_append] at hnd
        have hnd2 : (pre ++ post).Nodup := by
          rw [List.nodup_append]; exact ⟨hnd.1, (List.nodup_cons.mp hnd.2.1).2, fun x hx y hy => hnd.2.2 x hx y (List.mem_cons_of_mem _ hy)⟩
        have hapre : a ∉ pre := fun hm => hnd.2.2 a hm a (List.mem_cons_self ..) rfl
        have hapost : a ∉ post := (List.nodup_cons.mp hnd.2.1).1
        rcases hp with ⟨rfl, rfl, hph⟩ | ⟨pre', q', rfl, hp1, hp2⟩
        · rw [if_pos rfl]
          simp only [List.length_nil] at hlen
          have : os1 = [] := List.length_eq_zero_iff.mp hlen.symm
          subst this
          refine ⟨_, post, rfl, ?_, ?_, fun x => ?_, hd2, hz⟩
          · simp only [List.nil_append]
            exact hc.frame (fun x hx => upd_ne _ _ (fun e => hapost (e ▸ hx)))
          · simpa using hnd2
          · have := h.live x
            rw [ha] at this
            show (upd _ _ _ x).isSome = true ↔ _
            by_cases e : x = a
            · rw [e, upd_same]; simp only [Option.isSome_none, Bool.false_eq_true, false_iff]; exact hapost
            · rw [upd_ne _ _ e]; simpa [e] using this
        · rw [if_neg hp1, hp2]
          refine ⟨_, pre' ++ [prev] ++ post, rfl, ?_, hnd2, fun x => ?_, hd2, hz⟩
          · -- the list around the removed entry
            have hsplit : ∀ (pre' : List Nat) (os1 : List Nat) (hd : Nat), (pre' ++ [prev]).Nodup → (∀ x ∈ pre' ++ [prev], x ∉ a :: post) →
                Chain s.mem hd (pre' ++ [prev] ++ a :: post) (os1 ++ q :: os2) → (pre' ++ [prev]).length = os1.length →
                Chain (upd (upd s.mem prev (some ⟨q', nx⟩)) a none) hd (pre' ++ [prev] ++ post) (os1 ++ os2) := by
              intro pre'
              induction pre' with
              | nil =>
                intro os1 hd hnp hx hch hl
                cases os1 with
                | nil => simp at hl
                | cons w os1 =>
                  have : os1 = [] := by cases os1 with
                    | nil => rfl
                    | cons _ _ => simp at hl
                  subst this
                  simp only [List.nil_append, List.cons_append] at hch ⊢
                  cases hch with
                  | @cons _ nn _ _ _ g1 g2 g3 =>
                    rw [hp2] at g2
                    simp only [Option.some.injEq, Cell.mk.injEq] at g2
                    have hpp : prev ≠ a := fun e => by have := hx prev (by simp); simp [e] at this
                    refine .cons g1 (n := nx) ?_ (hc.frame (fun x hxx => ?_))
                    · rw [upd_ne _ _ hpp, upd_same, g2.1]
                    · rw [upd_ne _ _ (by rintro rfl; exact hapost hxx), upd_ne _ _ (by rintro rfl; exact hx x (by simp) (List.mem_cons_of_mem _ hxx))]
              | cons b pre' ih =>
                intro os1 hd hnp hx hch hl
                cases os1 with
                | nil => simp at hl
                | cons w os1 =>
                  simp only [List.cons_append] at hch hnp ⊢
                  cases hch with
                  | @cons _ nn _ _ _ g1 g2 g3 =>
                    simp only [List.nodup_cons] at hnp
                    have hbp : b ≠ a := fun e => by have := hx b (by simp); simp [e] at this
                    have hbv : b ≠ prev := fun e => hnp.1 (by simp [e])
                    refine .cons g1 (n := nn) (by rw [upd_ne _ _ hbp, upd_ne _ _ hbv]; exact g2) (ih os1 nn hnp.2 (fun x hxx => hx x (List.mem_cons_of_mem _ hxx)) g3 (by simpa using hl))
            have hall := h.chain
            rw [ha, hL] at hall
            exact hsplit pre' os1 s.head hnd.1 (fun x hx hm => hnd.2.2 x hx x hm rfl) hall hlen
          · have := h.live x
            rw [ha] at this
            show (upd _ _ _ x).isSome = true ↔ _
            by_cases e : x = a
            · rw [e, upd_same]
              simp only [Option.isSome_none, Bool.false_eq_true, false_iff, List.mem_append, not_or]
              simp only [List.mem_append, not_or] at hapre
              exact ⟨hapre, hapost⟩
            · rw [upd_ne _ _ e]
              by_cases e2 : x = prev
              · rw [e2, upd_same]; simp
              · rw [upd_ne _ _ e2]; simpa [e, e2] using this
      · rw [if_neg e]
        refine ih (pre ++ [a]) os2 (os1 ++ [q]) nx a n h (by simp [ha]) (by simp [hL]) (by simp [hlen]) ?_ hc (by omega) (.inr ⟨pre, q, rfl, h1, h2⟩)
        simp only [List.mem_append, List.mem_singleton, not_or]
        exact ⟨ho, fun h => e h.symm⟩

theorem step_inv {s : State} {as L : List Nat} (h : Inv s as L) {op : Op} (hl : Legal s op) {n : Nat} (hn : L.length < n) :
    ∃ s' as', step n s op = some (s', expected L op) ∧ Inv s' as' (registered L op) := by
  cases op with
  | add o alloc => exact add_inv h hl hn
  | remove o =>
    simp only [step, remove, expected, registered]
    by_cases ho : o = 0
    · simp only [ho, if_true, Option.map_some]
      refine ⟨s, as, rfl, ?_⟩
      rw [List.filter_eq_self.mpr (fun x hx => by simp only [ne_eq, decide_eq_true_eq]; rintro rfl; exact h.nonzero hx)]
      exact h
    · simp only [ho, if_false]
      obtain ⟨s', as', h1, h2⟩ := removeLoop_spec o as [] L [] s.head 0 n h rfl rfl rfl (by simp) h.chain hn (.inl ⟨rfl, rfl, rfl⟩)
      rw [h1]
      exact ⟨s', as', rfl, h2⟩
  | notify cb =>
    simp only [step, notify, expected, registered]
    rw [notifyLoop_spec cb h.chain n hn]
    exact ⟨s, as, rfl, h⟩

theorem release_spec {m : Mem} {p as os} (h : Chain m p as os) : as.Nodup → ∀ n, os.length < n →
    ∃ m', release n ⟨p, m⟩ = some ⟨0, m'⟩ ∧ (∀ x ∈ as, m' x = none) ∧ ∀ x, x ∉ as → m' x = m x := by
  intro hd n
  induction n generalizing m p as os with
  | zero => intro hn; omega
  | succ n ih =>
    intro hn
    cases h with
    | nil => exact ⟨m, by simp [release], by simp, fun _ _ => rfl⟩
    | @cons _ nx o as os h1 h2 h3 =>
      simp only [List.length_cons] at hn
      simp only [List.nodup_cons] at hd
      simp only [release, h1, if_false, h2]
      have h4 : Chain (upd m p none) nx as os := h3.frame (fun x hx => upd_ne _ _ (fun e => hd.1 (e ▸ hx)))
      obtain ⟨m', g1, g2, g3⟩ := ih h4 hd.2 (by omega)
      refine ⟨m', g1, fun x hx => ?_, fun x hx => ?_⟩
      · rcases List.mem_cons.mp hx with rfl | hx
        · rw [g3 x hd.1, upd_same]
        · exact g2 x hx
      · simp only [List.mem_cons, not_or] at hx
        rw [g3 x hx.2, upd_ne _ _ hx.1]

end Verif.Observable
