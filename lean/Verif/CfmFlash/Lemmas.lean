import Verif.CfmFlash.Model
import Verif.ManifestFlash.Lemmas
/-!
Helper lemmas about the elements of a CFM.
-/
namespace Verif.CfmFlash
open Verif
open Spec (Elem Child Comp Digests Check IdCheck Behind Has digestLen)

theorem split_first {α : Type} (p : α → Prop) (l : List α) : (∀ x ∈ l, ¬ p x) ∨ ∃ a x b, l = a ++ x :: b ∧ p x ∧ ∀ y ∈ a, ¬ p y := by
  induction l with
  | nil => exact .inl (fun x hx => by cases hx)
  | cons x l ih =>
    by_cases hp : p x
    · exact .inr ⟨[], x, l, rfl, hp, fun y hy => by cases hy⟩
    · rcases ih with h | ⟨a, y, b, rfl, hy, ha⟩
      · refine .inl fun z hz => ?_
        rcases List.mem_cons.mp hz with rfl | hz
        · exact hp
        · exact h z hz
      · refine .inr ⟨x :: a, y, b, rfl, hy, fun z hz => ?_⟩
        rcases List.mem_cons.mp hz with rfl | hz
        · exact hp
        · exact ha z hz

theorem find_skip (ty parent : UInt8) (r : List Elem) : ∀ (l : List Elem) (i : Nat), (∀ e ∈ l, e.parent ≠ 0xff ∧ e.ty ≠ ty) →
    find ty parent (l ++ r) i = find ty parent r (i + l.length) := by
  intro l
  induction l with
  | nil => intro i _; rfl
  | cons e l ih =>
    intro i h
    obtain ⟨h1, h2⟩ := h e (List.mem_cons_self ..)
    rw [List.cons_append, find, if_neg (fun hx => h1 hx.2), if_neg h2, ih (i + 1) (fun x hx => h x (List.mem_cons_of_mem _ hx)), List.length_cons]
    congr 1; omega

theorem find_here (ty parent : UInt8) (e : Elem) (r : List Elem) (i : Nat) (h1 : e.parent ≠ 0xff) (h2 : e.ty = ty) (h3 : e.parent = parent) :
    find ty parent (e :: r) i = .ok (i, e) := by
  rw [find, if_neg (fun hx => h1 hx.2), if_pos h2, if_neg (fun hx => hx.2 h3)]

theorem find_behind (ty parent : UInt8) (hp : parent ≠ 0xff) (post : List Elem) (hb : Behind post) (i : Nat) :
    find ty parent post i = .error .childNotFound := by
  obtain ⟨tops, rest, rfl, ht, hr⟩ := hb
  cases tops with
  | cons e t =>
    rw [List.cons_append, find, if_pos ⟨hp, ht e (List.mem_cons_self ..)⟩]
  | nil =>
    rcases hr with rfl | ⟨d, r, rfl⟩
    · rw [List.nil_append, find, if_neg hp]
    · rw [List.nil_append, find, if_pos ⟨hp, rfl⟩]

/-- The elements of a child: its own, and those below it. -/
theorem elems_mem (h : Nat) (c : Child) (hc : c.ok h) (e : Elem) (he : e ∈ c.elems) :
    (e = ⟨c.ty, 0x70, c.bytes⟩) ∨ ((e.ty = 0x75 ∨ e.ty = 0x79) ∧ e.parent ≠ 0xff ∧ e.parent ≠ 0x70) := by
  rcases List.mem_cons.mp he with rfl | he
  · exact .inl rfl
  · refine .inr ?_
    cases c with
    | data p i cs =>
      obtain ⟨x, _, rfl⟩ := List.mem_map.mp he
      exact ⟨.inl rfl, (show (0x74 : UInt8) ≠ 0xff by decide), (show (0x74 : UInt8) ≠ 0x70 by decide)⟩
    | manifest t i n cs =>
      obtain ⟨x, _, rfl⟩ := List.mem_map.mp he
      refine ⟨.inr rfl, show t ≠ 0xff ∧ t ≠ 0x70 from ?_⟩
      rcases hc.1 with ht | ht | ht <;> rw [ht] <;> decide
    | pmr => cases he
    | pmrDigest => cases he
    | rootCa => cases he
    | digest => cases he
    | aggregated => cases he

theorem child_ty (h : Nat) (c : Child) (hc : c.ok h) : c.ty ≠ 0x70 ∧ c.ty ≠ 0x75 ∧ c.ty ≠ 0x79 ∧ c.ty ≠ 0xff := by
  cases c with
  | manifest t i n cs =>
    show t ≠ 0x70 ∧ t ≠ 0x75 ∧ t ≠ 0x79 ∧ t ≠ 0xff
    rcases hc.1 with ht | ht | ht <;> rw [ht] <;> decide
  | pmr => exact (show (0x71 : UInt8) ≠ 0x70 ∧ (0x71 : UInt8) ≠ 0x75 ∧ (0x71 : UInt8) ≠ 0x79 ∧ (0x71 : UInt8) ≠ 0xff by decide)
  | pmrDigest => exact (show (0x72 : UInt8) ≠ 0x70 ∧ (0x72 : UInt8) ≠ 0x75 ∧ (0x72 : UInt8) ≠ 0x79 ∧ (0x72 : UInt8) ≠ 0xff by decide)
  | rootCa => exact (show (0x7a : UInt8) ≠ 0x70 ∧ (0x7a : UInt8) ≠ 0x75 ∧ (0x7a : UInt8) ≠ 0x79 ∧ (0x7a : UInt8) ≠ 0xff by decide)
  | digest => exact (show (0x73 : UInt8) ≠ 0x70 ∧ (0x73 : UInt8) ≠ 0x75 ∧ (0x73 : UInt8) ≠ 0x79 ∧ (0x73 : UInt8) ≠ 0xff by decide)
  | data => exact (show (0x74 : UInt8) ≠ 0x70 ∧ (0x74 : UInt8) ≠ 0x75 ∧ (0x74 : UInt8) ≠ 0x79 ∧ (0x74 : UInt8) ≠ 0xff by decide)
  | aggregated => exact (show (0x7b : UInt8) ≠ 0x70 ∧ (0x7b : UInt8) ≠ 0x75 ∧ (0x7b : UInt8) ≠ 0x79 ∧ (0x7b : UInt8) ≠ 0xff by decide)

/-- The elements of some children. -/
def flat (cs : List Child) : List Elem := cs.flatMap Child.elems

theorem flat_append (a b : List Child) : flat (a ++ b) = flat a ++ flat b := List.flatMap_append

theorem flat_cons (x : Child) (b : List Child) : flat (x :: b) = ⟨x.ty, 0x70, x.bytes⟩ :: (x.below ++ flat b) := rfl

theorem flat_mem (h : Nat) (cs : List Child) (hc : ∀ c ∈ cs, c.ok h) (e : Elem) (he : e ∈ flat cs) :
    (∃ c ∈ cs, e = ⟨c.ty, 0x70, c.bytes⟩) ∨ ((e.ty = 0x75 ∨ e.ty = 0x79) ∧ e.parent ≠ 0xff ∧ e.parent ≠ 0x70) := by
  obtain ⟨c, hm, he⟩ := List.mem_flatMap.mp he
  rcases elems_mem h c (hc c hm) e he with h1 | h1
  · exact .inl ⟨c, hm, h1⟩
  · exact .inr h1

theorem flat_skip (h : Nat) (cs : List Child) (hc : ∀ c ∈ cs, c.ok h) (ty : UInt8) (h1 : ty ≠ 0x75) (h2 : ty ≠ 0x79) (hn : ∀ c ∈ cs, c.ty ≠ ty) :
    ∀ e ∈ flat cs, e.parent ≠ 0xff ∧ e.ty ≠ ty := by
  intro e he
  rcases flat_mem h cs hc e he with ⟨c, hm, rfl⟩ | ⟨h3, h4, _⟩
  · exact ⟨(show (0x70 : UInt8) ≠ 0xff by decide), hn c hm⟩
  · refine ⟨h4, fun hx => ?_⟩
    rcases h3 with h3 | h3
    · exact h1 (hx.symm.trans h3)
    · exact h2 (hx.symm.trans h3)

theorem find_child (h : Nat) (a : List Child) (x : Child) (b : List Elem) (ha : ∀ c ∈ a, c.ok h) (ty : UInt8) (h1 : ty ≠ 0x75) (h2 : ty ≠ 0x79)
    (hn : ∀ c ∈ a, c.ty ≠ ty) (hx : x.ty = ty) (i : Nat) :
    find ty 0x70 (flat a ++ ⟨x.ty, 0x70, x.bytes⟩ :: b) i = .ok (i + (flat a).length, ⟨x.ty, 0x70, x.bytes⟩) := by
  rw [find_skip _ _ _ _ _ (flat_skip h a ha ty h1 h2 hn)]
  exact find_here ty 0x70 _ _ _ (show (0x70 : UInt8) ≠ 0xff by decide) hx rfl

theorem count_behind (ty parent child : UInt8) (hb1 : ty ≠ 0xff) (hb : parent = 0xff ∨ parent = 0x70) (post : List Elem) (h : Behind post) :
    childCount ty parent child post = 0 := by
  obtain ⟨tops, rest, rfl, ht, hr⟩ := h
  induction tops with
  | nil =>
    rcases hr with rfl | ⟨d, r, rfl⟩
    · rfl
    · rw [List.nil_append, childCount, if_pos]
      rcases hb with rfl | rfl
      · exact .inl rfl
      · exact .inr rfl
  | cons e t ih =>
    rw [List.cons_append, childCount]
    split
    · rfl
    · rw [if_neg, ih (fun x hx => ht x (List.mem_cons_of_mem _ hx))]
      intro hx
      exact hb1 (hx.1.symm.trans (ht e (List.mem_cons_self ..)))

theorem first_behind (ty child : UInt8) (post : List Elem) (h : Behind post) (i : Nat) : childFirst ty 0xff child post i = 0 := by
  obtain ⟨tops, rest, rfl, ht, hr⟩ := h
  cases tops with
  | nil =>
    rcases hr with rfl | ⟨d, r, rfl⟩
    · rfl
    · rw [List.nil_append, childFirst, if_pos (.inl rfl)]
  | cons e t => rw [List.cons_append, childFirst, if_pos (.inl (ht e (List.mem_cons_self ..)))]

/-- Elements that do not end a count and are not counted. -/
theorem count_skip (ty parent child : UInt8) (r : List Elem) : ∀ (l : List Elem), (∀ e ∈ l, e.parent ≠ parent ∧ e.ty ≠ parent ∧ ¬ (e.parent = ty ∧ e.ty = child)) →
    childCount ty parent child (l ++ r) = childCount ty parent child r := by
  intro l
  induction l with
  | nil => intro _; rfl
  | cons e l ih =>
    intro h
    obtain ⟨h1, h2, h3⟩ := h e (List.mem_cons_self ..)
    rw [List.cons_append, childCount, if_neg (fun hx => hx.elim h1 h2), if_neg h3, ih (fun x hx => h x (List.mem_cons_of_mem _ hx))]

theorem first_skip (ty parent child : UInt8) (r : List Elem) : ∀ (l : List Elem) (i : Nat),
    (∀ e ∈ l, e.parent ≠ parent ∧ e.ty ≠ parent ∧ ¬ (e.parent = ty ∧ e.ty = child)) →
    childFirst ty parent child (l ++ r) i = childFirst ty parent child r (i + l.length) := by
  intro l
  induction l with
  | nil => intro _ _; rfl
  | cons e l ih =>
    intro i h
    obtain ⟨h1, h2, h3⟩ := h e (List.mem_cons_self ..)
    rw [List.cons_append, childFirst, if_neg (fun hx => hx.elim h1 h2), if_neg h3, ih _ (fun x hx => h x (List.mem_cons_of_mem _ hx)), List.length_cons]
    congr 1; omega

theorem flat_count_skip (h : Nat) (cs : List Child) (hc : ∀ c ∈ cs, c.ok h) (ty : UInt8) (hn : ∀ c ∈ cs, c.ty ≠ ty) :
    ∀ e ∈ flat cs, e.parent ≠ 0xff ∧ e.ty ≠ 0xff ∧ ¬ (e.parent = 0x70 ∧ e.ty = ty) := by
  intro e he
  rcases flat_mem h cs hc e he with ⟨c, hm, rfl⟩ | ⟨h3, h4, h5⟩
  · exact ⟨(show (0x70 : UInt8) ≠ 0xff by decide), (child_ty h c (hc c hm)).2.2.2, fun hx => hn c hm hx.2⟩
  · refine ⟨h4, ?_, fun hx => h5 hx.1⟩
    rcases h3 with h3 | h3 <;> rw [h3] <;> decide

theorem below_count_skip (h : Nat) (x : Child) (hx : x.ok h) (ty : UInt8) : ∀ e ∈ x.below, e.parent ≠ 0xff ∧ e.ty ≠ 0xff ∧ ¬ (e.parent = 0x70 ∧ e.ty = ty) := by
  intro e he
  cases x with
  | data p i cs =>
    obtain ⟨x, _, rfl⟩ := List.mem_map.mp he
    exact ⟨(show (0x74 : UInt8) ≠ 0xff by decide), (show (0x75 : UInt8) ≠ 0xff by decide), fun h => absurd h.1 (show (0x74 : UInt8) ≠ 0x70 by decide)⟩
  | manifest t i n cs =>
    obtain ⟨x, _, rfl⟩ := List.mem_map.mp he
    have ht : t ≠ 0xff ∧ t ≠ 0x70 := by rcases hx.1 with ht | ht | ht <;> rw [ht] <;> decide
    exact ⟨ht.1, (show (0x79 : UInt8) ≠ 0xff by decide), fun h => ht.2 h.1⟩
  | pmr => cases he
  | pmrDigest => cases he
  | rootCa => cases he
  | digest => cases he
  | aggregated => cases he

theorem count_children (h : Nat) (post : List Elem) (hb : Behind post) (ty : UInt8) : ∀ (cs : List Child), (∀ c ∈ cs, c.ok h) →
    childCount 0x70 0xff ty (flat cs ++ post) = (cs.filter (fun c => c.ty = ty)).length := by
  intro cs
  induction cs with
  | nil => intro _; exact count_behind _ _ _ (by decide) (.inl rfl) post hb
  | cons c cs ih =>
    intro hc
    have hok := hc c (List.mem_cons_self ..)
    have ih := ih (fun x hx => hc x (List.mem_cons_of_mem _ hx))
    rw [flat_cons, List.cons_append, childCount, if_neg, List.append_assoc, count_skip _ _ _ _ _ (below_count_skip h c hok ty), ih]
    · by_cases ht : c.ty = ty
      · rw [if_pos ⟨rfl, ht⟩, List.filter_cons_of_pos (by simpa using ht), List.length_cons]
      · rw [if_neg (fun hx => ht hx.2), List.filter_cons_of_neg (by simpa using ht)]
    · rintro (hx | hx)
      · exact absurd hx (show (0x70 : UInt8) ≠ 0xff by decide)
      · exact (child_ty h c hok).2.2.2 hx

theorem first_child (h : Nat) (a : List Child) (x : Child) (b : List Elem) (ha : ∀ c ∈ a, c.ok h) (hx : x.ok h) (ty : UInt8)
    (hn : ∀ c ∈ a, c.ty ≠ ty) (hx' : x.ty = ty) (i : Nat) :
    childFirst 0x70 0xff ty (flat a ++ ⟨x.ty, 0x70, x.bytes⟩ :: b) i = i + (flat a).length := by
  rw [first_skip _ _ _ _ _ _ (flat_count_skip h a ha ty hn), childFirst, if_neg, if_pos ⟨rfl, hx'⟩]
  rintro (h1 | h1)
  · exact absurd h1 (show (0x70 : UInt8) ≠ 0xff by decide)
  · exact (child_ty h x hx).2.2.2 h1

theorem first_none (h : Nat) (post : List Elem) (hb : Behind post) (cs : List Child) (hc : ∀ c ∈ cs, c.ok h) (ty : UInt8) (hn : ∀ c ∈ cs, c.ty ≠ ty) (i : Nat) :
    childFirst 0x70 0xff ty (flat cs ++ post) i = 0 := by
  rw [first_skip _ _ _ _ _ _ (flat_count_skip h cs hc ty hn), first_behind _ _ _ hb]

/-! ### The next element of a type -/

/-- The cursor is at the children `cs`, with `post` behind the component. -/
def At (es : List Elem) (entry : Nat) (cs : List Child) (post : List Elem) : Prop := es.drop entry = flat cs ++ post

theorem At.behind {es post : List Elem} {entry : Nat} {a b : List Child} {x : Child} (h : At es entry (a ++ x :: b) post) :
    es.drop (entry + (flat a).length + 1) = x.below ++ (flat b ++ post) := by
  unfold At at h
  rw [Nat.add_assoc, ← List.drop_drop, h, flat_append, flat_cons, List.append_assoc, ← List.drop_drop, List.drop_left,
    List.cons_append, List.drop_succ_cons, List.drop_zero, List.append_assoc]

theorem At.after {es post : List Elem} {entry : Nat} {a b : List Child} {x : Child} (h : At es entry (a ++ x :: b) post) :
    At es (entry + (flat a).length + 1 + x.below.length) b post := by
  unfold At
  rw [← List.drop_drop, h.behind, List.drop_left]

theorem next_found {h entry : Nat} {es post : List Elem} {a b : List Child} {x : Child} (hat : At es entry (a ++ x :: b) post) (hb : Behind post)
    (hok : ∀ c ∈ a ++ x :: b, c.ok h) {ty : UInt8} (h1 : ty ≠ 0x75) (h2 : ty ≠ 0x79) (hn : ∀ c ∈ a, c.ty ≠ ty) (hx : x.ty = ty) :
    nextElem es ty entry = .ok (⟨x.ty, 0x70, x.bytes⟩, entry + (flat a).length + 1) := by
  unfold nextElem
  rw [hat, count_children h post hb ty _ hok, if_neg, flat_append, flat_cons, List.append_assoc, List.cons_append,
    find_child h a x _ (fun c hc => hok c (List.mem_append_left _ hc)) ty h1 h2 hn hx]
  intro h0
  have : x ∈ (a ++ x :: b).filter (fun c => c.ty = ty) := List.mem_filter.mpr ⟨List.mem_append_right _ (List.mem_cons_self ..), by simpa using hx⟩
  rw [List.length_eq_zero_iff.mp h0] at this
  cases this

theorem next_none {h entry : Nat} {es post : List Elem} {cs : List Child} (hat : At es entry cs post) (hb : Behind post)
    (hok : ∀ c ∈ cs, c.ok h) {ty : UInt8} (hn : ∀ c ∈ cs, c.ty ≠ ty) : nextElem es ty entry = .error .entryNotFound := by
  unfold nextElem
  rw [hat, count_children h post hb ty _ hok, if_pos]
  rw [List.length_eq_zero_iff, List.filter_eq_nil_iff]
  intro c hc
  simpa using hn c hc

end Verif.CfmFlash
