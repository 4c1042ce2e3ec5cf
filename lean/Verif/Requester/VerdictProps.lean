import Verif.Requester.VerdictLemmas
/-! The rules of a CFM on measurements are applied as meant – apart from data with more than one check. -/
namespace Verif.Requester

/-- The comparison of data is exact, in both byte orders and under a mask: it is passed exactly when the numbers are in the relation asked for. -/
theorem compare_exact (c : DataCheck) (actual expected : Bytes) (h0 : actual ≠ []) (hm : ∀ m, c.mask = some m → actual.length ≤ m.length) :
    ∃ b, compareData c.check actual expected c.mask c.bigEndian = some b ∧ (b = true ↔ Compares c actual expected) := by
  unfold compareData Compares
  by_cases hl : expected.length = actual.length
  · rw [if_neg (by simpa using hl)]
    have hma : (masked c.mask actual).length = actual.length := masked_length hm
    have hme : (masked c.mask expected).length = expected.length := masked_length fun m h => hl ▸ hm m h
    have hne : masked c.mask actual ≠ [] := by
      intro e
      rw [e] at hma
      exact h0 (List.length_eq_zero_iff.1 hma.symm)
    have hlen : (masked c.mask actual).length = (masked c.mask expected).length := by omega
    have hc : ∀ l : List Nat, (∀ i ∈ l, i < actual.length) → firstDiff (diffAt c.mask actual expected) l = firstDiff (dif (masked c.mask actual) (masked c.mask expected)) l :=
      fun l hl' => firstDiff_congr fun i hi => diffAt_eq hm hl (hl' i hi)
    cases hb : c.bigEndian
    · obtain ⟨r, h1, h2⟩ := firstDiff_little _ _ hlen hne
      rw [hma] at h1
      simp only [Bool.false_eq_true, if_false]
      rw [hc _ (by simp), h1]
      refine ⟨_, rfl, ?_⟩
      rw [accepts_iff c.check h2]
      simp [number, hl]
    · obtain ⟨r, h1, h2⟩ := firstDiff_big _ _ hlen hne
      rw [hma] at h1
      simp only [if_true]
      rw [hc _ (by simp), h1]
      refine ⟨_, rfl, ?_⟩
      rw [accepts_iff c.check h2]
      simp [number, hl]
  · rw [if_pos hl]
    exact ⟨false, rfl, by simp [hl]⟩

example : ∃ c : DataCheck, c.mask = some [0x0f, 0xff] ∧ compareData c.check [0xf1, 2] [1, 3] c.mask c.bigEndian = some true ∧
    compareData c.check [0xf2, 2] [1, 3] c.mask c.bigEndian = some true ∧ compareData c.check [0xf1, 3] [1, 3] c.mask c.bigEndian = some false :=
  ⟨⟨.lt, false, some [0x0f, 0xff], []⟩, by decide⟩

/-- An entry concerns a version set. -/
abbrev on (vs : Nat) (e : DataEntry) : Bool := e.vs == 0 || e.vs == vs

/-- The rule of a check on some entries. -/
def PassesOn (c : DataCheck) (actual : Bytes) (l : List DataEntry) : Prop :=
  (c.check = .eq ∧ ∃ e ∈ l, Compares c actual e.data) ∨ (c.check ≠ .eq ∧ ∀ e ∈ l, Compares c actual e.data)

theorem passes_iff (c : DataCheck) (actual : Bytes) (vs : Nat) : Passes c actual vs ↔ PassesOn c actual (applicable c vs) := by
  unfold Passes PassesOn
  cases c.check <;> simp

theorem entries_skip {c : DataCheck} {a : Bytes} {e : DataEntry} {rest : List DataEntry} {s : DataSt} (hv : s.vs ≠ 0) (ho : on s.vs e = false) :
    dataEntries c a (e :: rest) s = dataEntries c a rest s := by
  simp only [Bool.or_eq_false_iff, beq_eq_false_iff_ne] at ho
  rw [dataEntries, if_pos ⟨hv, ho.1, ho.2⟩]

theorem entries_inl {c : DataCheck} {a : Bytes} (h0 : a ≠ []) : ∀ {es : List DataEntry} {s s' : DataSt}, s.vs ≠ 0 → dataEntries c a es s = .inl s' →
    s'.vs = s.vs ∧ (es.filter (on s.vs) = [] → s' = s) ∧
      (es.filter (on s.vs) ≠ [] → s'.n ≠ 0 ∧ (s'.st = none ↔ PassesOn c a (es.filter (on s.vs))))
  | [], s, s', _, h => by
    cases h
    simp
  | e :: rest, s, s', hv, h => by
    by_cases ho : on s.vs e = true
    · have hn : ¬ (s.vs ≠ 0 ∧ e.vs ≠ 0 ∧ e.vs ≠ s.vs) := by
        simp only [Bool.or_eq_true, beq_iff_eq] at ho
        omega
      have hn2 : ¬ (s.vs = 0 ∧ e.vs = 0) := by omega
      rw [dataEntries, if_neg hn, if_neg hn2] at h
      split at h
      · cases h
      · split at h
        · cases h
        · rename_i hmask
          have hm : ∀ m, c.mask = some m → a.length ≤ m.length := by
            intro m hm
            rw [hm] at hmask
            simpa using hmask
          obtain ⟨b, hb, hiff⟩ := compare_exact c a e.data h0 hm
          rw [hb] at h
          have hf : (e :: rest).filter (on s.vs) = e :: rest.filter (on s.vs) := by
            rw [List.filter_cons, if_pos ho]
          rw [hf]
          cases b with
          | true =>
            have hc := hiff.1 rfl
            simp only [hv, if_false] at h
            split at h
            · rename_i he
              cases h
              refine ⟨rfl, by simp, fun _ => ⟨by simp, ?_⟩⟩
              simp only [true_iff]
              exact .inl ⟨he, e, by simp, hc⟩
            · rename_i he
              obtain ⟨i1, i2, i3⟩ := entries_inl h0 (s := { vs := s.vs, n := s.n + 1, st := none }) hv h
              simp only at i1 i2 i3
              refine ⟨i1, by simp, fun _ => ?_⟩
              by_cases hr : rest.filter (on s.vs) = []
              · rw [i2 hr, hr]
                refine ⟨by simp, ?_⟩
                simp only [true_iff]
                exact .inr ⟨he, by simpa using hc⟩
              · obtain ⟨j1, j2⟩ := i3 hr
                refine ⟨j1, j2.trans ?_⟩
                unfold PassesOn
                simp only [he, false_and, false_or, ne_eq, not_false_eq_true, true_and, List.mem_cons, forall_eq_or_imp, hc]
          | false =>
            have hc : ¬ Compares c a e.data := fun x => by simpa using hiff.2 x
            simp only at h
            split at h
            · rename_i he
              cases h
              refine ⟨rfl, by simp, fun _ => ⟨by simp, ?_⟩⟩
              simp only [reduceCtorEq, false_iff]
              rintro (⟨x, _⟩ | ⟨_, x⟩)
              · exact he x
              · exact hc (x e (by simp))
            · rename_i he
              have he : c.check = .eq := Classical.not_not.1 he
              obtain ⟨i1, i2, i3⟩ := entries_inl h0 (s := { vs := s.vs, n := s.n + 1, st := some .rule }) hv h
              simp only at i1 i2 i3
              refine ⟨i1, by simp, fun _ => ?_⟩
              by_cases hr : rest.filter (on s.vs) = []
              · rw [i2 hr, hr]
                refine ⟨by simp, ?_⟩
                simp only [reduceCtorEq, false_iff]
                rintro (⟨_, y, hy, x⟩ | ⟨x, _⟩)
                · simp only [List.mem_singleton] at hy
                  exact hc (hy ▸ x)
                · exact x he
              · obtain ⟨j1, j2⟩ := i3 hr
                refine ⟨j1, j2.trans ?_⟩
                unfold PassesOn
                simp only [he, true_and, ne_eq, not_true_eq_false, false_and, or_false, List.mem_cons, exists_eq_or_imp, hc, false_or]
    · have ho : on s.vs e = false := by simpa using ho
      rw [entries_skip hv ho] at h
      have hf : (e :: rest).filter (on s.vs) = rest.filter (on s.vs) := by
        rw [List.filter_cons, if_neg (by simp [ho])]
      rw [hf]
      exact entries_inl h0 hv h

/-- A check is well formed for a version set: the mask is long enough, and one value only is given for checks of order. -/
def WellFormed (c : DataCheck) (actual : Bytes) (vs : Nat) : Prop :=
  (∀ m, c.mask = some m → actual.length ≤ m.length) ∧ (c.check ≠ .eq → c.check ≠ .ne → (applicable c vs).length ≤ 1)

theorem entries_total {c : DataCheck} {a : Bytes} (h0 : a ≠ []) (hm : ∀ m, c.mask = some m → a.length ≤ m.length) :
    ∀ {es : List DataEntry} {s : DataSt}, s.vs ≠ 0 → (c.check ≠ .eq → c.check ≠ .ne → (es.filter (on s.vs)).length ≤ 1 ∧ (es.filter (on s.vs) ≠ [] → s.n = 0)) →
      ∃ s', dataEntries c a es s = .inl s'
  | [], s, _, _ => ⟨s, rfl⟩
  | e :: rest, s, hv, hw => by
    by_cases ho : on s.vs e = true
    · have hn : ¬ (s.vs ≠ 0 ∧ e.vs ≠ 0 ∧ e.vs ≠ s.vs) := by
        simp only [Bool.or_eq_true, beq_iff_eq] at ho
        omega
      have hf : (e :: rest).filter (on s.vs) = e :: rest.filter (on s.vs) := by rw [List.filter_cons, if_pos ho]
      rw [hf] at hw
      have hmask : ¬ (c.mask.any (fun m => decide (m.length < a.length)) = true) := by
        cases hx : c.mask with
        | none => simp
        | some m =>
          have := hm m hx
          simp
          omega
      have hmul : ¬ (s.n ≠ 0 ∧ c.check ≠ .eq ∧ c.check ≠ .ne) := by
        rintro ⟨x, y, z⟩
        exact x ((hw y z).2 (by simp))
      rw [dataEntries, if_neg hn, if_neg (by omega), if_neg hmul, if_neg hmask]
      obtain ⟨b, hb, -⟩ := compare_exact c a e.data h0 hm
      rw [hb]
      have hrest : ∀ (k : Nat) (t : Option Err), ∃ s', dataEntries c a rest { vs := s.vs, n := k, st := t } = .inl s' := by
        intro k t
        refine entries_total h0 hm hv fun y z => ?_
        have := (hw y z).1
        simp only [List.length_cons] at this
        have hnil : rest.filter (on s.vs) = [] := List.length_eq_zero_iff.1 (by omega)
        simp only
        rw [hnil]
        exact ⟨by simp, by simp⟩
      cases b with
      | true =>
        simp only [hv, if_false]
        split
        · exact ⟨_, rfl⟩
        · exact hrest _ _
      | false =>
        simp only
        split
        · exact ⟨_, rfl⟩
        · exact hrest _ _
    · have ho : on s.vs e = false := by simpa using ho
      rw [entries_skip hv ho]
      have hf : (e :: rest).filter (on s.vs) = rest.filter (on s.vs) := by rw [List.filter_cons, if_neg (by simp [ho])]
      rw [hf] at hw
      exact entries_total h0 hm hv hw

theorem checks_none {a : Bytes} : ∀ {cs : List DataCheck} {s : DataSt}, s.vs ≠ 0 → (∀ c ∈ cs, applicable c s.vs = []) → dataChecks a cs s = .inl s
  | [], _, _, _ => rfl
  | c :: rest, s, hv, h => by
    have hc := h c (by simp)
    have : ∀ es : List DataEntry, es.filter (on s.vs) = [] → dataEntries c a es s = .inl s := by
      intro es
      induction es with
      | nil => intro _; rfl
      | cons e r ih =>
        intro hf
        have ho : on s.vs e = false := by
          cases ho : on s.vs e
          · rfl
          · rw [List.filter_cons, if_pos ho] at hf
            cases hf
        rw [List.filter_cons, if_neg (by simp [ho])] at hf
        rw [entries_skip hv ho]
        exact ih hf
    rw [dataChecks, this _ hc]
    exact checks_none hv fun c' hc' => h c' (by simp [hc'])

theorem checks_append {a : Bytes} : ∀ {xs ys : List DataCheck} {s : DataSt},
    dataChecks a (xs ++ ys) s = match dataChecks a xs s with | .inl s' => dataChecks a ys s' | .inr r => .inr r
  | [], _, _ => rfl
  | c :: rest, ys, s => by
    simp only [List.cons_append, dataChecks]
    cases dataEntries c a c.entries s with
    | inr r => rfl
    | inl s' => exact checks_append

/-- Data with one check that concerns the version set of the device: accepted exactly when the check is passed. Missing for the whole claim: the same for data with
more than one check, see `earlier_check_ignored`. -/
theorem data_exact_partial {pre post : List DataCheck} {c : DataCheck} {actual : Bytes} {vs : Nat} (hvs : vs ≠ 0) (h0 : actual ≠ [])
    (hpre : ∀ d ∈ pre, applicable d vs = []) (hpost : ∀ d ∈ post, applicable d vs = []) (ha : applicable c vs ≠ []) (hw : WellFormed c actual vs) :
    (verifyData (pre ++ c :: post) actual vs).1 = .ok () ↔ Passes c actual vs := by
  unfold verifyData
  rw [checks_append, checks_none (s := { vs := vs, n := 0, st := some .invalid }) hvs hpre]
  simp only [dataChecks]
  obtain ⟨s', hs⟩ := entries_total (c := c) (es := c.entries) (s := { vs := vs, n := 0, st := some .invalid }) h0 hw.1 hvs
    (fun x y => ⟨hw.2 x y, fun _ => rfl⟩)
  obtain ⟨i1, -, i3⟩ := entries_inl h0 hvs hs
  obtain ⟨j1, j2⟩ := i3 ha
  rw [hs]
  simp only
  rw [checks_none (s := s') (by rw [i1]; exact hvs) (by rw [i1]; exact hpost)]
  simp only [if_neg j1]
  rw [passes_iff]
  refine Iff.trans ?_ j2
  cases s'.st <;> simp

theorem checks_last {a : Bytes} (h0 : a ≠ []) : ∀ {cs : List DataCheck} {s s' : DataSt}, s.vs ≠ 0 → dataChecks a cs s = .inl s' →
    s'.vs = s.vs ∧ ((s' = s ∧ ∀ c ∈ cs, applicable c s.vs = []) ∨
      (s'.n ≠ 0 ∧ ∃ pre c post, cs = pre ++ c :: post ∧ applicable c s.vs ≠ [] ∧ (∀ d ∈ post, applicable d s.vs = []) ∧ (s'.st = none ↔ Passes c a s.vs)))
  | [], s, s', _, h => by
    cases h
    exact ⟨rfl, .inl ⟨rfl, by simp⟩⟩
  | c :: rest, s, s', hv, h => by
    rw [dataChecks] at h
    cases hd : dataEntries c a c.entries s with
    | inr r => rw [hd] at h; cases h
    | inl u =>
      rw [hd] at h
      obtain ⟨i1, i2, i3⟩ := entries_inl h0 hv hd
      obtain ⟨k1, k2⟩ := checks_last h0 (s := u) (by rw [i1]; exact hv) h
      rw [i1] at k1 k2
      refine ⟨k1, ?_⟩
      rcases k2 with ⟨e, hr⟩ | ⟨hn, pre, d, post, e, h1, h2, h3⟩
      · subst e
        by_cases ha : applicable c s.vs = []
        · exact .inl ⟨i2 ha, by simpa using ⟨ha, hr⟩⟩
        · obtain ⟨j1, j2⟩ := i3 ha
          exact .inr ⟨j1, [], c, rest, rfl, ha, hr, j2.trans (passes_iff c a s.vs).symm⟩
      · exact .inr ⟨hn, c :: pre, d, post, by rw [e]; rfl, h1, h2, h3⟩

/-- Accepted data pass the last of the checks that concern the version set of the device, if there is one. -/
theorem data_ok_last {checks : List DataCheck} {actual : Bytes} {vs : Nat} (hvs : vs ≠ 0) (h0 : actual ≠ []) (h : (verifyData checks actual vs).1 = .ok ()) :
    (∀ c ∈ checks, applicable c vs = []) ∨
      ∃ pre c post, checks = pre ++ c :: post ∧ applicable c vs ≠ [] ∧ (∀ d ∈ post, applicable d vs = []) ∧ Passes c actual vs := by
  unfold verifyData at h
  split at h
  · cases h
  · rename_i s hs
    obtain ⟨-, k⟩ := checks_last h0 (s := { vs := vs, n := 0, st := some .invalid }) hvs hs
    rcases k with ⟨-, k⟩ | ⟨hn, pre, c, post, e, h1, h2, h3⟩
    · exact .inl k
    · right
      refine ⟨pre, c, post, e, h1, h2, h3.1 ?_⟩
      simp only [if_neg hn] at h
      cases hst : s.st with
      | none => rfl
      | some x => rw [hst] at h; cases h

/-- The status of an earlier check is overwritten: data are accepted although the check "not equal" of the same version set is not passed. -/
theorem earlier_check_ignored : ∃ (c d : DataCheck) (actual : Bytes), applicable c 1 ≠ [] ∧ WellFormed c actual 1 ∧ WellFormed d actual 1 ∧ ¬ Passes c actual 1 ∧
    verifyDataBlock [c, d] actual 1 = (.ok (), 1) := by
  refine ⟨⟨.ne, true, none, [⟨1, [7]⟩]⟩, ⟨.ne, true, none, [⟨1, [9]⟩]⟩, [7], by decide, ⟨by simp, by simp⟩, ⟨by simp, by simp⟩, ?_, ?_⟩
  · intro h
    have := h ⟨1, [7]⟩ (by decide)
    simp [Compares, Check.Holds] at this
  · rfl

/-- Data without any byte make the result depend on a variable without a value. -/
theorem empty_data_undefined : ∃ checks, (verifyDataBlock checks [] 1).1 = .error .ub := ⟨[⟨.eq, true, none, [⟨1, []⟩]⟩], rfl⟩

/-- So does an empty list of digests. -/
theorem empty_digests_undefined (digest : Bytes) (type : Nat) : verifyDigest ⟨type, []⟩ digest type = .error .ub := by
  simp [verifyDigest]

theorem digestEntries_ok {digest : Bytes} {type : Nat} : ∀ {l : List DigestEntry} {vs v : Nat} {st : Option Err}, digestEntries digest type l vs st = .inl (v, none) →
    (v = vs ∧ st = none ∧ ∀ e ∈ l, vs ≠ 0 ∧ e.vs ≠ 0 ∧ e.vs ≠ vs) ∨
      ((vs ≠ 0 → v = vs) ∧ v ≠ 0 ∧ ∃ e ∈ l, (e.vs = 0 ∨ e.vs = v) ∧ e.digests.type = type ∧ digest ∈ e.digests.list)
  | [], vs, v, st, h => by
    simp only [digestEntries, Sum.inl.injEq, Prod.mk.injEq] at h
    exact .inl ⟨h.1.symm, h.2, by simp⟩
  | e :: rest, vs, v, st, h => by
    rw [digestEntries] at h
    split at h
    · rename_i hs
      rcases digestEntries_ok h with ⟨h1, h2, h3⟩ | ⟨h1, h2, x, hx, h3⟩
      · exact .inl ⟨h1, h2, by simpa using ⟨hs, h3⟩⟩
      · exact .inr ⟨h1, h2, x, by simp [hx], h3⟩
    · rename_i hs
      split at h
      · cases h
      · rename_i hz
        split at h
        · rename_i hd
          simp only [Sum.inl.injEq, Prod.mk.injEq, and_true] at h
          have hd' : e.digests.type = type ∧ digest ∈ e.digests.list := by
            unfold verifyDigest at hd
            split at hd
            · cases hd
            · rename_i ht
              split at hd
              · cases hd
              · split at hd
                · rename_i hin
                  exact ⟨Classical.not_not.1 ht, hin⟩
                · cases hd
          right
          by_cases h0 : vs = 0
          · rw [if_pos h0] at h
            exact ⟨fun x => absurd h0 x, by omega, e, by simp, .inr h, hd'⟩
          · rw [if_neg h0] at h
            exact ⟨fun _ => h.symm, by omega, e, by simp, by omega, hd'⟩
        · cases h
        · rename_i x _ hx
          rcases digestEntries_ok h with ⟨_, h2, _⟩ | ⟨h1, h2, y, hy, h3⟩
          · cases h2
          · exact .inr ⟨h1, h2, y, by simp [hy], h3⟩

/-- An accepted digest is listed for the version set of the device (or for all), under the algorithm used – where the rule concerns the device. -/
theorem digest_accepted {l : List DigestEntry} {digest : Bytes} {type vs v : Nat} (h : verifyDigests l digest type vs = (.ok (), v)) (ha : digestsApply l vs = true) :
    v ≠ 0 ∧ (vs ≠ 0 → v = vs) ∧ ∃ e ∈ l, (e.vs = 0 ∨ e.vs = v) ∧ e.digests.type = type ∧ digest ∈ e.digests.list := by
  unfold verifyDigests at h
  split at h
  · cases h
  · rename_i w st hd
    cases st with
    | some e => cases h
    | none =>
      simp only at h
      split at h
      · cases h
      · rename_i hw
        cases h
        rcases digestEntries_ok hd with ⟨h1, -, h3⟩ | ⟨h1, h2, h3⟩
        · exfalso
          have hvs : vs ≠ 0 := h1 ▸ hw
          simp only [digestsApply, Bool.or_eq_true, beq_iff_eq, hvs, List.any_eq_true, false_or] at ha
          obtain ⟨e, he, hx⟩ := ha
          have := h3 e he
          omega
        · exact ⟨h2, h1, h3⟩

/-- Nothing listed for the version set of the device is rejected. -/
theorem digest_complete {l : List DigestEntry} {digest : Bytes} {type vs : Nat} (hvs : vs ≠ 0) (hne : ∀ e ∈ l, e.digests.list ≠ [])
    (h : ∃ e ∈ l, (e.vs = 0 ∨ e.vs = vs) ∧ e.digests.type = type ∧ digest ∈ e.digests.list) : verifyDigests l digest type vs = (.ok (), vs) := by
  have key : ∀ (l : List DigestEntry) (st : Option Err), (∀ e ∈ l, e.digests.list ≠ []) →
      (∃ e ∈ l, (e.vs = 0 ∨ e.vs = vs) ∧ e.digests.type = type ∧ digest ∈ e.digests.list) → digestEntries digest type l vs st = .inl (vs, none) := by
    intro l
    induction l with
    | nil => rintro _ _ ⟨e, he, _⟩; simp at he
    | cons e rest ih =>
      rintro st hne ⟨x, hx, h1, h2, h3⟩
      have hr : x ≠ e → ∀ st, digestEntries digest type rest vs st = .inl (vs, none) := fun hxe st =>
        ih st (fun y hy => hne y (by simp [hy])) ⟨x, by simpa [hxe] using hx, h1, h2, h3⟩
      rw [digestEntries]
      by_cases hxe : x = e
      · subst hxe
        rw [if_neg (by omega), if_neg (by omega)]
        have : verifyDigest x.digests digest type = .ok () := by
          simp [verifyDigest, h2, hne x (by simp), h3]
        rw [this]
        simp [hvs]
      · split
        · exact hr hxe _
        · rw [if_neg (by omega)]
          have hu : verifyDigest e.digests digest type ≠ .error .ub := by
            unfold verifyDigest
            have := hne e (by simp)
            split
            · simp
            · split <;> simp
          split
          · simp [hvs]
          · rename_i hb
            exact absurd hb hu
          · exact hr hxe _
  unfold verifyDigests
  rw [key l none hne h]
  simp [hvs]

example : verifyDigests [⟨1, ⟨1, [[1, 2]]⟩⟩, ⟨2, ⟨1, [[3, 4], [5, 6]]⟩⟩] [5, 6] 1 0 = (.ok (), 2) ∧
    verifyDigests [⟨1, ⟨1, [[1, 2]]⟩⟩, ⟨2, ⟨1, [[3, 4], [5, 6]]⟩⟩] [5, 6] 1 1 = (.error .rule, 1) := ⟨rfl, rfl⟩

theorem entries_vs {c : DataCheck} {a : Bytes} : ∀ {es : List DataEntry} {s s' : DataSt}, dataEntries c a es s = .inl s' →
    (s.vs ≠ 0 → s'.vs = s.vs) ∧ (s.vs = 0 → s'.vs ≠ 0 → ∃ e ∈ es, e.vs = s'.vs ∧ compareData c.check a e.data c.mask c.bigEndian = some true)
  | [], s, s', h => by
    cases h
    exact ⟨fun _ => rfl, fun h0 h1 => absurd h0 h1⟩
  | e :: rest, s, s', h => by
    rw [dataEntries] at h
    have lift : ∀ {s1 : DataSt}, dataEntries c a rest s1 = .inl s' → s1.vs = s.vs →
        (s.vs ≠ 0 → s'.vs = s.vs) ∧ (s.vs = 0 → s'.vs ≠ 0 → ∃ x ∈ e :: rest, x.vs = s'.vs ∧ compareData c.check a x.data c.mask c.bigEndian = some true) := by
      intro s1 h1 hv
      obtain ⟨i, j⟩ := entries_vs h1
      rw [hv] at i j
      exact ⟨i, fun h0 hn => by obtain ⟨x, hx, hy⟩ := j h0 hn; exact ⟨x, by simp [hx], hy⟩⟩
    split at h
    · exact lift h rfl
    · split at h
      · cases h
      · rename_i hz
        split at h
        · cases h
        · split at h
          · cases h
          · split at h
            · cases h
            · rename_i hb
              simp only at h
              split at h
              · cases h
                simp only
                by_cases h0 : s.vs = 0
                · simp only [h0, if_true]
                  exact ⟨fun x => absurd rfl x, fun _ _ => ⟨e, by simp, rfl, hb⟩⟩
                · simp [h0]
              · by_cases h0 : s.vs = 0
                · obtain ⟨i, -⟩ := entries_vs h
                  simp only [h0, if_true] at i
                  have := i (by omega)
                  refine ⟨fun x => absurd h0 x, fun _ _ => ⟨e, by simp, this.symm, hb⟩⟩
                · exact lift h (by simp [h0])
            · simp only at h
              split at h
              · cases h
                exact ⟨fun _ => rfl, fun h0 h1 => absurd h0 h1⟩
              · exact lift h rfl

theorem checks_vs {a : Bytes} : ∀ {cs : List DataCheck} {s s' : DataSt}, dataChecks a cs s = .inl s' →
    (s.vs ≠ 0 → s'.vs = s.vs) ∧
      (s.vs = 0 → s'.vs ≠ 0 → ∃ c ∈ cs, ∃ e ∈ c.entries, e.vs = s'.vs ∧ compareData c.check a e.data c.mask c.bigEndian = some true)
  | [], s, s', h => by
    cases h
    exact ⟨fun _ => rfl, fun h0 h1 => absurd h0 h1⟩
  | c :: rest, s, s', h => by
    rw [dataChecks] at h
    cases hd : dataEntries c a c.entries s with
    | inr r => rw [hd] at h; cases h
    | inl u =>
      rw [hd] at h
      obtain ⟨i1, i2⟩ := entries_vs hd
      obtain ⟨k1, k2⟩ := checks_vs h
      refine ⟨fun h0 => by rw [k1 (by rw [i1 h0]; exact h0), i1 h0], fun h0 hn => ?_⟩
      by_cases hu : u.vs = 0
      · obtain ⟨x, hx, y⟩ := k2 hu hn
        exact ⟨x, by simp [hx], y⟩
      · obtain ⟨e, he, y⟩ := i2 h0 hu
        rw [k1 hu]
        exact ⟨c, by simp, e, he, y⟩

/-- The version set of a device is taken from a value that its data meet, and is never changed afterwards. -/
theorem version_set_from_data {checks : List DataCheck} {actual : Bytes} {vs v : Nat} (h : verifyDataBlock checks actual vs = (.ok (), v)) :
    v ≠ 0 ∧ (vs ≠ 0 → v = vs) ∧
      (vs = 0 → ∃ c ∈ checks, ∃ e ∈ c.entries, e.vs = v ∧ compareData c.check actual e.data c.mask c.bigEndian = some true) := by
  unfold verifyDataBlock at h
  split at h
  · rename_i w hw
    simp only [Prod.mk.injEq] at h
    obtain ⟨h1, h2⟩ := h
    subst h2
    split at h1
    · cases h1
    · rename_i hne
      unfold verifyData at hw
      split at hw
      · cases hw
      · rename_i s hs
        obtain ⟨i, j⟩ := checks_vs hs
        simp only [Prod.mk.injEq] at hw
        rw [← hw.2] at hne ⊢
        exact ⟨hne, fun h0 => i h0, fun h0 => j h0 hne⟩
  · rename_i hno
    exact absurd h (hno v)

example : verifyDataBlock [⟨.ge, false, none, [⟨1, [9, 0]⟩]⟩, ⟨.ge, false, none, [⟨2, [5, 0]⟩]⟩] [7, 0] 0 = (.error .multiple, 0) ∧
    verifyDataBlock [⟨.eq, false, none, [⟨1, [9, 0]⟩, ⟨2, [7, 0]⟩]⟩] [7, 0] 0 = (.ok (), 2) := ⟨rfl, rfl⟩

end Verif.Requester
