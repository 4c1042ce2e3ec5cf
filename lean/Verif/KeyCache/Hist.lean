import Verif.KeyCache.Init
import Verif.KeyCache.Spec
/-! Histories of the key cache. -/
namespace Verif.KeyCache

theorem step_moves {c : Cfg} {s : State} {f : Store} {Q : List Bytes} (h : Inv c s f Q) (op : Op) :
    ∃ q, Moves (c.keys - 1) (some Q) op (step c s f op).2.2 q ∧
      ((q = none ∧ (step c s f op).1.inited = false) ∨ ∃ Q', q = some Q' ∧ Inv c (step c s f op).1 (step c s f op).2.1 Q') := by
  have hb := h.bound
  cases op with
  | add key outs =>
    by_cases hk : key = []
    · subst hk
      refine ⟨some Q, ?_, .inr ⟨Q, rfl, ?_⟩⟩
      · simp [step, add, Moves]
      · simpa [step, add] using h
    · simp only [step]
      rcases add_spec h key hk outs with ⟨h1, h2 | ⟨_, h2⟩⟩ | ⟨h1, h2, h3⟩ | ⟨h1, h2, h3⟩
      · rw [h2]
        exact ⟨some Q, ⟨rfl, fun _ => by omega⟩, .inr ⟨Q, rfl, h⟩⟩
      · rw [h2]
        exact ⟨none, .inr (by omega), .inl ⟨rfl, rfl⟩⟩
      · rw [h2]
        exact ⟨some (Q ++ [key]), ⟨rfl, by omega⟩, .inr ⟨_, rfl, h3⟩⟩
      · rw [h2]
        rcases h3 with h3 | h3
        · exact ⟨none, .inl rfl, .inl ⟨rfl, h3⟩⟩
        · exact ⟨some Q, ⟨rfl, fun h => by cases h⟩, .inr ⟨Q, rfl, h3⟩⟩
  | remove r readable er =>
    simp only [step]
    by_cases hr : r < c.requestors
    · rcases remove_spec h r hr readable er with ⟨h1, h2⟩ | ⟨h1, h2, h3⟩ | ⟨k, Q', h1, h2, h3, h4⟩
      · rw [h2]
        exact ⟨some Q, .inl ⟨by simp, rfl, fun _ => h1⟩, .inr ⟨Q, rfl, h⟩⟩
      · rw [h3]
        exact ⟨some Q, .inl ⟨by simp, rfl, fun h => by cases h⟩, .inr ⟨Q, rfl, h⟩⟩
      · rw [h3]
        cases readable with
        | true =>
          rw [if_pos rfl]
          rcases h4 with h4 | h4
          · exact ⟨none, by simp [Moves, h1], .inl ⟨rfl, h4⟩⟩
          · exact ⟨some Q', h1, .inr ⟨Q', rfl, h4⟩⟩
        | false =>
          rw [if_neg (by simp)]
          rcases h4 with h4 | h4
          · exact ⟨none, ⟨rfl, rfl⟩, .inl ⟨rfl, h4⟩⟩
          · exact ⟨some Q', .inr ⟨rfl, rfl, by simp [h1], by simp [h1]⟩, .inr ⟨Q', rfl, h4⟩⟩
    · have : remove c s f r readable er = (s, f, .error .invalidRequestor) := by
        unfold remove
        rw [h.inited, if_neg (by simp), h.err, if_neg (by simp), if_pos (by omega)]
      rw [this]
      exact ⟨some Q, .inl ⟨by simp, rfl, fun h => by cases h⟩, .inr ⟨Q, rfl, h⟩⟩

theorem step_dead {c : Cfg} {s : State} (f : Store) (op : Op) (h : s.inited = false) :
    ∃ e, (step c s f op).2.2 = .failed e ∧ (step c s f op).1 = s ∧ (step c s f op).2.1 = f := by
  cases op with
  | add key outs =>
    by_cases hk : key.length = 0
    · exact ⟨.invalidArgument, by simp [step, add, hk]⟩
    · exact ⟨.notInitialized, by simp [step, add, hk, h]⟩
  | remove r readable er => exact ⟨.notInitialized, by simp [step, remove, h]⟩

theorem dead_allowed {c : Cfg} {cap : Nat} : ∀ (ops : List Op) (s : State) (f : Store), s.inited = false → Allowed cap none ops (results c s f ops)
  | [], _, _, _ => trivial
  | op :: l, s, f, h => by
    obtain ⟨e, h1, h2, h3⟩ := step_dead (c := c) f op h
    unfold results
    rw [h1, h2, h3]
    exact ⟨none, rfl, dead_allowed l s f h⟩

theorem inv_allowed {c : Cfg} : ∀ (ops : List Op) (s : State) (f : Store) (Q : List Bytes), Inv c s f Q →
    Allowed (c.keys - 1) (some Q) ops (results c s f ops)
  | [], _, _, _, _ => trivial
  | op :: l, s, f, Q, h => by
    obtain ⟨q, h1, h2⟩ := step_moves h op
    refine ⟨q, h1, ?_⟩
    rcases h2 with ⟨rfl, h2⟩ | ⟨Q', rfl, h2⟩
    · exact dead_allowed l _ _ h2
    · exact inv_allowed l _ _ Q' h2

theorem allowed_none_handed {cap : Nat} : ∀ (ops : List Op) (rs : List Result), Allowed cap none ops rs → handed rs = []
  | [], [], _ => rfl
  | [], _ :: _, h => by simp [Allowed] at h
  | _ :: _, [], h => by simp [Allowed] at h
  | op :: l, r :: rs, ⟨q, h1, h2⟩ => by
    cases r with
    | failed e =>
      have : q = none := h1
      subst this
      exact allowed_none_handed l rs h2
    | _ => exact h1.elim

/-- What a bounded queue hands out is a subsequence of what it was given. -/
theorem allowed_handed {cap : Nat} : ∀ (ops : List Op) (rs : List Result) (Q : List Bytes), Allowed cap (some Q) ops rs →
    (handed rs).Sublist (Q ++ accepted ops rs)
  | [], [], _, _ => by simp [handed]
  | [], _ :: _, _, h => by simp [Allowed] at h
  | _ :: _, [], _, h => by simp [Allowed] at h
  | op :: l, r :: rs, Q, ⟨q, h1, h2⟩ => by
    cases op with
    | add k outs =>
      cases r with
      | added =>
        obtain ⟨rfl, -⟩ := h1
        have := allowed_handed l rs _ h2
        simpa [handed, accepted, List.append_assoc] using this
      | got k => exact absurd h1 (by simp [Moves])
      | failed e =>
        cases q with
        | none => simp [handed, accepted, allowed_none_handed l rs h2]
        | some Q' => obtain ⟨rfl, -⟩ := h1; simpa [handed, accepted] using allowed_handed l rs _ h2
    | remove r' readable er =>
      cases r with
      | added => exact absurd h1 (by simp [Moves])
      | got k =>
        cases q with
        | none =>
          have h1 : Q.head? = some k := h1
          rw [handed, allowed_none_handed l rs h2]
          obtain ⟨Q', rfl⟩ := List.head?_eq_some_iff.mp h1
          simp
        | some Q' =>
          have h1 : Q = k :: Q' := h1
          subst h1
          have := allowed_handed l rs _ h2
          simpa [handed, accepted] using this
      | failed e =>
        cases q with
        | none => simp [handed, accepted, allowed_none_handed l rs h2]
        | some Q' =>
          rcases h1 with ⟨_, rfl, _⟩ | ⟨_, _, _, rfl⟩
          · simpa [handed, accepted] using allowed_handed l rs _ h2
          · have := allowed_handed l rs _ h2
            refine this.trans ?_
            simp only [accepted]
            exact List.Sublist.append_right (List.tail_sublist Q) _

theorem validate_valid {f : Store} {i : Nat} {sc : Scan} (h : (validate f i sc).2 = .valid) : ((validate f i sc).1 i).isSome := by
  unfold validate at h ⊢
  cases hf : f i with
  | none => rw [hf] at h; cases he : sc.erase <;> rw [he] at h <;> simp [tryErase] at h
  | some v =>
    rw [hf] at h
    simp only at h ⊢
    by_cases hr : sc.readable = true
    · rw [if_pos hr]; simp [hf]
    · rw [if_neg hr] at h; cases he : sc.erase <;> rw [he] at h <;> simp [tryErase] at h

/-- A good start puts the keys found into the queue. -/
theorem init_inv {c : Cfg} {s : State} {f : Store} {scans : List Scan} (hR : 0 < c.requestors) (hroom : c.keys ≤ c.sectors)
    (hS : c.sectors ≤ 1024) (hsc : scans.length = c.sectors) (hl : s.info.length = c.sectors) (hc : s.credit.length = c.requestors)
    (he : (initCache c s f scans).1.err = false) : ∃ Q, Inv c (initCache c s f scans).1 (initCache c s f scans).2 Q := by
  obtain ⟨a1, a2, a3, a4, low, high, b1, b2, b3, b4, b5, b6, b7, b8, b9, b10, b11⟩ := initCache_spec c s f scans hR hroom hS hsc hl hc
  generalize initCache c s f scans = r at *
  obtain ⟨s', f'⟩ := r
  simp only at *
  subst a3
  obtain ⟨s1, s2, s3⟩ := scan_spec scans f 0
  generalize hss : scanAll f 0 scans = ss at *
  obtain ⟨f', infos⟩ := ss
  simp only at *
  have hk : 1 ≤ c.keys := by unfold Cfg.keys; omega
  rw [he] at b3
  have hhi : c.keys ≤ high + 1 := by
    have := b3.symm
    simp only [Bool.or_eq_false_iff, decide_eq_false_iff_not] at this
    omega
  have hadd : s'.add < c.keys ∧ s'.add ≤ low := by rw [b5]; split <;> omega
  have hinfos : infos.map (fun x => x.phys) = List.range c.sectors := by
    refine List.ext_getElem (by simp [s1, hsc]) (fun n h1 h2 => ?_)
    have hn : n < infos.length := by simpa using h1
    have := (s3 n (by omega)).1
    rw [getElem!_pos infos n hn, Nat.mod_eq_of_lt (by omega)] at this
    simp [this]
  have hphys : (s'.info.map (fun x => x.phys)).Perm (List.range c.sectors) := by
    have := b6.map Prod.snd
    simp only [List.map_map] at this
    rw [← hinfos]
    exact this
  have hstored : ∀ i, i < c.sectors → (s'.info[i]!).valid = .valid → (f' (s'.info[i]!).phys).isSome := by
    intro i hi hv
    have hm : ((s'.info[i]!).valid, (s'.info[i]!).phys) ∈ s'.info.map (fun x => (x.valid, x.phys)) :=
      List.mem_map.mpr ⟨s'.info[i]!, get_mem (by omega), rfl⟩
    obtain ⟨y, y1, y2⟩ := List.mem_map.mp (b6.mem_iff.mp hm)
    obtain ⟨n, hn, rfl⟩ := List.getElem_of_mem y1
    have h3 := s3 n (by omega)
    rw [getElem!_pos infos n hn, Nat.mod_eq_of_lt (by omega)] at h3
    simp only [Prod.mk.injEq] at y2
    rw [← y2.2, h3.1, h3.2.2]
    rw [y2.1, hv] at h3
    have h4 := h3.2.1
    exact validate_valid h4.symm
  refine ⟨(List.range s'.add).map (fun i => (f' (s'.info[i]!).phys).getD []), a1, a2, hroom, hR, by omega, by simpa using hadd.1, ?_, ?_, ?_,
    hphys.nodup_iff.mpr List.nodup_range, ?_, by omega, a4, he⟩
  · rw [b4]; simp only [List.length_map, List.length_range]; unfold slot; rw [if_pos (by omega)]; omega
  · intro j hj
    simp only [List.length_map, List.length_range] at hj
    have hs : slot c.keys s'.rem j = j := by rw [b4]; unfold slot; rw [if_pos (by omega)]; omega
    rw [hs]
    have hv := b7 j (by omega)
    refine ⟨hv, ?_⟩
    have := hstored j (by omega) hv
    rw [getElem!_pos ((List.range s'.add).map (fun i => (f' (s'.info[i]!).phys).getD [])) j (by simpa using hj)]
    simp only [List.getElem_map, List.getElem_range]
    obtain ⟨v, hv2⟩ := Option.isSome_iff_exists.mp this
    rw [hv2]; rfl
  · intro j h1 h2
    simp only [List.length_map, List.length_range] at h1
    have hs : slot c.keys s'.rem j = j := by rw [b4]; unfold slot; rw [if_pos (by omega)]; omega
    rw [hs]
    refine b10 j ?_ (by omega) (by omega)
    rw [b5] at h1; split at h1 <;> omega
  · intro x hx
    have := hphys.mem_iff.mp (List.mem_map.mpr ⟨x, hx, rfl⟩)
    simpa using this

/-! ### Each key once -/

theorem writeRetry_val (f : Store) (p : Nat) (key : Bytes) : ∀ (n : Nat) (outs : List Out) (g : Store),
    (∀ o ∈ outs, o = .ok ∨ o = .fail none ∨ o = .fail (some key)) → (g p = f p ∨ g p = none ∨ g p = some key) → (∀ j, j ≠ p → g j = f j) →
    ((writeRetry g p key outs n).1 p = f p ∨ (writeRetry g p key outs n).1 p = none ∨ (writeRetry g p key outs n).1 p = some key) ∧
    ∀ j, j ≠ p → (writeRetry g p key outs n).1 j = f j
  | 0, _, g, _, h1, h2 => by unfold writeRetry; exact ⟨h1, h2⟩
  | n + 1, [], g, _, h1, h2 => by unfold writeRetry; exact ⟨h1, h2⟩
  | n + 1, .ok :: l, g, _, h1, h2 => by
    unfold writeRetry
    exact ⟨.inr (.inr (by simp [setAt])), fun j hj => by simp [setAt, hj, h2 j hj]⟩
  | n + 1, .fail v :: l, g, ho, h1, h2 => by
    unfold writeRetry
    refine writeRetry_val f p key n l _ (fun o h => ho o (List.mem_cons_of_mem _ h)) ?_ (fun j hj => by simp [setAt, hj, h2 j hj])
    have := ho _ (List.mem_cons_self ..)
    simp only [reduceCtorEq, Out.fail.injEq, false_or] at this
    rcases this with rfl | rfl <;> simp [setAt]

theorem add_store (c : Cfg) (s : State) (f : Store) (key : Bytes) (outs : List Out)
    (ho : ∀ o ∈ outs, o = .ok ∨ o = .fail none ∨ o = .fail (some key)) :
    (add c s f key outs).2.1 = f ∨ ∃ p, (∀ j, j ≠ p → (add c s f key outs).2.1 j = f j) ∧
      ((add c s f key outs).2.1 p = f p ∨ (add c s f key outs).2.1 p = none ∨ (add c s f key outs).2.1 p = some key) := by
  unfold add
  split
  · exact .inl rfl
  split
  · exact .inl rfl
  split
  · exact .inl rfl
  split
  · exact .inl rfl
  simp only
  split
  · exact .inl rfl
  split
  · exact .inl rfl
  split
  · exact .inl rfl
  have := writeRetry_val f (s.info[s.add]!).phys key 3 outs f ho (.inl rfl) (fun _ _ => rfl)
  right
  refine ⟨(s.info[s.add]!).phys, ?_⟩
  split
  · rename_i e; rw [e] at this; exact ⟨this.2, this.1⟩
  · rename_i e; rw [e] at this; exact ⟨this.2, this.1⟩

theorem remove_store (c : Cfg) (s : State) (f : Store) (r : Nat) (readable : Bool) :
    ((remove c s f r readable .ok).2.1 = f ∧ ∀ k, (remove c s f r readable .ok).2.2 ≠ .ok k) ∨
    ∃ p, (remove c s f r readable .ok).2.1 = setAt f p none ∧ ∀ k, (remove c s f r readable .ok).2.2 = .ok k → f p = some k := by
  unfold remove
  by_cases a1 : s.inited = false
  · rw [if_pos a1]; exact .inl ⟨rfl, by simp⟩
  rw [if_neg a1]
  by_cases a2 : s.err = true
  · rw [if_pos a2]; exact .inl ⟨rfl, by simp⟩
  rw [if_neg a2]
  by_cases a3 : r ≥ c.requestors
  · rw [if_pos a3]; exact .inl ⟨rfl, by simp⟩
  rw [if_neg a3]
  by_cases a4 : s.rem > c.keys
  · rw [if_pos a4]; exact .inl ⟨rfl, by simp⟩
  rw [if_neg a4]
  by_cases a5 : isEmpty s = true
  · rw [if_pos a5]; exact .inl ⟨rfl, by simp⟩
  rw [if_neg a5]
  by_cases a6 : (s.info[s.rem]!).valid ≠ .valid
  · rw [if_pos a6]; exact .inl ⟨rfl, by simp⟩
  rw [if_neg a6]
  simp only
  by_cases a7 : (s.info[s.rem]!).phys ≥ c.sectors
  · rw [if_pos a7]; exact .inl ⟨rfl, by simp⟩
  rw [if_neg a7]
  by_cases a8 : s.credit[r]! = 0
  · rw [if_pos a8]; exact .inl ⟨rfl, by simp⟩
  rw [if_neg a8]
  right
  refine ⟨(s.info[s.rem]!).phys, rfl, fun k hk => ?_⟩
  cases hf : f (s.info[s.rem]!).phys with
  | none => simp only [hf] at hk; cases hk
  | some v =>
    simp only [hf] at hk
    cases readable with
    | true => simpa using hk
    | false => simp at hk

theorem scan_store : ∀ (l : List Scan) (f : Store) (i : Nat), (∀ sc ∈ l, sc.erase = .ok) → ∀ j, (scanAll f i l).1 j = f j ∨ (scanAll f i l).1 j = none
  | [], _, _, _, _ => .inl rfl
  | sc :: l, f, i, h, j => by
    have e : (scanAll f i (sc :: l)).1 = (scanAll (validate f i sc).1 (i + 1) l).1 := rfl
    rw [e]
    have hv : (validate f i sc).1 j = f j ∨ (validate f i sc).1 j = none := by
      unfold validate
      rw [h sc (List.mem_cons_self ..)]
      split
      · simp only [tryErase, setAt]; split <;> simp
      · split
        · exact .inl rfl
        · simp only [tryErase, setAt]; split <;> simp
    rcases scan_store l (validate f i sc).1 (i + 1) (fun x hx => h x (List.mem_cons_of_mem _ hx)) j with h1 | h1
    · rw [h1]; exact hv
    · exact .inr h1

/-- No key is stored twice. -/
def Distinct (f : Store) : Prop := ∀ i j k, f i = some k → f j = some k → i = j

theorem distinct_of_less {f g : Store} (h : Distinct f) (hl : ∀ j, g j = f j ∨ g j = none) : Distinct g := by
  intro i j k h1 h2
  have hi := hl i; have hj := hl j
  rw [h1] at hi; rw [h2] at hj
  simp only [reduceCtorEq, or_false] at hi hj
  exact h i j k hi.symm hj.symm

theorem life_nodup (c : Cfg) : ∀ (evs : List Event) (s : State) (f : Store) (H : List Bytes), (∀ e ∈ evs, e.reliable) → Distinct f →
    (∀ k ∈ H, ∀ i, f i ≠ some k) → H.Nodup → (offered evs).Nodup → (∀ k ∈ offered evs, k ∉ H ∧ ∀ i, f i ≠ some k) →
    (H ++ lifeHanded c s f evs).Nodup
  | [], s, f, H, _, _, _, h3, _, _ => by simpa [lifeHanded] using h3
  | e :: l, s, f, H, h0, h1, h2, h3, h4, h5 => by
    have h0' : ∀ e ∈ l, e.reliable := fun x hx => h0 x (List.mem_cons_of_mem _ hx)
    have hrel := h0 e (List.mem_cons_self ..)
    have less : ∀ (s' : State) (g : Store), (∀ j, g j = f j ∨ g j = none) → offered (e :: l) = offered l →
        (H ++ lifeHanded c s' g l).Nodup := fun s' g hg ho => by
      rw [ho] at h4 h5
      refine life_nodup c l s' g H h0' (distinct_of_less h1 hg) (fun k hk i hi => ?_) h3 h4 (fun k hk => ⟨(h5 k hk).1, fun i hi => ?_⟩)
      · have := hg i; rw [hi] at this; simp only [reduceCtorEq, or_false] at this; exact h2 k hk i this.symm
      · have := hg i; rw [hi] at this; simp only [reduceCtorEq, or_false] at this; exact (h5 k hk).2 i this.symm
    unfold lifeHanded
    cases e with
    | rescan scans =>
      simp only [event, handed1, List.nil_append]
      exact less _ _ (fun j => scan_store scans f 0 hrel j) rfl
    | restart scans =>
      cases hi : init c c.sectors with
      | ok s0 =>
        simp only [event, hi, handed1, List.nil_append]
        exact less _ _ (fun j => scan_store scans f 0 hrel j) rfl
      | error _ =>
        simp only [event, hi, handed1, List.nil_append]
        exact less _ _ (fun j => .inl rfl) rfl
    | call op =>
      cases op with
      | add key outs =>
        simp only [offered, List.nodup_cons, List.mem_cons, forall_eq_or_imp] at h4 h5
        have hnil : handed1 (event c s f (.call (.add key outs))).2.2 = [] := by
          simp only [event, step]
          cases (add c s f key outs).2.2 <;> rfl
        rw [hnil, List.nil_append]
        simp only [event, step]
        have hst := add_store c s f key outs hrel
        generalize (add c s f key outs).2.1 = g at hst
        have hval : ∀ i k, g i = some k → k = key ∨ f i = some k := fun i k hi => by
          rcases hst with rfl | ⟨p, p1, p2⟩
          · exact .inr hi
          · by_cases e : i = p
            · subst e
              rcases p2 with p2 | p2 | p2
              · right; rw [← p2]; exact hi
              · rw [p2] at hi; cases hi
              · rw [p2] at hi; left; simpa using hi.symm
            · right; rw [← p1 i e]; exact hi
        have hdis : Distinct g := by
          rcases hst with rfl | ⟨p, p1, p2⟩
          · exact h1
          · intro i j k hi hj
            rcases p2 with p2 | p2 | p2
            · have : g = f := by
                funext x; by_cases e : x = p
                · rw [e]; exact p2
                · exact p1 x e
              rw [this] at hi hj
              exact h1 i j k hi hj
            · by_cases ei : i = p
              · rw [ei, p2] at hi; cases hi
              by_cases ej : j = p
              · rw [ej, p2] at hj; cases hj
              rw [p1 i ei] at hi; rw [p1 j ej] at hj
              exact h1 i j k hi hj
            · by_cases ei : i = p
              · by_cases ej : j = p
                · omega
                · rw [ei, p2] at hi
                  rw [p1 j ej] at hj
                  simp only [Option.some.injEq] at hi
                  rw [← hi] at hj
                  exact ((h5.1.2 j) hj).elim
              · rw [p1 i ei] at hi
                by_cases ej : j = p
                · rw [ej, p2] at hj
                  simp only [Option.some.injEq] at hj
                  rw [← hj] at hi
                  exact ((h5.1.2 i) hi).elim
                · rw [p1 j ej] at hj
                  exact h1 i j k hi hj
        refine life_nodup c l _ g H h0' hdis (fun k hk i hi => ?_) h3 h4.2 (fun k hk => ⟨(h5.2 k hk).1, fun i hi => ?_⟩)
        · rcases hval i k hi with rfl | h
          · exact h5.1.1 hk
          · exact h2 k hk i h
        · rcases hval i k hi with rfl | h
          · exact h4.1 hk
          · exact (h5.2 k hk).2 i h
      | remove r readable er =>
        have hrel : er = .ok := hrel
        subst hrel
        simp only [event, step]
        rcases remove_store c s f r readable with ⟨g1, g2⟩ | ⟨p, g1, g2⟩
        · rw [g1]
          cases hres : (remove c s f r readable .ok).2.2 with
          | ok k => exact (g2 k hres).elim
          | error e =>
            simp only [handed1, List.nil_append]
            exact less _ _ (fun j => .inl rfl) rfl
        · rw [g1]
          have hg : ∀ j, setAt f p none j = f j ∨ setAt f p none j = none := fun j => by unfold setAt; split <;> simp
          cases hres : (remove c s f r readable .ok).2.2 with
          | error e =>
            simp only [handed1, List.nil_append]
            exact less _ _ hg rfl
          | ok k =>
            simp only [handed1]
            rw [← List.append_assoc]
            have hp := g2 k hres
            have hlt : ∀ i x, setAt f p none i = some x → f i = some x ∧ i ≠ p := fun i x hi => by
              unfold setAt at hi; split at hi
              · cases hi
              · exact ⟨hi, ‹_›⟩
            refine life_nodup c l _ _ (H ++ [k]) h0' (distinct_of_less h1 hg) (fun x hx i hi => ?_) ?_ h4 (fun x hx => ?_)
            · obtain ⟨hi1, hi2⟩ := hlt i x hi
              rcases List.mem_append.mp hx with hx | hx
              · exact h2 x hx i hi1
              · simp only [List.mem_singleton] at hx
                subst hx
                exact hi2 (h1 i p x hi1 hp)
            · rw [List.nodup_append]
              exact ⟨h3, by simp, fun a ha b hb e => by
                simp only [List.mem_singleton] at hb; subst hb; subst e; exact h2 a ha p hp⟩
            · have := h5 x hx
              refine ⟨fun hm => ?_, fun i hi => this.2 i (hlt i x hi).1⟩
              rcases List.mem_append.mp hm with hm | hm
              · exact this.1 hm
              · simp only [List.mem_singleton] at hm
                subst hm
                exact this.2 p hp

/-! ### Usable sectors -/

theorem usable_iff (f : Store) (i : Nat) (sc : Scan) : usable f i sc = true ↔ (validate f i sc).2 ≠ .corrupted := by
  unfold usable validate
  cases f i <;> cases sc.readable <;> cases sc.erase <;> simp [tryErase]

theorem usable_local {f g : Store} {i : Nat} (h : f i = g i) (sc : Scan) : usable f i sc = usable g i sc := by unfold usable; rw [h]

theorem usableCount_local {f g : Store} : ∀ (l : List Scan) (i : Nat), (∀ j, i ≤ j → f j = g j) → usableCount f i l = usableCount g i l
  | [], _, _ => rfl
  | sc :: l, i, h => by
    unfold usableCount
    rw [usable_local (h i (Nat.le_refl _)), usableCount_local l (i + 1) (fun j hj => h j (by omega))]

theorem usableCount_eq : ∀ (l : List Scan) (f : Store) (i : Nat),
    usableCount f i l = ((scanAll f i l).2.map (fun x => (x.valid, x.phys))).countP (fun x => x.1 ≠ .corrupted)
  | [], _, _ => rfl
  | sc :: l, f, i => by
    have e : (scanAll f i (sc :: l)).2 = ⟨(validate f i sc).2, i % 1024, 0⟩ :: (scanAll (validate f i sc).1 (i + 1) l).2 := rfl
    rw [e, List.map_cons, List.countP_cons, ← usableCount_eq l (validate f i sc).1 (i + 1)]
    have e2 : usableCount f i (sc :: l) = (if usable f i sc then 1 else 0) + usableCount f (i + 1) l := rfl
    rw [e2, usableCount_local l (i + 1) (fun j hj => (validate_off f i sc j (by omega)).symm)]
    have := usable_iff f i sc
    by_cases h : usable f i sc = true
    · simp [h, this.mp h]; omega
    · have h2 : (validate f i sc).2 = .corrupted := Decidable.not_not.mp (fun x => h (this.mpr x))
      simp [h, h2]

theorem countP_split (l : List Info) (high : Nat) (hh : high < l.length) (h1 : ∀ i, i < high → (l[i]!).valid ≠ .corrupted)
    (h2 : ∀ i, high < i → i < l.length → (l[i]!).valid = .corrupted) :
    high ≤ (l.map (fun x => (x.valid, x.phys))).countP (fun x => x.1 ≠ .corrupted) ∧
    (l.map (fun x => (x.valid, x.phys))).countP (fun x => x.1 ≠ .corrupted) ≤ high + 1 := by
  have e : l = l.take high ++ l[high] :: l.drop (high + 1) := by simp
  rw [List.countP_map]
  have ha : (l.take high).countP ((fun x : St × Nat => decide (x.1 ≠ .corrupted)) ∘ fun x : Info => (x.valid, x.phys)) = high := by
    rw [List.countP_eq_length.mpr]
    · simp; omega
    · intro a ha
      obtain ⟨i, hi, rfl⟩ := List.getElem_of_mem ha
      simp only [List.length_take] at hi
      have := h1 i (by omega)
      rw [getElem!_pos l i (by omega)] at this
      simpa using this
  have hb : (l.drop (high + 1)).countP ((fun x : St × Nat => decide (x.1 ≠ .corrupted)) ∘ fun x : Info => (x.valid, x.phys)) = 0 := by
    rw [List.countP_eq_zero]
    intro a ha
    obtain ⟨i, hi, rfl⟩ := List.getElem_of_mem ha
    simp only [List.length_drop] at hi
    have := h2 (high + 1 + i) (by omega) (by omega)
    rw [getElem!_pos l _ (by omega)] at this
    simpa using this
  rw [e, List.countP_append, List.countP_cons, ha, hb]
  split <;> omega

end Verif.KeyCache
