import Verif.SessionManager.Spec
import Verif.CommonMath.Props
namespace Verif.SessionManager

theorem scan_some (p : Entry → Bool) (l : List Entry) : ∀ k i x, scan p l k = some (i, x) →
    ∃ L R, l = L ++ x :: R ∧ i = k + L.length ∧ p x = true := by
  induction l with
  | nil => intro k i x h; cases h
  | cons a l ih =>
    intro k i x h
    simp only [scan] at h
    split at h
    · cases h; exact ⟨[], l, rfl, rfl, by assumption⟩
    · obtain ⟨L, R, e1, e2, e3⟩ := ih _ _ _ h
      exact ⟨a :: L, R, by rw [e1]; rfl, by simp; omega, e3⟩

theorem scan_none (p : Entry → Bool) (l : List Entry) : ∀ k, scan p l k = none → ∀ x ∈ l, p x = false := by
  induction l with
  | nil => intro k _ x hx; cases hx
  | cons a l ih =>
    intro k h x hx
    simp only [scan] at h
    split at h
    · cases h
    · cases hx with
      | head => simpa using (by assumption : ¬ p a = true)
      | tail _ hx => exact ih _ h x hx

theorem getSession_some {s : St} {e : UInt8} {i : Nat} {x : Entry} (h : getSession s e = some (i, x)) :
    ∃ L R, s.table = L ++ x :: R ∧ i = L.length ∧ x.eid = e ∧ x.state ≠ .unused := by
  obtain ⟨L, R, e1, e2, e3⟩ := scan_some _ _ _ _ _ h
  simp at e3
  exact ⟨L, R, e1, by omega, e3.1, e3.2⟩

theorem getFree_some {s : St} {i : Nat} {x : Entry} (h : getFree s = some (i, x)) :
    ∃ L R, s.table = L ++ x :: R ∧ i = L.length ∧ x.state = .unused := by
  obtain ⟨L, R, e1, e2, e3⟩ := scan_some _ _ _ _ _ h
  simp at e3
  exact ⟨L, R, e1, by omega, e3⟩

theorem getSession_none {s : St} {e : UInt8} (h : getSession s e = none) : sessions s e = [] := by
  have := scan_none _ _ _ h
  unfold sessions
  rw [List.filter_eq_nil_iff]
  intro x hx
  rw [this x hx]; decide

theorem put_table {s : St} {L R : List Entry} {x y : Entry} (h : s.table = L ++ x :: R) :
    (s.put L.length y).table = L ++ y :: R := by
  simp [St.put, h]

theorem setKey_ok {s : St} {e : UInt8} {b : Bool} {i : Nat} {x : Entry} (h : setKey s e b = .ok (i, x)) :
    getSession s e = some (i, x) ∧ x.state.live = true := by
  unfold setKey at h
  split at h
  · cases h
  · rename_i j y hg
    split at h
    · cases h
    · split at h
      · cases h; exact ⟨hg, by simpa using (by assumption : ¬ x.state.live = false)⟩
      · cases h

theorem live_ne_unused {x : SState} (h : x.live = true) : x ≠ .unused := by cases x <;> simp_all [SState.live]

/-! ### What one operation does to the table -/

/-- The changes to an entry and the calls made. -/
def Change (x y : Entry) (calls : List Call) : Prop :=
  (calls = [] ∧ y.state = .setup ∧ y.iv = firstIv) ∨
  (∃ iv, x.state.live = true ∧ CommonMath.increment x.iv false = (.ok, iv) ∧ y = { x with iv := iv } ∧ calls = [.encrypted x.key iv]) ∨
  (∃ st, x.state.live = true ∧ CommonMath.increment x.iv false = (st, y.iv) ∧ st ≠ .ok ∧ y = { x with iv := y.iv } ∧ calls = []) ∨
  (y.iv = x.iv ∧ calls = [.derived y.key])

/-- The possible effects of an operation on the table, the calls it makes and the entry it works on. -/
inductive Delta (canGo : Prop) (e : UInt8) (t : List Entry) : List Entry → List Call → Prop
  | same : Delta canGo e t t []
  | swap {L R x y calls} : t = L ++ x :: R → x.eid = e → x.state ≠ .unused → y.eid = e → y.state ≠ .unused → Change x y calls →
      Delta canGo e t (L ++ y :: R) calls
  | gone {L R x} : canGo → t = L ++ x :: R → x.eid = e → x.state ≠ .unused → Delta canGo e t (L ++ .zero :: R) []
  | new {L R x y} : t = L ++ x :: R → x.state = .unused → (∀ z ∈ t, z.eid = e → z.state = .unused) →
      y.eid = e → y.state = .setup → y.iv = firstIv → Delta canGo e t (L ++ y :: R) []

theorem delta_step (c : Cfg) (s : St) (op : Op) : Delta (∃ e h f, op = .reset e h f) op.eid s.table (step c s op).st.table (step c s op).calls := by
  cases op with
  | add e d n =>
    simp only [step, Op.eid]
    unfold addSession
    split
    · rename_i i x hg
      obtain ⟨L, R, e1, rfl, e3, e4⟩ := getSession_some hg
      simp only [put_table e1]
      exact .swap e1 e3 e4 rfl (by simp [addTo]) (.inl ⟨rfl, rfl, rfl⟩)
    · rename_i hg
      split
      · rename_i i x hf
        obtain ⟨L, R, e1, rfl, e3⟩ := getFree_some hf
        simp only [put_table e1]
        refine .new e1 e3 ?_ rfl rfl rfl
        intro z hz he
        have := scan_none _ _ _ hg z hz
        simp only [he, decide_true, Bool.true_and, decide_eq_false_iff_not, Classical.not_not] at this
        exact this
      · exact .same
  | establish q =>
    simp only [step, Op.eid]
    unfold establish
    split; · exact .same
    split; · exact .same
    split
    · exact .same
    · rename_i i x hg
      obtain ⟨L, R, e1, rfl, e3, e4⟩ := getSession_some hg
      split; · exact .same
      rename_i hst
      split; · exact .same
      split; · exact .same
      unfold establishKeys
      split; · exact .same
      dsimp only
      split
      · simp only [put_table e1]; exact .swap e1 e3 e4 e3 e4 (.inr (.inr (.inr ⟨rfl, rfl⟩)))
      split
      · simp only [put_table e1]; exact .swap e1 e3 e4 e3 e4 (.inr (.inr (.inr ⟨rfl, rfl⟩)))
      · simp only [put_table e1]; exact .swap e1 e3 e4 e3 (by simp) (.inr (.inr (.inr ⟨rfl, rfl⟩)))
  | isEstablished e => simp only [step]; unfold isEstablished; split <;> exact .same
  | pairingState e f =>
    simp only [step]; unfold pairingState
    split; · exact .same
    split; · exact .same
    split; · exact .same
    split; · exact .same
    split <;> exact .same
  | decrypt m =>
    simp only [step]; unfold decrypt
    split; · exact .same
    split; · exact .same
    split; · exact .same
    split <;> exact .same
  | encrypt m =>
    simp only [step, Op.eid]; unfold encrypt
    split; · exact .same
    split; · exact .same
    split; · exact .same
    rename_i i x hk
    obtain ⟨hg, hl⟩ := setKey_ok hk
    obtain ⟨L, R, e1, rfl, e3, e4⟩ := getSession_some hg
    unfold encryptWith
    split
    · rename_i iv hi
      simp only [put_table e1]
      exact .swap e1 e3 e4 e3 e4 (.inr (.inl ⟨iv, hl, hi, rfl, rfl⟩))
    · rename_i st iv hne hi
      simp only [put_table e1]
      exact .swap e1 e3 e4 e3 e4 (.inr (.inr (.inl ⟨_, hl, hi, hne, rfl, rfl⟩)))
  | reset e h f =>
    simp only [step, Op.eid]; unfold resetSession
    split; · exact .same
    rename_i i x hg
    obtain ⟨L, R, e1, rfl, e3, e4⟩ := getSession_some hg
    split
    · simp only [put_table e1]; exact .gone ⟨_, _, _, rfl⟩ e1 e3 e4
    split
    · split
      · exact .same
      · simp only [put_table e1]; exact .gone ⟨_, _, _, rfl⟩ e1 e3 e4
    · simp only [put_table e1]; exact .gone ⟨_, _, _, rfl⟩ e1 e3 e4
  | pair q =>
    simp only [step, Op.eid]; unfold pairSession
    split; · exact .same
    split; · exact .same
    rename_i i x hg
    obtain ⟨L, R, e1, rfl, e3, e4⟩ := getSession_some hg
    unfold pairWith
    split; · exact .same
    split; · exact .same
    split; · exact .same
    split; · exact .same
    unfold pairFinish
    split; · exact .same
    dsimp only
    split
    · split
      · have e1' : ∀ k b, (saveKey s k b).table = L ++ x :: R := fun _ _ => e1
        simp only [put_table (e1' _ _)]; exact .swap e1 e3 e4 e3 (by simp) (.inr (.inr (.inr ⟨rfl, rfl⟩)))
      · simp only [put_table e1]; exact .swap e1 e3 e4 e3 e4 (.inr (.inr (.inr ⟨rfl, rfl⟩)))
    · simp only [put_table e1]; exact .swap e1 e3 e4 e3 (by simp) (.inr (.inr (.inr ⟨rfl, rfl⟩)))
  | sync e r f =>
    simp only [step]; unfold sessionSync
    split; · exact .same
    split; · exact .same
    split <;> exact .same

/-! ### One session for each endpoint -/

/-- The test of `sessions`. -/
def mine (e : UInt8) (x : Entry) : Bool := decide (x.eid = e) && decide (x.state ≠ .unused)

theorem mine_true {e : UInt8} {x : Entry} (h1 : x.eid = e) (h2 : x.state ≠ .unused) : mine e x = true := by simp [mine, h1, h2]
theorem mine_unused {e : UInt8} {x : Entry} (h2 : x.state = .unused) : mine e x = false := by simp [mine, h2]
theorem mine_other {e e' : UInt8} {x : Entry} (h1 : x.eid = e) (h2 : e' ≠ e) : mine e' x = false := by
  have : ¬ x.eid = e' := by rw [h1]; exact fun h => h2 h.symm
  simp [mine, this]

theorem sessions_eq (s : St) (e : UInt8) : sessions s e = s.table.filter (mine e) := rfl

theorem filter_mid (p : Entry → Bool) (L R : List Entry) (x : Entry) :
    (L ++ x :: R).filter p = L.filter p ++ (if p x then [x] else []) ++ R.filter p := by
  rw [List.filter_append, List.filter_cons]
  split <;> simp

theorem delta_other {g : Prop} {e e' : UInt8} {t t' : List Entry} {calls} (h : Delta g e t t' calls) (hne : e' ≠ e) :
    t'.filter (mine e') = t.filter (mine e') := by
  cases h with
  | same => rfl
  | swap h1 h2 h3 h4 h5 _ => subst h1; simp [filter_mid, mine_other h2 hne, mine_other h4 hne]
  | gone _ h1 h2 h3 => subst h1; simp [filter_mid, mine_other h2 hne, mine_unused (x := .zero) rfl]
  | new h1 h2 _ h4 _ _ => subst h1; simp [filter_mid, mine_unused h2, mine_other h4 hne]

theorem delta_one {g : Prop} {e : UInt8} {t t' : List Entry} {calls} (h : Delta g e t t' calls) (hu : (t.filter (mine e)).length ≤ 1) :
    (t'.filter (mine e)).length ≤ 1 := by
  cases h with
  | same => exact hu
  | swap h1 h2 h3 h4 h5 _ => subst h1; simp [filter_mid, mine_true h2 h3, mine_true h4 h5] at hu ⊢; omega
  | gone _ h1 h2 h3 => subst h1; simp [filter_mid, mine_true h2 h3, mine_unused (x := .zero) rfl] at hu ⊢; omega
  | new h1 h2 h3 h4 h5 _ =>
    have : t.filter (mine e) = [] := by
      rw [List.filter_eq_nil_iff]
      intro z hz
      by_cases he : z.eid = e
      · simp [mine_unused (h3 z hz he)]
      · simp [mine, he]
    subst h1
    simp only [filter_mid, mine_unused h2, List.append_eq_nil_iff] at this
    simp [filter_mid, mine_true h4 (x := _) (by rw [h5]; decide), this.1.1, this.2]

/-! ### Initialization vectors -/

theorem derivedKeys_append (a b : List Call) : derivedKeys (a ++ b) = derivedKeys a ++ derivedKeys b := by
  induction a with
  | nil => rfl
  | cons x a ih => cases x <;> simp [derivedKeys, ih]

theorem used_append (a b : List Call) : used (a ++ b) = used a ++ used b := by
  induction a with
  | nil => rfl
  | cons x a ih => cases x <;> simp [used, ih]

theorem firstIv_val : beNat firstIv = 2 ^ 95 ∧ firstIv.length = 12 := by decide +kernel

theorem increment_iv {iv out : Bytes} {st} (hl : iv.length = 12) (h : CommonMath.increment iv false = (st, out)) :
    (st = .ok ∧ beNat out = beNat iv + 1 ∧ out.length = 12) ∨ (st ≠ .ok ∧ out = iv ∧ beNat iv + 1 = 256 ^ 12) := by
  have hne : iv ≠ [] := by intro h0; rw [h0] at hl; cases hl
  have hlt := beNat_lt iv
  rw [hl] at hlt
  by_cases hm : beNat iv + 1 = 256 ^ 12
  · right
    have h' := (CommonMath.increment_at_max iv hne (by rw [hl]; exact hm)).2
    rw [h'] at h
    cases h
    exact ⟨by decide, rfl, hm⟩
  · left
    obtain ⟨o, h1, h2, h3⟩ := CommonMath.increment_adds_one iv false hne (by rw [hl]; omega)
    rw [h1] at h
    cases h
    exact ⟨rfl, h3, by rw [h2, hl]⟩

/-- The invariant behind the uniqueness of initialization vectors. -/
structure Inv (t : List Entry) (calls : List Call) : Prop where
  ivs : ∀ x ∈ t, x.state ≠ .unused → x.iv.length = 12 ∧ 2 ^ 95 ≤ beNat x.iv
  fresh : ∀ x ∈ t, x.state.live = true → x.key ∈ derivedKeys calls ∧ ∀ u ∈ used calls, u.1 = x.key → beNat u.2 ≤ beNat x.iv
  apart : ((t.filter fun x => x.state.live).map (·.key)).Nodup
  known : ∀ u ∈ used calls, u.1 ∈ derivedKeys calls ∧ 2 ^ 95 < beNat u.2 ∧ u.2.length = 12
  once : (used calls).Nodup

theorem inv_mono {L R : List Entry} {x y : Entry} {calls : List Call} (h : Inv (L ++ x :: R) calls)
    (hiv : y.state ≠ .unused → y.iv.length = 12 ∧ 2 ^ 95 ≤ beNat y.iv)
    (hy : y.state.live = true → x.state.live = true ∧ y.key = x.key ∧ y.iv = x.iv) : Inv (L ++ y :: R) calls := by
  obtain ⟨h1, h2, h3, h4, h5⟩ := h
  refine ⟨?_, ?_, ?_, h4, h5⟩
  · intro z hz hs
    simp only [List.mem_append, List.mem_cons] at hz
    rcases hz with hz | rfl | hz
    · exact h1 z (by simp [hz]) hs
    · exact hiv hs
    · exact h1 z (by simp [hz]) hs
  · intro z hz hs
    simp only [List.mem_append, List.mem_cons] at hz
    rcases hz with hz | rfl | hz
    · exact h2 z (by simp [hz]) hs
    · obtain ⟨a, b, c⟩ := hy hs
      rw [b, c]
      exact h2 x (by simp) a
    · exact h2 z (by simp [hz]) hs
  · rw [filter_mid] at h3 ⊢
    by_cases hl : y.state.live = true
    · obtain ⟨a, b, c⟩ := hy hl
      simpa [hl, a, b] using h3
    · simp only [hl, Bool.false_eq_true, if_false, List.append_nil] at h3 ⊢
      refine h3.sublist ?_
      simp only [List.map_append]
      apply List.Sublist.append
      · exact List.sublist_append_left _ _
      · exact List.Sublist.refl _

theorem inv_delta {g : Prop} {e : UInt8} {t t' : List Entry} {calls new : List Call} (h : Delta g e t t' new) (hi : Inv t calls)
    (hn : (derivedKeys (calls ++ new)).Nodup) : Inv t' (calls ++ new) := by
  cases h with
  | same => simpa using hi
  | gone _ h1 h2 h3 =>
    subst h1
    rw [List.append_nil]
    exact inv_mono hi (fun h => absurd rfl h) (fun h => by cases h)
  | new h1 h2 h3 h4 h5 h6 =>
    subst h1
    rw [List.append_nil]
    exact inv_mono hi (fun _ => by rw [h6]; exact ⟨firstIv_val.2, Nat.le_of_eq firstIv_val.1.symm⟩) (fun h => by rw [h5] at h; cases h)
  | swap h1 h2 h3 h4 h5 hc =>
    rename_i L R x y
    subst h1
    have hx := hi.ivs x (by simp) h3
    rcases hc with ⟨rfl, h6, h7⟩ | ⟨iv, hl, hinc, rfl, rfl⟩ | ⟨st, hl, hinc, hst, hye, rfl⟩ | ⟨h6, rfl⟩
    · rw [List.append_nil]
      exact inv_mono hi (fun _ => by rw [h7]; exact ⟨firstIv_val.2, Nat.le_of_eq firstIv_val.1.symm⟩) (fun h => by rw [h6] at h; cases h)
    · rcases increment_iv hx.1 hinc with ⟨_, hv, hlen⟩ | ⟨h0, _⟩
      · have hd : derivedKeys (calls ++ [Call.encrypted x.key iv]) = derivedKeys calls := by simp [derivedKeys_append, derivedKeys]
        have hu : used (calls ++ [Call.encrypted x.key iv]) = used calls ++ [(x.key, iv)] := by simp [used_append, used]
        have hfx := hi.fresh x (by simp) hl
        refine ⟨?_, ?_, ?_, ?_, ?_⟩
        · intro z hz hs
          simp only [List.mem_append, List.mem_cons] at hz
          rcases hz with hz | rfl | hz
          · exact hi.ivs z (by simp [hz]) hs
          · exact ⟨hlen, by dsimp only; omega⟩
          · exact hi.ivs z (by simp [hz]) hs
        · have other : ∀ z, z ∈ L ∨ z ∈ R → z.state.live = true → z.key ≠ x.key := by
            intro z hz hs heq
            have ha := hi.apart
            rw [filter_mid] at ha
            simp only [hl, if_true, List.map_append, List.map_cons, List.map_nil] at ha
            rcases hz with hz | hz
            · rw [List.append_assoc, List.nodup_append] at ha
              exact ha.2.2 z.key (List.mem_map_of_mem (List.mem_filter.2 ⟨hz, hs⟩)) x.key (by simp) heq
            · rw [List.nodup_append] at ha
              exact ha.2.2 x.key (by simp) z.key (List.mem_map_of_mem (List.mem_filter.2 ⟨hz, hs⟩)) heq.symm
          intro z hz hs
          rw [hd, hu]
          simp only [List.mem_append, List.mem_cons] at hz
          have step : ∀ z, z ∈ L ∨ z ∈ R → z.state.live = true → z.key ∈ derivedKeys calls ∧
              ∀ u ∈ used calls ++ [(x.key, iv)], u.1 = z.key → beNat u.2 ≤ beNat z.iv := by
            intro z hz hs
            have hf := hi.fresh z (by rcases hz with hz | hz <;> simp [hz]) hs
            refine ⟨hf.1, ?_⟩
            intro u hu' hk
            simp only [List.mem_append, List.mem_singleton] at hu'
            rcases hu' with hu' | rfl
            · exact hf.2 u hu' hk
            · exact absurd hk.symm (other z hz hs)
          rcases hz with hz | rfl | hz
          · exact step z (.inl hz) hs
          · refine ⟨hfx.1, ?_⟩
            intro u hu' hk
            simp only [List.mem_append, List.mem_singleton] at hu'
            rcases hu' with hu' | rfl
            · have := hfx.2 u hu' hk
              dsimp only; omega
            · exact Nat.le_refl _
          · exact step z (.inr hz) hs
        · have ha := hi.apart
          rw [filter_mid] at ha ⊢
          simpa [hl] using ha
        · intro u hu'
          rw [hd]
          rw [hu] at hu'
          simp only [List.mem_append, List.mem_singleton] at hu'
          rcases hu' with hu' | rfl
          · exact hi.known u hu'
          · exact ⟨hfx.1, by dsimp only; omega, hlen⟩
        · rw [hu, List.nodup_append]
          refine ⟨hi.once, by simp, ?_⟩
          intro a ha b hb heq
          simp only [List.mem_singleton] at hb
          subst heq; subst hb
          have := hfx.2 _ ha rfl
          dsimp only at this
          omega
      · exact absurd rfl h0
    · rcases increment_iv hx.1 hinc with ⟨h0, _⟩ | ⟨_, h0, _⟩
      · exact absurd h0 hst
      · rw [List.append_nil]
        rw [hye, h0]
        exact hi
    · have hd : derivedKeys (calls ++ [Call.derived y.key]) = derivedKeys calls ++ [y.key] := by simp [derivedKeys_append, derivedKeys]
      have hu : used (calls ++ [Call.derived y.key]) = used calls := by simp [used_append, used]
      rw [hd, List.nodup_append] at hn
      have hnew : ∀ k ∈ derivedKeys calls, k ≠ y.key := fun k hk => hn.2.2 k hk y.key (by simp)
      refine ⟨?_, ?_, ?_, ?_, ?_⟩
      · intro z hz hs
        simp only [List.mem_append, List.mem_cons] at hz
        rcases hz with hz | rfl | hz
        · exact hi.ivs z (by simp [hz]) hs
        · rw [h6]; exact hx
        · exact hi.ivs z (by simp [hz]) hs
      · intro z hz hs
        rw [hd, hu]
        simp only [List.mem_append, List.mem_cons] at hz
        rcases hz with hz | rfl | hz
        · have := hi.fresh z (by simp [hz]) hs
          exact ⟨by simp [this.1], this.2⟩
        · refine ⟨by simp, ?_⟩
          intro u hu' hk
          exact absurd hk (hnew _ (hi.known u hu').1)
        · have := hi.fresh z (by simp [hz]) hs
          exact ⟨by simp [this.1], this.2⟩
      · have hsub : (((L ++ R).filter fun x => x.state.live).map (·.key)).Nodup := by
          refine hi.apart.sublist ?_
          rw [filter_mid, List.filter_append]
          simp only [List.map_append]
          exact List.Sublist.append (List.sublist_append_left _ _) (List.Sublist.refl _)
        rw [filter_mid]
        by_cases hl : y.state.live = true
        · have hk : ∀ k ∈ ((L ++ R).filter fun x => x.state.live).map (·.key), k ≠ y.key := by
            intro k hk
            obtain ⟨z, hz, rfl⟩ := List.mem_map.1 hk
            obtain ⟨hz, hs⟩ := List.mem_filter.1 hz
            refine hnew _ (hi.fresh z ?_ hs).1
            simp only [List.mem_append, List.mem_cons] at hz ⊢
            rcases hz with hz | hz <;> simp [hz]
          rw [List.filter_append, List.map_append] at hsub hk
          rw [List.nodup_append] at hsub
          simp only [hl, if_true, List.map_append, List.map_cons, List.map_nil, List.append_assoc]
          rw [List.nodup_append]
          refine ⟨hsub.1, ?_, ?_⟩
          · rw [List.singleton_append, List.nodup_cons]
            exact ⟨fun hm => hk _ (by simp only [List.mem_append]; exact .inr hm) rfl, hsub.2.1⟩
          · intro a ha b hb
            simp only [List.singleton_append, List.mem_cons] at hb
            rcases hb with rfl | hb
            · exact hk a (by simp only [List.mem_append]; exact .inl ha)
            · exact hsub.2.2 a ha b hb
        · simp only [hl, Bool.false_eq_true, if_false, List.append_nil]
          rw [List.filter_append] at hsub
          exact hsub
      · intro u hu'
        rw [hu] at hu'
        have := hi.known u hu'
        rw [hd]
        exact ⟨by simp [this.1], this.2⟩
      · rw [hu]; exact hi.once

theorem inv_init (n : Nat) : Inv (List.replicate n Entry.zero) [] := by
  refine ⟨?_, ?_, ?_, ?_, .nil⟩
  · intro x hx hs
    rw [List.eq_of_mem_replicate hx] at hs
    exact absurd rfl hs
  · intro x hx hs
    rw [List.eq_of_mem_replicate hx] at hs
    cases hs
  · rw [List.filter_eq_nil_iff.2]
    · exact .nil
    · intro x hx
      rw [List.eq_of_mem_replicate hx]
      decide
  · intro u hu; cases hu

theorem inv_reach {c : Cfg} {n : Nat} {keys : Nat → Option Bytes} {calls : List Call} {s : St} (h : Reach c n keys calls s) :
    (derivedKeys calls).Nodup → Inv s.table calls := by
  induction h with
  | start => intro _; exact inv_init n
  | next op _ ih =>
    intro hn
    refine inv_delta (delta_step c _ op) (ih ?_) hn
    rw [derivedKeys_append, List.nodup_append] at hn
    exact hn.1

/-- Without the freshness of keys: the vectors of the sessions in the table. -/
theorem ivs_reach {c : Cfg} {n : Nat} {keys : Nat → Option Bytes} {calls : List Call} {s : St} (h : Reach c n keys calls s) :
    (∀ x ∈ s.table, x.state ≠ .unused → x.iv.length = 12 ∧ 2 ^ 95 ≤ beNat x.iv) ∧
    (∀ u ∈ used calls, 2 ^ 95 < beNat u.2 ∧ u.2.length = 12) := by
  induction h with
  | start =>
    refine ⟨(inv_init n).ivs, ?_⟩
    intro u hu; cases hu
  | next op _ ih =>
    rename_i calls s _
    obtain ⟨ih, ih2⟩ := ih
    have hd := delta_step c s op
    generalize (step c s op).st.table = t' at hd ⊢
    generalize (step c s op).calls = new at hd ⊢
    generalize s.table = t at hd ih
    have mid : ∀ {L R : List Entry} {x y : Entry}, t = L ++ x :: R → (y.state ≠ .unused → y.iv.length = 12 ∧ 2 ^ 95 ≤ beNat y.iv) →
        ∀ z ∈ L ++ y :: R, z.state ≠ .unused → z.iv.length = 12 ∧ 2 ^ 95 ≤ beNat z.iv := by
      intro L R x y ht hy z hz hs
      simp only [List.mem_append, List.mem_cons] at hz
      rcases hz with hz | rfl | hz
      · exact ih z (by simp [ht, hz]) hs
      · exact hy hs
      · exact ih z (by simp [ht, hz]) hs
    have first : firstIv.length = 12 ∧ 2 ^ 95 ≤ beNat firstIv := ⟨firstIv_val.2, Nat.le_of_eq firstIv_val.1.symm⟩
    cases hd with
    | same => exact ⟨ih, by simpa using ih2⟩
    | gone _ h1 h2 h3 => exact ⟨mid h1 (fun h => absurd rfl h), by simpa using ih2⟩
    | new h1 h2 h3 h4 h5 h6 => exact ⟨mid h1 (fun _ => by rw [h6]; exact first), by simpa using ih2⟩
    | swap h1 h2 h3 h4 h5 hc =>
      rename_i L R x y
      have hx := ih x (by simp [h1]) h3
      rcases hc with ⟨rfl, h6, h7⟩ | ⟨iv, hl, hinc, rfl, rfl⟩ | ⟨st, hl, hinc, hst, hye, rfl⟩ | ⟨h6, rfl⟩
      · exact ⟨mid h1 (fun _ => by rw [h7]; exact first), by simpa using ih2⟩
      · rcases increment_iv hx.1 hinc with ⟨_, hv, hlen⟩ | ⟨h0, _⟩
        · refine ⟨mid h1 (fun _ => ⟨hlen, by dsimp only; omega⟩), ?_⟩
          intro u hu
          rw [used_append] at hu
          simp only [used, List.mem_append, List.mem_singleton] at hu
          rcases hu with hu | rfl
          · exact ih2 u hu
          · exact ⟨by dsimp only; omega, hlen⟩
        · exact absurd rfl h0
      · rcases increment_iv hx.1 hinc with ⟨h0, _⟩ | ⟨_, h0, _⟩
        · exact absurd h0 hst
        · exact ⟨mid h1 (fun _ => by rw [h0]; exact hx), by simpa using ih2⟩
      · exact ⟨mid h1 (fun _ => by rw [h6]; exact hx), by simpa [used_append, used] using ih2⟩

end Verif.SessionManager
