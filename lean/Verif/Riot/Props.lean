import Verif.Riot.Lemmas
/-! The properties of the key manager. -/
namespace Verif.Riot

def devidRefs (s : St) : List Nat := match s.devid with | .static _ => [] | .heap p => [p]
def verifyRefs (s : St) : List Nat := match s.verify with | .idle => [] | .check p => [p] | .swap p => [p]

theorem refs_eq (s : St) : refs s = devidRefs s ++ s.root.toList ++ s.inter.toList ++ verifyRefs s := rfl

/-- Blocks and pointers fit in every state. -/
structure WF (s : St) : Prop where
  ub : s.ub = false
  fresh : Fresh s
  nodup : (refs s).Nodup
  live : ∀ p ∈ refs s, s.block p ≠ none
  root : s.verify ≠ .idle → s.root ≠ none

theorem mem_refs {s : St} {p : Nat} : p ∈ refs s ↔ s.devid = .heap p ∨ s.root = some p ∨ s.inter = some p ∨ s.verify = .check p ∨ s.verify = .swap p := by
  rw [refs_eq, devidRefs, verifyRefs]
  cases s.devid <;> cases s.root <;> cases s.inter <;> cases s.verify <;> simp [eq_comm]

theorem WF.of_eq {s t : St} (h : WF s) (h1 : t.heap = s.heap) (h2 : t.next = s.next) (h3 : t.root = s.root) (h4 : t.inter = s.inter) (h5 : t.devid = s.devid) (h6 : t.verify = s.verify) (h7 : t.ub = s.ub) : WF t := by
  have hr : refs t = refs s := by unfold refs; rw [h3, h4, h5, h6]
  have hb : ∀ p, t.block p = s.block p := fun p => by unfold St.block; rw [h1]
  refine ⟨h7.trans h.ub, fun p hp => ?_, by rw [hr]; exact h.nodup, fun p hp => ?_, by rw [h6, h3]; exact h.root⟩
  · rw [hb]; exact h.fresh p (by omega)
  · rw [hb]; exact h.live p (hr ▸ hp)

theorem WF.lt {s : St} (h : WF s) {p : Nat} (hp : p ∈ refs s) : p < s.next := by
  rcases Nat.lt_or_ge p s.next with h1 | h1
  · exact h1
  · exact absurd (h.fresh p h1) (h.live p hp)

theorem idle_refs {s : St} (h : s.verify = .idle) : refs s = devidRefs s ++ s.root.toList ++ s.inter.toList := by
  rw [refs_eq, verifyRefs, h, List.append_nil]

theorem devidRefs_congr {s t : St} (h : t.devid = s.devid) : devidRefs t = devidRefs s := by unfold devidRefs; rw [h]

theorem devid_mem {s : St} {p : Nat} (h : p ∈ devidRefs s) : p ∈ refs s := by
  rw [refs_eq]; simp [h]

theorem devidRefs_nodup (s : St) : (devidRefs s).Nodup := by unfold devidRefs; split <;> simp

theorem wf_begin {s t : St} (h : WF s) (hv : s.verify = .idle) (hb : Began s t) : WF t := by
  cases hb with
  | nothing e => exact e ▸ h
  | noRoot e b n r i v =>
    have hv' : t.verify = .idle := v.trans hv
    have hsub : ∀ p ∈ refs t, p ∈ refs s := by
      intro p hp
      rw [mem_refs] at hp ⊢
      rw [e.devid, r, hv'] at hp
      rcases hp with hp | hp | hp | hp | hp
      · exact .inl hp
      · cases hp
      · rcases i with i | i
        · rw [i] at hp; exact .inr (.inr (.inl hp))
        · rw [i] at hp; cases hp
      · cases hp
      · cases hp
    refine ⟨e.ub.trans h.ub, fun p hp => by rw [b]; exact h.fresh p (by omega), ?_, fun p hp => by rw [b]; exact h.live p (hsub p hp), fun hc => absurd hv' hc⟩
    have hn := h.nodup
    rw [idle_refs hv] at hn
    rw [idle_refs hv', devidRefs_congr e.devid, r]
    rcases i with i | i
    · rw [i]; cases hr : s.root with
      | none => rw [hr] at hn; exact hn
      | some x =>
        rw [hr] at hn
        simp only [Option.toList, List.append_nil] at hn ⊢
        rw [List.append_assoc, List.nodup_append] at hn
        rw [List.nodup_append]
        have := List.nodup_cons.mp hn.2.1
        exact ⟨hn.1, this.2, fun a ha b hb => hn.2.2 a ha b (by simp [hb])⟩
    · rw [i]; simpa [Option.toList] using devidRefs_nodup s
  | read d r e k0 k1 b n hr i v =>
    have hdl : ∀ p ∈ devidRefs s, p < s.next := fun p hp => h.lt (devid_mem hp)
    refine ⟨e.ub.trans h.ub, fun p hp => ?_, ?_, fun p hp => ?_, fun _ => by rw [hr]; simp⟩
    · rw [b, if_neg (by omega), if_neg (by omega)]; exact h.fresh p (by omega)
    · rw [refs_eq, devidRefs_congr e.devid, hr, i, verifyRefs, v]
      simp only [Option.toList, List.append_nil]
      rw [List.append_assoc, List.nodup_append]
      refine ⟨devidRefs_nodup s, by simp, fun a ha c hc => ?_⟩
      have := hdl a ha
      simp at hc; omega
    · rw [mem_refs, e.devid, hr, i, v] at hp
      rw [b]
      repeat' split
      · simp
      · simp
      · refine h.live p (mem_refs.mpr ?_)
        rcases hp with hp | hp | hp | hp | hp
        · exact .inl hp
        · injection hp with hp; omega
        · cases hp
        · injection hp with hp; omega
        · cases hp
  | read3 d r ic e k0 k1 k2 b n hr i v =>
    have hdl : ∀ p ∈ devidRefs s, p < s.next := fun p hp => h.lt (devid_mem hp)
    refine ⟨e.ub.trans h.ub, fun p hp => ?_, ?_, fun p hp => ?_, fun _ => by rw [hr]; simp⟩
    · rw [b, if_neg (by omega), if_neg (by omega), if_neg (by omega)]; exact h.fresh p (by omega)
    · rw [refs_eq, devidRefs_congr e.devid, hr, i, verifyRefs, v]
      simp only [Option.toList]
      rw [List.append_assoc, List.append_assoc, List.nodup_append]
      refine ⟨devidRefs_nodup s, by simp, fun a ha c hc => ?_⟩
      have := hdl a ha
      simp at hc; omega
    · rw [mem_refs, e.devid, hr, i, v] at hp
      rw [b]
      repeat' split
      · simp
      · simp
      · simp
      · refine h.live p (mem_refs.mpr ?_)
        rcases hp with hp | hp | hp | hp | hp
        · exact .inl hp
        · injection hp with hp; omega
        · injection hp with hp; omega
        · injection hp with hp; omega
        · cases hp

/-- The blocks of the manager are different. -/
theorem WF.differ {s : St} (h : WF s) : (∀ p r, s.devid = .heap p → s.root = some r → p ≠ r) ∧ (∀ p i, s.devid = .heap p → s.inter = some i → p ≠ i) ∧
    (∀ p q, s.devid = .heap p → s.verify = .check q ∨ s.verify = .swap q → p ≠ q) ∧ (∀ r i, s.root = some r → s.inter = some i → r ≠ i) ∧
    (∀ r q, s.root = some r → s.verify = .check q ∨ s.verify = .swap q → r ≠ q) ∧ (∀ i q, s.inter = some i → s.verify = .check q ∨ s.verify = .swap q → i ≠ q) := by
  have hn := h.nodup
  rw [refs_eq, devidRefs, verifyRefs] at hn
  cases hd : s.devid <;> cases hr : s.root <;> cases hi : s.inter <;> cases hv : s.verify <;> rw [hd, hr, hi, hv] at hn <;> simp at hn ⊢ <;> grind

theorem chainOf_eq {s : St} (h : WF s) {p : Nat} (hv : s.verify = .check p) :
    ∃ d r, s.block p = some d ∧ rootCert s = some r ∧ (s.inter ≠ none → interCert s ≠ none) ∧ chainOf s p = some (d, interCert s, r) := by
  have h1 := h.live p (mem_refs.mpr (.inr (.inr (.inr (.inl hv)))))
  have h2 := h.root (by rw [hv]; simp)
  cases hr : s.root with
  | none => exact absurd hr h2
  | some r =>
    have h3 := h.live r (mem_refs.mpr (.inr (.inl hr)))
    cases hp : s.block p with
    | none => exact absurd hp h1
    | some d =>
      cases hrb : s.block r with
      | none => exact absurd hrb h3
      | some rb =>
        have hrb' : s.heap.lookup r = some rb := hrb
        refine ⟨d, rb, rfl, by rw [rootCert, hr]; exact hrb, ?_⟩
        cases hi : s.inter with
        | none => exact ⟨fun h => absurd rfl h, by simp [chainOf, hp, hr, hrb, hi, interCert]⟩
        | some i =>
          have h4 := h.live i (mem_refs.mpr (.inr (.inr (.inl hi))))
          cases hib : s.block i with
          | none => exact absurd hib h4
          | some ib =>
            have hib' : s.heap.lookup i = some ib := hib
            exact ⟨fun _ => by simp [interCert, hi, hib'], by simp [chainOf, hp, hr, hrb, hi, hib, interCert, hib']⟩

/-- What the second part does. -/
inductive Checked (cfg : Cfg) (s t : St) (p : Nat) : Prop
  | good (d r : Bytes) (hd : s.block p = some d) (hr : rootCert s = some r) (hi : s.inter ≠ none → interCert s ≠ none) (hc : cfg.chainOk d (interCert s) r = true) (h : t = { s with verify := .swap p })
  | bad (h : Same s t) (n : t.next = s.next) (r : t.root = none) (i : t.inter = none) (v : t.verify = .idle)
      (b : ∀ q, t.block q = if q = p ∨ s.root = some q ∨ s.inter = some q then none else s.block q)

theorem verifyCheck_cases {cfg : Cfg} {s : St} (h : WF s) {p : Nat} (hv : s.verify = .check p) (f : Bool) : Checked cfg s (verifyCheck cfg s p f) p := by
  obtain ⟨d, r, h1, h2, h3, h4⟩ := chainOf_eq h hv
  unfold verifyCheck
  rw [h4]
  simp only
  by_cases hc : (!f && cfg.chainOk d (interCert s) r) = true
  · rw [if_pos hc]
    exact .good d r h1 h2 h3 (by simp at hc; exact hc.2) rfl
  · rw [if_neg hc]
    cases hr : s.root with
    | none => rw [rootCert, hr] at h2; cases h2
    | some q =>
      obtain ⟨-, -, -, d4, d5, d6⟩ := h.differ
      obtain ⟨t, e, e1, e2, e3, e4, e5, e6⟩ := verifyCheck_fail s hr (h.live p (mem_refs.mpr (.inr (.inr (.inr (.inl hv)))))) (h.live q (mem_refs.mpr (.inr (.inl hr))))
        (d5 q p hr (.inl hv)) (fun i hi => ⟨h.live i (mem_refs.mpr (.inr (.inr (.inl hi)))), d6 i p hi (.inl hv), (d4 q i hr hi).symm⟩)
      show Checked cfg s _ p
      rw [show _ = t from e]
      refine .bad e1 e2 e3 e4 e5 (fun x => ?_)
      rw [e6 x, hr]
      simp only [Option.some.injEq, eq_comm]

theorem wf_check {cfg : Cfg} {s t : St} (h : WF s) {p : Nat} (hv : s.verify = .check p) (hc : Checked cfg s t p) : WF t := by
  cases hc with
  | good d r hd hr hi hk e =>
    subst e
    have : refs { s with verify := .swap p } = refs s := by rw [refs_eq, refs_eq, verifyRefs, verifyRefs, hv]; rfl
    exact ⟨h.ub, h.fresh, by rw [this]; exact h.nodup, fun q hq => h.live q (this ▸ hq), fun _ => h.root (by rw [hv]; simp)⟩
  | bad e n r i v b =>
    refine ⟨e.ub.trans h.ub, fun q hq => ?_, ?_, fun q hq => ?_, fun hx => absurd v hx⟩
    · rw [b]; split
      · rfl
      · exact h.fresh q (by omega)
    · rw [idle_refs v, r, i, devidRefs_congr e.devid]; simpa [Option.toList] using devidRefs_nodup s
    · rw [mem_refs, e.devid, r, i, v] at hq
      have hd : s.devid = .heap q := by
        rcases hq with hq | hq | hq | hq | hq
        · exact hq
        all_goals cases hq
      obtain ⟨d1, d2, d3, -⟩ := h.differ
      rw [b, if_neg]
      · exact h.live q (mem_refs.mpr (.inl hd))
      · rintro (h1 | h1 | h1)
        · exact d3 q p hd (.inl hv) h1
        · exact d1 q q hd h1 rfl
        · exact d2 q q hd h1 rfl

/-- What the third part does. -/
theorem verifySwap_cases {s : St} (h : WF s) {p : Nat} :
    (verifySwap s p).ks = s.ks ∧ (verifySwap s p).devid = .heap p ∧ (verifySwap s p).store = s.store ∧ (verifySwap s p).pending = s.pending ∧ (verifySwap s p).locked = s.locked ∧
    (verifySwap s p).ub = s.ub ∧ (verifySwap s p).root = s.root ∧ (verifySwap s p).inter = s.inter ∧ (verifySwap s p).verify = .idle ∧ (verifySwap s p).next = s.next ∧
    ∀ q, (verifySwap s p).block q = if s.devid = .heap q then none else s.block q := by
  unfold verifySwap
  cases hd : s.devid with
  | static d => exact ⟨rfl, rfl, rfl, rfl, rfl, rfl, rfl, rfl, rfl, rfl, fun q => by simp [St.block]⟩
  | heap x =>
    have hl := h.live x (mem_refs.mpr (.inl hd))
    simp only [free_live hl]
    refine ⟨trivial, trivial, trivial, trivial, trivial, trivial, trivial, trivial, trivial, trivial, fun q => ?_⟩
    simp only [St.block, lookup_filter, Ref.heap.injEq]
    by_cases hq : q = x
    · simp [hq]
    · rw [if_neg hq, if_neg (fun h => hq h.symm)]

theorem wf_swap {s : St} (h : WF s) {p : Nat} (hv : s.verify = .swap p) : WF (verifySwap s p) := by
  obtain ⟨-, e2, -, -, -, e6, e7, e8, e9, e10, e11⟩ := verifySwap_cases h (p := p)
  obtain ⟨d1, d2, d3, d4, d5, d6⟩ := h.differ
  refine ⟨e6.trans h.ub, fun q hq => ?_, ?_, fun q hq => ?_, fun hx => absurd e9 hx⟩
  · rw [e11]; split
    · rfl
    · exact h.fresh q (by omega)
  · rw [idle_refs e9, devidRefs, e2, e7, e8]
    cases hr : s.root <;> cases hi : s.inter <;> simp [Option.toList]
    · exact fun e => d6 _ _ hi (.inr hv) e.symm
    · exact fun e => d5 _ _ hr (.inr hv) e.symm
    · exact ⟨⟨fun e => d5 _ _ hr (.inr hv) e.symm, fun e => d6 _ _ hi (.inr hv) e.symm⟩, fun e => d4 _ _ hr hi e⟩
  · rw [mem_refs, e2, e7, e8, e9] at hq
    rw [e11]
    rcases hq with hq | hq | hq | hq | hq
    · injection hq with hq
      subst hq
      rw [if_neg (fun hd => d3 _ _ hd (.inr hv) rfl)]
      exact h.live _ (mem_refs.mpr (.inr (.inr (.inr (.inr hv)))))
    · rw [if_neg (fun hd => d1 _ _ hd hq rfl)]
      exact h.live _ (mem_refs.mpr (.inr (.inl hq)))
    · rw [if_neg (fun hd => d2 _ _ hd hq rfl)]
      exact h.live _ (mem_refs.mpr (.inr (.inr (.inl hq))))
    · cases hq
    · cases hq

/-- Steps of the manager that leave blocks, pointers and the verification alone. -/
structure Quiet (s t : St) : Prop where
  heap : t.heap = s.heap
  next : t.next = s.next
  root : t.root = s.root
  inter : t.inter = s.inter
  devid : t.devid = s.devid
  verify : t.verify = s.verify
  ub : t.ub = s.ub

/-- What a step does. -/
inductive Stepped (cfg : Cfg) (s t : St) : Prop
  | quiet (h : Quiet s t)
  | begin (hv : s.verify = .idle) (hp : s.pending = true) (h : Began { s with pending := false } t)
  | check (p : Nat) (hv : s.verify = .check p) (h : Checked cfg s t p)
  | swap (p : Nat) (hv : s.verify = .swap p) (hl : s.locked = false) (h : t = verifySwap s p)

theorem quiet_erase (s : St) (f0 f1 f2 : Bool) : Quiet s (eraseAll s f0 f1 f2) := by
  unfold eraseAll
  repeat' split
  all_goals exact ⟨rfl, rfl, rfl, rfl, rfl, rfl, rfl⟩

theorem step_cases {cfg : Cfg} {s : St} (h : WF s) (l : Label) : Stepped cfg s (step cfg s l) := by
  have q : Stepped cfg s s := .quiet ⟨rfl, rfl, rfl, rfl, rfl, rfl, rfl⟩
  cases l with
  | storeBegin id cert => 
    simp only [step]
    split
    · exact .quiet ⟨rfl, rfl, rfl, rfl, rfl, rfl, rfl⟩
    · exact q
  | storeEnd f =>
    simp only [step]
    repeat' split
    · exact q
    all_goals exact .quiet ⟨rfl, rfl, rfl, rfl, rfl, rfl, rfl⟩
  | erase f0 f1 f2 => exact .quiet (quiet_erase s f0 f1 f2)
  | verifyBegin f0 f1 f2 =>
    simp only [step]
    split
    · rename_i hc
      exact .begin hc.1 hc.2 (verifyBegin_cases { s with pending := false } h.fresh _ _ _)
    · exact q
  | verifyCheck f =>
    simp only [step]
    split
    · rename_i p hv; exact .check p hv (verifyCheck_cases h hv f)
    · exact q
  | verifySwap =>
    simp only [step]
    split
    · rename_i p hv
      split
      · exact q
      · rename_i hl; exact .swap p hv (by simpa using hl) rfl
    · exact q
  | lockKeys =>
    simp only [step]
    split
    · exact q
    · exact .quiet ⟨rfl, rfl, rfl, rfl, rfl, rfl, rfl⟩
  | unlockKeys => exact .quiet ⟨rfl, rfl, rfl, rfl, rfl, rfl, rfl⟩

theorem wf_pending {s : St} (h : WF s) : WF { s with pending := false } := h.of_eq rfl rfl rfl rfl rfl rfl rfl

theorem wf_stepped {cfg : Cfg} {s t : St} (h : WF s) (hs : Stepped cfg s t) : WF t := by
  cases hs with
  | quiet q => exact h.of_eq q.heap q.next q.root q.inter q.devid q.verify q.ub
  | begin hv hp hb => exact wf_begin (wf_pending h) hv hb
  | check p hv hc => exact wf_check h hv hc
  | swap p hv hl e => exact e ▸ wf_swap h hv

/-! ### The chain in use -/

theorem rootCert_congr {s t : St} (h1 : t.root = s.root) (h2 : ∀ p, s.root = some p → t.block p = s.block p) : rootCert t = rootCert s := by
  unfold rootCert; rw [h1]
  cases h : s.root with
  | none => rfl
  | some p => exact h2 p h

theorem interCert_congr {s t : St} (h1 : t.inter = s.inter) (h2 : ∀ p, s.inter = some p → t.block p = s.block p) : interCert t = interCert s := by
  unfold interCert; rw [h1]
  cases h : s.inter with
  | none => rfl
  | some p => exact h2 p h

theorem devidCert_congr {s t : St} (h1 : t.devid = s.devid) (h2 : ∀ p, s.devid = .heap p → t.block p = s.block p) : devidCert t = devidCert s := by
  unfold devidCert; rw [h1]
  cases h : s.devid with
  | static d => rfl
  | heap p => exact h2 p h

/-- Nothing is used that was not checked. -/
structure Auth (cfg : Cfg) (d0 : Bytes) (s : St) : Prop where
  dev : ∃ d, devidCert s = some d ∧ (d = d0 ∨ ∃ i r, cfg.chainOk d i r = true)
  swap : ∀ p, s.verify = .swap p → ∃ d r, s.block p = some d ∧ rootCert s = some r ∧ (s.inter ≠ none → interCert s ≠ none) ∧ cfg.chainOk d (interCert s) r = true
  idle : s.verify = .idle → s.root ≠ none → ChainGood cfg s

theorem auth_begin {cfg : Cfg} {d0 : Bytes} {s t : St} (hw : WF s) (h : Auth cfg d0 s) (hv : s.verify = .idle) (hb : Began s t) : Auth cfg d0 t := by
  have hdl : ∀ p, s.devid = .heap p → p < s.next := fun p hp => hw.lt (mem_refs.mpr (.inl hp))
  cases hb with
  | nothing e => exact e ▸ h
  | noRoot e b n r i v =>
    exact ⟨by rw [devidCert_congr e.devid (fun p _ => b p)]; exact h.dev, fun p hp => (by rw [v, hv] at hp; cases hp), fun _ hr => absurd r hr⟩
  | read d r e k0 k1 b n hr i v =>
    refine ⟨?_, fun p hp => (by rw [v] at hp; cases hp), fun hp => (by rw [v] at hp; cases hp)⟩
    rw [devidCert_congr e.devid (fun p hp => by have := hdl p hp; rw [b, if_neg (by omega), if_neg (by omega)])]; exact h.dev
  | read3 d r ic e k0 k1 k2 b n hr i v =>
    refine ⟨?_, fun p hp => (by rw [v] at hp; cases hp), fun hp => (by rw [v] at hp; cases hp)⟩
    rw [devidCert_congr e.devid (fun p hp => by have := hdl p hp; rw [b, if_neg (by omega), if_neg (by omega), if_neg (by omega)])]; exact h.dev

theorem swap_certs {s : St} (hw : WF s) {p : Nat} (hv : s.verify = .swap p) :
    devidCert (verifySwap s p) = s.block p ∧ rootCert (verifySwap s p) = rootCert s ∧ interCert (verifySwap s p) = interCert s := by
  obtain ⟨-, e2, -, -, -, e6, e7, e8, e9, e10, e11⟩ := verifySwap_cases hw (p := p)
  obtain ⟨d1, d2, d3, d4, d5, d6⟩ := hw.differ
  refine ⟨?_, rootCert_congr e7 (fun q hq => ?_), interCert_congr e8 (fun q hq => ?_)⟩
  · unfold devidCert; rw [e2]
    show (verifySwap s p).block p = _
    rw [e11, if_neg (fun hd => d3 _ _ hd (.inr hv) rfl)]
  · rw [e11, if_neg (fun hd => d1 _ _ hd hq rfl)]
  · rw [e11, if_neg (fun hd => d2 _ _ hd hq rfl)]

theorem auth_stepped {cfg : Cfg} {d0 : Bytes} {s t : St} (hw : WF s) (h : Auth cfg d0 s) (hs : Stepped cfg s t) : Auth cfg d0 t := by
  cases hs with
  | quiet q =>
    have hb : ∀ p, t.block p = s.block p := fun p => by unfold St.block; rw [q.heap]
    have h1 := devidCert_congr q.devid (fun p _ => hb p)
    have h2 := rootCert_congr q.root (fun p _ => hb p)
    have h3 := interCert_congr q.inter (fun p _ => hb p)
    refine ⟨by rw [h1]; exact h.dev, fun p hp => ?_, fun hi hr => ?_⟩
    · rw [hb, h2, h3, q.inter]; exact h.swap p (q.verify ▸ hp)
    · rw [ChainGood, h1, h2, h3, q.inter]; exact h.idle (q.verify ▸ hi) (q.root ▸ hr)
  | begin hv hp hb => exact auth_begin (wf_pending hw) (s := { s with pending := false }) ⟨h.dev, h.swap, h.idle⟩ hv hb
  | check p hv hc =>
    obtain ⟨d1, d2, d3, -⟩ := hw.differ
    cases hc with
    | good d r hd hr hi hk e =>
      subst e
      refine ⟨h.dev, fun q hq => ?_, fun hx => by cases hx⟩
      injection hq with hq
      subst hq
      exact ⟨d, r, hd, hr, hi, hk⟩
    | bad e n r i v b =>
      refine ⟨?_, fun q hq => (by rw [v] at hq; cases hq), fun _ hr => absurd r hr⟩
      rw [devidCert_congr e.devid (fun q hq => ?_)]
      · exact h.dev
      · rw [b, if_neg]
        rintro (h1 | h1 | h1)
        · exact d3 q p hq (.inl hv) h1
        · exact d1 q q hq h1 rfl
        · exact d2 q q hq h1 rfl
  | swap p hv hl e =>
    subst e
    obtain ⟨d, r, h1, h2, h3, h4⟩ := h.swap p hv
    obtain ⟨c1, c2, c3⟩ := swap_certs hw hv
    obtain ⟨-, e2, -, -, -, e6, e7, e8, e9, e10, e11⟩ := verifySwap_cases hw (p := p)
    refine ⟨⟨d, c1.trans h1, .inr ⟨_, _, h4⟩⟩, fun q hq => (by rw [e9] at hq; cases hq), fun _ _ => ⟨d, r, c1.trans h1, c2.trans h2, ?_, by rw [c3]; exact h4⟩⟩
    rw [e8, c3]; exact h3

theorem initial_wf (ks : Nat → Option Bytes) (static : Bool) (d0 : Bytes) : WF (initial ks static d0) := by
  cases static
  · refine ⟨rfl, fun p hp => ?_, by simp [refs, initial], fun p hp => ?_, fun h => absurd rfl h⟩
    · have : ¬ p = 0 := by simp only [initial] at hp; omega
      simp [St.block, initial, lookup_cons, this]
    · simp [refs, initial] at hp; subst hp; simp [St.block, initial]
  · exact ⟨rfl, fun p hp => rfl, by simp [refs, initial], fun p hp => by simp [refs, initial] at hp, fun h => absurd rfl h⟩

theorem initial_auth (cfg : Cfg) (ks : Nat → Option Bytes) (static : Bool) (d0 : Bytes) : Auth cfg d0 (initial ks static d0) := by
  cases static
  · exact ⟨⟨d0, by simp [devidCert, initial], .inl rfl⟩, fun p hp => (by cases hp), fun _ h => absurd rfl h⟩
  · exact ⟨⟨d0, by simp [devidCert, initial], .inl rfl⟩, fun p hp => (by cases hp), fun _ h => absurd rfl h⟩

theorem run_inv {cfg : Cfg} {d0 : Bytes} (ls : List Label) {s : St} (hw : WF s) (ha : Auth cfg d0 s) : WF (run cfg s ls) ∧ Auth cfg d0 (run cfg s ls) := by
  induction ls generalizing s with
  | nil => exact ⟨hw, ha⟩
  | cons l ls ih =>
    have hs := step_cases (cfg := cfg) hw l
    exact ih (wf_stepped hw hs) (auth_stepped hw ha hs)

/-- In every history of both tasks, at every point, with everything that fails: the device identity certificate in use is the one of the boot, or one from the key store for
which the engine accepted a chain to a root CA. -/
theorem devid_authentic (cfg : Cfg) (ks : Nat → Option Bytes) (static : Bool) (d0 : Bytes) (ls : List Label) :
    ∃ d, devidCert (run cfg (initial ks static d0) ls) = some d ∧ (d = d0 ∨ ∃ i r, cfg.chainOk d i r = true) :=
  (run_inv ls (initial_wf ks static d0) (initial_auth cfg ks static d0)).2.dev

/-- In every history: when no verification runs and a root CA is shown, it is that of a chain the engine accepted, with the device identity and intermediate CA in use. -/
theorem chain_authentic_partial (cfg : Cfg) (ks : Nat → Option Bytes) (static : Bool) (d0 : Bytes) (ls : List Label)
    (hv : (run cfg (initial ks static d0) ls).verify = .idle) (hr : (run cfg (initial ks static d0) ls).root ≠ none) : ChainGood cfg (run cfg (initial ks static d0) ls) :=
  (run_inv ls (initial_wf ks static d0) (initial_auth cfg ks static d0)).2.idle hv hr

/-- In every history: no block is released twice or used by the verification after its release, and all pointers are to live, different blocks. -/
theorem memory_safe (cfg : Cfg) (ks : Nat → Option Bytes) (static : Bool) (d0 : Bytes) (ls : List Label) :
    (run cfg (initial ks static d0) ls).ub = false ∧ (refs (run cfg (initial ks static d0) ls)).Nodup ∧
    ∀ p ∈ refs (run cfg (initial ks static d0) ls), (run cfg (initial ks static d0) ls).heap.lookup p ≠ none :=
  let h := (run_inv (cfg := cfg) ls (initial_wf ks static d0) (initial_auth cfg ks static d0)).1
  ⟨h.ub, h.nodup, h.live⟩

theorem devid_begin {s t : St} (hw : WF s) (hb : Began s t) : t.devid = s.devid ∧ ∀ p, s.devid = .heap p → t.block p = s.block p := by
  have hdl : ∀ p, s.devid = .heap p → p < s.next := fun p hp => hw.lt (mem_refs.mpr (.inl hp))
  cases hb with
  | nothing e => exact e ▸ ⟨rfl, fun _ _ => rfl⟩
  | noRoot e b n r i v => exact ⟨e.devid, fun p _ => b p⟩
  | read d r e k0 k1 b n hr i v => exact ⟨e.devid, fun p hp => by have := hdl p hp; rw [b, if_neg (by omega), if_neg (by omega)]⟩
  | read3 d r ic e k0 k1 k2 b n hr i v => exact ⟨e.devid, fun p hp => by have := hdl p hp; rw [b, if_neg (by omega), if_neg (by omega), if_neg (by omega)]⟩

theorem locked_step {cfg : Cfg} {s : St} (hw : WF s) (hl : s.locked = true) (l : Label) :
    (step cfg s l).devid = s.devid ∧ ∀ p, s.devid = .heap p → (step cfg s l).block p = s.block p := by
  cases step_cases (cfg := cfg) hw l with
  | quiet q => exact ⟨q.devid, fun p _ => by unfold St.block; rw [q.heap]⟩
  | begin hv hp hb => exact devid_begin (s := { s with pending := false }) (wf_pending hw) hb
  | check p hv hc =>
    cases hc with
    | good d r hd hr hi hk e => rw [e]; exact ⟨rfl, fun _ _ => rfl⟩
    | bad e n r i v b =>
      obtain ⟨d1, d2, d3, -⟩ := hw.differ
      refine ⟨e.devid, fun q hq => ?_⟩
      rw [b, if_neg]
      rintro (h1 | h1 | h1)
      · exact d3 q p hq (.inl hv) h1
      · exact d1 q q hq h1 rfl
      · exact d2 q q hq h1 rfl
  | swap p hv hl' e => rw [hl] at hl'; cases hl'

/-- While a task holds the keys, no step of any task changes, moves or releases the device identity certificate that it uses. -/
theorem keys_stable_while_held (cfg : Cfg) (ks : Nat → Option Bytes) (static : Bool) (d0 : Bytes) (ls : List Label) (l : Label)
    (hl : (run cfg (initial ks static d0) ls).locked = true) :
    (step cfg (run cfg (initial ks static d0) ls) l).devid = (run cfg (initial ks static d0) ls).devid ∧
    devidCert (step cfg (run cfg (initial ks static d0) ls) l) = devidCert (run cfg (initial ks static d0) ls) := by
  have hw := (run_inv (cfg := cfg) ls (initial_wf ks static d0) (initial_auth cfg ks static d0)).1
  obtain ⟨h1, h2⟩ := locked_step (cfg := cfg) hw hl l
  exact ⟨h1, devidCert_congr h1 h2⟩

end Verif.Riot
