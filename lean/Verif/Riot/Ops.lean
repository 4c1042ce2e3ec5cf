import Verif.Riot.Props
/-! Histories in which an import is not interrupted between its check and its save. -/
namespace Verif.Riot

/-- The block of the device identity certificate that is in use or to be used. -/
def devidNow (s : St) : Option Bytes := match s.verify with
  | .idle => devidCert s
  | .check p => s.heap.lookup p
  | .swap p => s.heap.lookup p

/-- Between operations. -/
structure Clean (s : St) : Prop where
  store : s.store = .idle
  pending : s.pending = true → s.root = none
  inter : s.inter ≠ none → s.root ≠ none
  noLeak : NoLeak s
  key0 : s.root ≠ none → s.ks 0 = none ∨ s.ks 0 = devidNow s
  key1 : s.root ≠ none → s.ks 1 = none ∨ s.ks 1 = rootCert s
  key2 : s.inter ≠ none → s.ks 2 = none ∨ s.ks 2 = interCert s

theorem Clean.quiet {s t : St} (h : Clean s) (q : Quiet s t) (h1 : t.store = .idle) (h2 : t.pending = s.pending) (h3 : ∀ i, t.ks i = none ∨ t.ks i = s.ks i) : Clean t := by
  have hb : ∀ p, t.block p = s.block p := fun p => by unfold St.block; rw [q.heap]
  have c1 := devidCert_congr q.devid (fun p _ => hb p)
  have c2 := rootCert_congr q.root (fun p _ => hb p)
  have c3 := interCert_congr q.inter (fun p _ => hb p)
  have c4 : devidNow t = devidNow s := by unfold devidNow; rw [q.verify, c1, q.heap]
  have hr : refs t = refs s := by unfold refs; rw [q.devid, q.root, q.inter, q.verify]
  refine ⟨h1, by rw [h2, q.root]; exact h.pending, by rw [q.inter, q.root]; exact h.inter, fun p d hp => by rw [hr]; exact h.noLeak p d (q.heap ▸ hp), ?_, ?_, ?_⟩
  · rw [q.root, c4]; intro hx
    rcases h3 0 with e | e
    · exact .inl e
    · rw [e]; exact h.key0 hx
  · rw [q.root, c2]; intro hx
    rcases h3 1 with e | e
    · exact .inl e
    · rw [e]; exact h.key1 hx
  · rw [q.inter, c3]; intro hx
    rcases h3 2 with e | e
    · exact .inl e
    · rw [e]; exact h.key2 hx

theorem clean_begin {s t : St} (h : Clean s) (hv : s.verify = .idle) (hp : s.pending = false) (hr0 : s.root = none) (hb : Began s t) : Clean t := by
  have hi0 : s.inter = none := by
    cases hi : s.inter with
    | none => rfl
    | some i => exact absurd hr0 (h.inter (by rw [hi]; simp))
  have hd : ∀ p d, s.block p = some d → s.devid = .heap p := by
    intro p d hx
    have := mem_refs.mp (h.noLeak p d hx)
    rw [hr0, hi0, hv] at this
    rcases this with e | e | e | e | e
    · exact e
    all_goals cases e
  cases hb with
  | nothing e => exact e ▸ h
  | noRoot e b n r i v =>
    have i' : t.inter = none := by rcases i with i | i <;> rw [i]; exact hi0
    refine ⟨e.store.trans h.store, fun _ => r, fun x => absurd i' x, fun p d hx => ?_, fun x => absurd r x, fun x => absurd r x, fun x => absurd i' x⟩
    rw [mem_refs, e.devid]
    exact .inl (hd p d ((b p) ▸ hx))
  | read d r e k0 k1 b n hr i v =>
    refine ⟨e.store.trans h.store, fun x => ?_, fun x => absurd i x, fun p x hx => ?_, fun _ => .inr ?_, fun _ => .inr ?_, fun x => absurd i x⟩
    · rw [e.pending, hp] at x; cases x
    · have hx' : t.block p = some x := hx
      rw [b] at hx'
      rw [mem_refs, e.devid, hr, v]
      by_cases h1 : p = s.next
      · exact .inr (.inr (.inr (.inl (by rw [h1]))))
      · rw [if_neg h1] at hx'
        by_cases h2 : p = s.next + 1
        · exact .inr (.inl (by rw [h2]))
        · rw [if_neg h2] at hx'; exact .inl (hd p x hx')
    · rw [e.ks, k0, devidNow, v]
      show _ = t.block s.next
      rw [b, if_pos rfl]
    · rw [e.ks, k1, rootCert, hr]
      show _ = t.block (s.next + 1)
      rw [b, if_neg (by omega), if_pos rfl]
  | read3 d r ic e k0 k1 k2 b n hr i v =>
    refine ⟨e.store.trans h.store, fun x => ?_, fun _ => by rw [hr]; simp, fun p x hx => ?_, fun _ => .inr ?_, fun _ => .inr ?_, fun _ => .inr ?_⟩
    · rw [e.pending, hp] at x; cases x
    · have hx' : t.block p = some x := hx
      rw [b] at hx'
      rw [mem_refs, e.devid, hr, v, i]
      by_cases h1 : p = s.next
      · exact .inr (.inr (.inr (.inl (by rw [h1]))))
      · rw [if_neg h1] at hx'
        by_cases h2 : p = s.next + 1
        · exact .inr (.inl (by rw [h2]))
        · rw [if_neg h2] at hx'
          by_cases h3 : p = s.next + 2
          · exact .inr (.inr (.inl (by rw [h3])))
          · rw [if_neg h3] at hx'; exact .inl (hd p x hx')
    · rw [e.ks, k0, devidNow, v]
      show _ = t.block s.next
      rw [b, if_pos rfl]
    · rw [e.ks, k1, rootCert, hr]
      show _ = t.block (s.next + 1)
      rw [b, if_neg (by omega), if_pos rfl]
    · rw [e.ks, k2, interCert, i]
      show _ = t.block (s.next + 2)
      rw [b, if_neg (by omega), if_neg (by omega), if_pos rfl]

theorem clean_check {cfg : Cfg} {s t : St} (hw : WF s) (h : Clean s) {p : Nat} (hv : s.verify = .check p) (hc : Checked cfg s t p) : Clean t := by
  have hr := hw.root (by rw [hv]; simp)
  cases hc with
  | good d r hd _ hi hk e =>
    subst e
    have : refs { s with verify := .swap p } = refs s := by rw [refs_eq, refs_eq, verifyRefs, verifyRefs, hv]; rfl
    refine ⟨h.store, h.pending, h.inter, fun q d hq => by rw [this]; exact h.noLeak q d hq, fun hx => ?_, h.key1, h.key2⟩
    have := h.key0 hx
    rw [devidNow, hv] at this
    exact this
  | bad e n r i v b =>
    refine ⟨e.store.trans h.store, fun _ => r, fun x => absurd i x, fun q d hq => ?_, fun x => absurd r x, fun x => absurd r x, fun x => absurd i x⟩
    have hq' : t.block q = some d := hq
    rw [b] at hq'
    by_cases hc : q = p ∨ s.root = some q ∨ s.inter = some q
    · rw [if_pos hc] at hq'; cases hq'
    · rw [if_neg hc] at hq'
      have := mem_refs.mp (h.noLeak q d hq')
      rw [hv] at this
      rw [mem_refs, e.devid]
      rcases this with e | e | e | e | e
      · exact .inl e
      · exact absurd (.inr (.inl e)) hc
      · exact absurd (.inr (.inr e)) hc
      · injection e with e; exact absurd (.inl e.symm) hc
      · cases e

theorem clean_swap {s : St} (hw : WF s) (h : Clean s) {p : Nat} (hv : s.verify = .swap p) : Clean (verifySwap s p) := by
  obtain ⟨c1, c2, c3⟩ := swap_certs hw hv
  obtain ⟨e1, e2, e3, e4, -, -, e7, e8, e9, e10, e11⟩ := verifySwap_cases hw (p := p)
  refine ⟨e3.trans h.store, by rw [e4, e7]; exact h.pending, by rw [e8, e7]; exact h.inter, fun q d hq => ?_, ?_, by rw [e7, e1, c2]; exact h.key1, by rw [e8, e1, c3]; exact h.key2⟩
  · have hq' : (verifySwap s p).block q = some d := hq
    rw [e11] at hq'
    by_cases hd : s.devid = .heap q
    · rw [if_pos hd] at hq'; cases hq'
    · rw [if_neg hd] at hq'
      have := mem_refs.mp (h.noLeak q d hq')
      rw [mem_refs, e2, e7, e8]
      rcases this with e | e | e | e | e
      · exact absurd e hd
      · exact .inr (.inl e)
      · exact .inr (.inr (.inl e))
      · rw [hv] at e; cases e
      · rw [hv] at e; injection e with e; exact .inl (by rw [e])
  · rw [e7, e1, devidNow, e9]
    intro hx
    have := h.key0 hx
    rw [devidNow, hv] at this
    rw [show devidCert (verifySwap s p) = s.block p from c1]; exact this

theorem clean_import {s : St} (cfg : Cfg) (hw : WF s) (h : Clean s) (id : Nat) (cert : Bytes) (f : Option (Option Bytes)) :
    Clean (step cfg (step cfg s (.storeBegin id cert)) (.storeEnd f)) := by
  by_cases hc : s.store = .idle ∧ s.root = none ∧ id < 3 ∧ cert ≠ []
  · have e : step cfg s (.storeBegin id cert) = { s with store := .save id cert } := by simp only [step]; exact if_pos hc
    have hi : s.inter = none := by
      cases hi : s.inter with
      | none => rfl
      | some i => exact absurd hc.2.1 (h.inter (by rw [hi]; simp))
    rw [e]
    cases f with
    | none => exact ⟨rfl, fun _ => hc.2.1, h.inter, h.noLeak, fun x => absurd hc.2.1 x, fun x => absurd hc.2.1 x, fun x => absurd hi x⟩
    | some r => exact ⟨rfl, h.pending, h.inter, h.noLeak, fun x => absurd hc.2.1 x, fun x => absurd hc.2.1 x, fun x => absurd hi x⟩
  · have e : step cfg s (.storeBegin id cert) = s := by simp only [step]; exact if_neg hc
    rw [e]
    have : step cfg s (.storeEnd f) = s := by simp only [step, h.store]
    rw [this]; exact h

theorem clean_erase {s : St} (h : Clean s) (f0 f1 f2 : Bool) : Clean (eraseAll s f0 f1 f2) := by
  refine h.quiet (quiet_erase s f0 f1 f2) ?_ ?_ ?_
  · unfold eraseAll; repeat' split
    all_goals exact h.store
  · unfold eraseAll; repeat' split
    all_goals rfl
  · intro i
    unfold eraseAll; repeat' split
    · exact .inr rfl
    all_goals simp only; grind

theorem clean_op {cfg : Cfg} {s : St} (hw : WF s) (h : Clean s) (o : Op) : Clean (run cfg s o.labels) := by
  cases o with
  | import_ id cert f => exact clean_import cfg hw h id cert f
  | erase f0 f1 f2 => exact clean_erase h f0 f1 f2
  | verifyBegin f0 f1 f2 =>
    show Clean (step cfg s (.verifyBegin f0 f1 f2))
    simp only [step]
    split
    · rename_i hc
      exact clean_begin (s := { s with pending := false }) ⟨h.store, fun x => (by cases x), h.inter, h.noLeak, h.key0, h.key1, h.key2⟩ hc.1 rfl (h.pending hc.2)
        (verifyBegin_cases { s with pending := false } hw.fresh _ _ _)
    · exact h
  | verifyCheck f =>
    show Clean (step cfg s (.verifyCheck f))
    simp only [step]
    split
    · rename_i p hv; exact clean_check hw h hv (verifyCheck_cases hw hv f)
    · exact h
  | verifySwap =>
    show Clean (step cfg s .verifySwap)
    simp only [step]
    split
    · rename_i p hv
      split
      · exact h
      · exact clean_swap hw h hv
    · exact h
  | lockKeys =>
    show Clean (step cfg s .lockKeys)
    simp only [step]
    split
    · exact h
    · exact h.quiet ⟨rfl, rfl, rfl, rfl, rfl, rfl, rfl⟩ h.store rfl (fun _ => .inr rfl)
  | unlockKeys => exact h.quiet ⟨rfl, rfl, rfl, rfl, rfl, rfl, rfl⟩ h.store rfl (fun _ => .inr rfl)

theorem run_append (cfg : Cfg) (s : St) (a b : List Label) : run cfg s (a ++ b) = run cfg (run cfg s a) b := List.foldl_append

/-- A history of operations. -/
def runOps (cfg : Cfg) (s : St) (os : List Op) : St := run cfg s (os.flatMap Op.labels)

theorem clean_ops {cfg : Cfg} {d0 : Bytes} (os : List Op) {s : St} (hw : WF s) (ha : Auth cfg d0 s) (h : Clean s) : Clean (runOps cfg s os) := by
  induction os generalizing s with
  | nil => exact h
  | cons o os ih =>
    have e : runOps cfg s (o :: os) = runOps cfg (run cfg s o.labels) os := by
      rw [runOps, List.flatMap_cons, run_append]; rfl
    rw [e]
    have := run_inv (cfg := cfg) o.labels hw ha
    exact ih this.1 this.2 (clean_op hw h o)

theorem initial_clean (ks : Nat → Option Bytes) (static : Bool) (d0 : Bytes) : Clean (initial ks static d0) := by
  refine ⟨rfl, fun _ => rfl, fun h => absurd rfl h, fun p d hp => ?_, fun h => absurd rfl h, fun h => absurd rfl h, fun h => absurd rfl h⟩
  cases static
  · simp only [initial, Bool.false_eq_true, if_false] at hp
    rw [lookup_cons] at hp
    by_cases h0 : p = 0
    · rw [mem_refs]; exact .inl (by rw [h0]; rfl)
    · rw [if_neg h0] at hp; cases hp
  · cases hp

/-- Without an interruption of imports, no certificate that was read is lost, and there is no intermediate CA without root CA. -/
theorem no_leak_partial (cfg : Cfg) (ks : Nat → Option Bytes) (static : Bool) (d0 : Bytes) (os : List Op) :
    NoLeak (runOps cfg (initial ks static d0) os) ∧ ((runOps cfg (initial ks static d0) os).inter ≠ none → (runOps cfg (initial ks static d0) os).root ≠ none) :=
  let h := clean_ops (cfg := cfg) os (initial_wf ks static d0) (initial_auth cfg ks static d0) (initial_clean ks static d0)
  ⟨h.noLeak, h.inter⟩

/-- Without an interruption of imports: once certificates are in use, each one that is still in the key store is the one in use, so that the next boot uses the same chain or none. -/
theorem store_agrees_partial (cfg : Cfg) (ks : Nat → Option Bytes) (static : Bool) (d0 : Bytes) (os : List Op)
    (hv : (runOps cfg (initial ks static d0) os).verify = .idle) (hr : (runOps cfg (initial ks static d0) os).root ≠ none) :
    let s := runOps cfg (initial ks static d0) os
    (s.ks 0 = none ∨ s.ks 0 = devidCert s) ∧ (s.ks 1 = none ∨ s.ks 1 = rootCert s) ∧ (s.inter ≠ none → s.ks 2 = none ∨ s.ks 2 = interCert s) := by
  have h := clean_ops (cfg := cfg) os (initial_wf ks static d0) (initial_auth cfg ks static d0) (initial_clean ks static d0)
  have h0 := h.key0 hr
  rw [devidNow, hv] at h0
  exact ⟨h0, h.key1 hr, h.key2⟩

theorem free_opt {s : St} {o : Option Nat} (h : ∀ p, o = some p → s.block p ≠ none) :
    (free s o).ub = s.ub ∧ (free s o).root = s.root ∧ (free s o).inter = s.inter ∧ ∀ q, (free s o).block q = if o = some q then none else s.block q := by
  cases o with
  | none => exact ⟨rfl, rfl, rfl, fun q => by simp [free]⟩
  | some p =>
    rw [free_live (h p rfl)]
    refine ⟨rfl, rfl, rfl, fun q => ?_⟩
    simp only [St.block, lookup_filter, Option.some.injEq]
    by_cases hq : q = p
    · rw [if_pos hq, if_pos hq.symm]
    · rw [if_neg hq, if_neg (fun h => hq h.symm)]

theorem release_spec {s : St} (hw : WF s) : (release s).ub = false ∧ ∀ q, (release s).block q = if s.devid = .heap q ∨ s.root = some q ∨ s.inter = some q then none else s.block q := by
  obtain ⟨d1, d2, d3, d4, d5, d6⟩ := hw.differ
  have key : ∀ (t : St) (o : Option Nat), (∀ q, o = some q ↔ s.devid = .heap q) → t = free s o →
      { free { free t t.root with root := none } { free t t.root with root := none }.inter with inter := none }.ub = false ∧
      ∀ q, { free { free t t.root with root := none } { free t t.root with root := none }.inter with inter := none }.block q = if s.devid = .heap q ∨ s.root = some q ∨ s.inter = some q then none else s.block q := by
    intro t o ho ht
    obtain ⟨a1, a2, a3, a4⟩ := free_opt (s := s) (o := o) (fun p hp => hw.live p (mem_refs.mpr (.inl ((ho p).mp hp))))
    rw [← ht] at a1 a2 a3 a4
    obtain ⟨b1, b2, b3, b4⟩ := free_opt (s := t) (o := t.root) (fun p hp => by
      rw [a2] at hp
      rw [a4, if_neg (fun e => d1 _ _ ((ho p).mp e) hp rfl)]; exact hw.live p (mem_refs.mpr (.inr (.inl hp))))
    have hin : { free t t.root with root := none }.inter = s.inter := b3.trans a3
    rw [hin]
    obtain ⟨c1, c2, c3, c4⟩ := free_opt (s := { free t t.root with root := none }) (o := s.inter) (fun p hp => by
      show (free t t.root).block p ≠ none
      rw [b4, a2, if_neg (fun e => d4 _ _ e hp rfl), a4, if_neg (fun e => d2 _ _ ((ho p).mp e) hp rfl)]
      exact hw.live p (mem_refs.mpr (.inr (.inr (.inl hp)))))
    refine ⟨c1.trans (b1.trans (a1.trans hw.ub)), fun q => ?_⟩
    show (free { free t t.root with root := none } s.inter).block q = _
    rw [c4]
    have : St.block { free t t.root with root := none } q = (free t t.root).block q := rfl
    rw [this, b4, a4, a2]
    simp only [ho]
    by_cases x1 : s.devid = .heap q
    · simp [x1]
    · by_cases x2 : s.root = some q
      · simp [x2]
      · by_cases x3 : s.inter = some q <;> simp [x1, x2, x3]
  unfold release
  cases hd : s.devid with
  | static d =>
    have := key s none (fun q => by rw [hd]; simp) rfl
    rw [hd] at this; exact this
  | heap p =>
    have := key (free s (some p)) (some p) (fun q => by rw [hd]; simp) rfl
    rw [hd] at this; exact this

/-- When no verification runs, the release of the manager frees every block once, and leaves none, if imports were not interrupted. -/
theorem release_all_partial (cfg : Cfg) (ks : Nat → Option Bytes) (static : Bool) (d0 : Bytes) (os : List Op)
    (hv : (runOps cfg (initial ks static d0) os).verify = .idle) :
    (release (runOps cfg (initial ks static d0) os)).ub = false ∧ ∀ p, (release (runOps cfg (initial ks static d0) os)).heap.lookup p = none := by
  have hw := (run_inv (cfg := cfg) (os.flatMap Op.labels) (initial_wf ks static d0) (initial_auth cfg ks static d0)).1
  have h := clean_ops (cfg := cfg) os (initial_wf ks static d0) (initial_auth cfg ks static d0) (initial_clean ks static d0)
  obtain ⟨r1, r2⟩ := release_spec hw
  refine ⟨r1, fun p => ?_⟩
  show (release (runOps cfg (initial ks static d0) os)).block p = none
  have r2' : (release (runOps cfg (initial ks static d0) os)).block p = _ := r2 p
  rw [r2']
  by_cases hc : (run cfg (initial ks static d0) (os.flatMap Op.labels)).devid = .heap p ∨ (run cfg (initial ks static d0) (os.flatMap Op.labels)).root = some p ∨
      (run cfg (initial ks static d0) (os.flatMap Op.labels)).inter = some p
  · rw [if_pos hc]
  · rw [if_neg hc]
    cases hb : St.block (run cfg (initial ks static d0) (os.flatMap Op.labels)) p with
    | none => rfl
    | some d =>
      have := mem_refs.mp (h.noLeak p d hb)
      rw [hv] at this
      rcases this with e | e | e | e | e
      · exact absurd (.inl e) hc
      · exact absurd (.inr (.inl e)) hc
      · exact absurd (.inr (.inr e)) hc
      · cases e
      · cases e

/-- An import that succeeds stores the certificate, leaves the others alone and asks for a verification. -/
theorem import_asks (cfg : Cfg) (s : St) (id : Nat) (cert : Bytes) (hs : s.store = .idle) (hr : s.root = none) (hi : id < 3) (hc : cert ≠ []) :
    (run cfg s (Op.labels (.import_ id cert none))).pending = true ∧ (run cfg s (Op.labels (.import_ id cert none))).ks id = some cert ∧
    ∀ j, j ≠ id → (run cfg s (Op.labels (.import_ id cert none))).ks j = s.ks j := by
  simp only [Op.labels, run, List.foldl_cons, List.foldl_nil, step, hs, hr, hi, hc, ne_eq, not_false_eq_true, and_self, if_true, true_and]
  exact fun j hj => if_neg hj

/-- Once certificates are in use or being verified, an import is refused, however it comes. -/
theorem import_refused (cfg : Cfg) (s : St) (id : Nat) (cert : Bytes) (hr : s.root ≠ none) : step cfg s (.storeBegin id cert) = s := by
  simp only [step]
  exact if_neg (fun h => hr h.2.1)

namespace Example

/-- Certificates are accepted if all their first bytes are equal. -/
def cfg : Cfg where
  chainOk d i r := d.head? == r.head? && match i with | none => true | some i => i.head? == r.head?

def ks0 : Nat → Option Bytes := fun _ => none

/-- Import of three certificates, verification. -/
def good : List Op := [.verifyBegin .none .none .none, .import_ 1 [7, 1] none, .import_ 2 [7, 2] none, .import_ 0 [7, 3] none,
  .verifyBegin .none .none .none, .verifyCheck false, .import_ 0 [9] none, .verifySwap]

/-- The hypotheses of the theorems are met: a chain gets into use. -/
example : devidCert (runOps cfg (initial ks0 false [1]) good) = some [7, 3] ∧ rootCert (runOps cfg (initial ks0 false [1]) good) = some [7, 1] ∧
    interCert (runOps cfg (initial ks0 false [1]) good) = some [7, 2] ∧ (runOps cfg (initial ks0 false [1]) good).verify = .idle ∧
    (runOps cfg (initial ks0 false [1]) good).heap.length = 3 ∧ (runOps cfg (initial ks0 false [1]) good).ks 0 = some [7, 3] := by decide_cbv

/-- A reader holds the keys while a new certificate is to be taken into use: it has to wait. -/
example : devidCert (runOps cfg (initial ks0 false [1]) (good.take 7 ++ [.lockKeys, .verifySwap])) = some [1] ∧ (runOps cfg (initial ks0 false [1]) (good.take 7 ++ [.lockKeys])).locked = true ∧
    devidCert (runOps cfg (initial ks0 false [1]) (good.take 7 ++ [.lockKeys, .verifySwap, .unlockKeys, .verifySwap])) = some [7, 3] := by decide_cbv

/-- A chain that is not accepted leaves nothing behind. -/
example : (runOps cfg (initial ks0 true [1]) [.import_ 1 [7, 1] none, .import_ 0 [8, 3] none, .verifyBegin .none .none .none, .verifyCheck false, .verifySwap]).heap = [] := by decide_cbv

/-- While the check of the chain runs, `riot_key_manager_get_root_ca` (riot_key_manager.c:537-544) gives a root CA that the engine never accepted, and the block is
released when the check fails, with nothing that tells the caller. -/
theorem root_before_check : let s := runOps cfg (initial ks0 true [1]) [.import_ 1 [7, 1] none, .import_ 0 [8, 3] none, .verifyBegin .none .none .none]
    rootCert s = some [7, 1] ∧ ¬ ChainGood cfg s ∧ s.root = some 2 ∧ (step cfg s (.verifyCheck false)).heap.lookup 2 = none := by
  refine ⟨by decide_cbv, ?_, by decide_cbv, by decide_cbv⟩
  rintro ⟨d, r, h1, h2, -, h4⟩
  have e1 : devidCert (runOps cfg (initial ks0 true [1]) [.import_ 1 [7, 1] none, .import_ 0 [8, 3] none, .verifyBegin .none .none .none]) = some [1] := by decide_cbv
  have e2 : rootCert (runOps cfg (initial ks0 true [1]) [.import_ 1 [7, 1] none, .import_ 0 [8, 3] none, .verifyBegin .none .none .none]) = some [7, 1] := by decide_cbv
  have e3 : interCert (runOps cfg (initial ks0 true [1]) [.import_ 1 [7, 1] none, .import_ 0 [8, 3] none, .verifyBegin .none .none .none]) = none := by decide_cbv
  rw [e1] at h1; rw [e2] at h2; rw [e3] at h4
  injection h1 with h1; injection h2 with h2
  subst h1; subst h2
  exact absurd h4 (by decide_cbv)

/-- The import of a further certificate whose check of the lock came before the verification and whose save came after it. -/
def race : List Label := [.storeBegin 1 [7, 1], .storeEnd none, .storeBegin 0 [7, 3], .storeEnd none, .storeBegin 1 [9, 1],
  .verifyBegin .none .none .none, .verifyCheck false, .verifySwap, .storeEnd none]

/-- The stored root CA is replaced although the certificates are locked: the chain in use is not the one in the key store. -/
theorem race_store : let s := run cfg (initial ks0 true [1]) race
    s.verify = .idle ∧ s.store = .idle ∧ rootCert s = some [7, 1] ∧ s.ks 1 = some [9, 1] := by decide_cbv

/-- The verification after that loses the block of the root CA in use, and after it failed the device identity certificate that came with it stays in use without a root CA. -/
theorem race_leak : let s := run cfg (initial ks0 true [1]) (race ++ [.verifyBegin .none .none .none, .verifyCheck false])
    s.verify = .idle ∧ devidCert s = some [7, 3] ∧ s.root = none ∧ s.heap.map Prod.fst = [2, 1] ∧ refs s = [1] := by decide_cbv

/-- The same race with an unreadable root CA: an intermediate CA without a root CA. -/
theorem race_inter : let s := run cfg (initial ks0 true [1]) ([.storeBegin 2 [7, 2], .storeEnd none] ++ race ++ [.verifyBegin .none .bad .none])
    s.verify = .idle ∧ s.root = none ∧ interCert s = some [7, 2] := by decide_cbv

end Example

end Verif.Riot
