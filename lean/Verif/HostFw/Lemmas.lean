import Verif.HostFw.Spec
import Verif.Flash.Props
/-! Lemmas about the model of host_fw_util.c. -/
namespace Verif.HostFw
open Verif.Flash

/-! ### The next region -/

/-- `o` is the first of the regions at or after `last`. -/
def Least (last : Nat) (rs : List Region) : Option Region → Prop
  | none => ∀ q ∈ rs, q.start < last
  | some r => r ∈ rs ∧ last ≤ r.start ∧ ∀ q ∈ rs, last ≤ q.start → r.start ≤ q.start

theorem findLoop_spec (last : Nat) (rs : List Region) : ∀ (pre : List Region) (next : Option Region), Least last pre next →
    Least last (pre ++ rs) (findLoop last next rs) := by
  induction rs with
  | nil => intro pre next h; simpa [findLoop] using h
  | cons r rs ih =>
    intro pre next h
    have e : pre ++ r :: rs = (pre ++ [r]) ++ rs := by simp
    unfold findLoop
    split
    · rename_i h1
      split
      · rename_i h2
        exact ⟨by simp, h1, fun q _ hq => by omega⟩
      · rename_i h2
        split
        · rename_i h3
          rw [e]
          apply ih
          refine ⟨by simp, h1, fun q hq hl => ?_⟩
          rw [List.mem_append] at hq
          rcases hq with hq | hq
          · cases next with
            | none => have := h q hq; omega
            | some n =>
              have := h.2.2 q hq hl
              simp only [Option.all_some, decide_eq_true_eq] at h3
              omega
          · simp only [List.mem_singleton] at hq; subst hq; exact Nat.le_refl _
        · rename_i h3
          rw [e]
          apply ih
          cases next with
          | none => simp at h3
          | some n =>
            simp only [Option.all_some, decide_eq_true_eq] at h3
            refine ⟨by simp [h.1], h.2.1, fun q hq hl => ?_⟩
            rw [List.mem_append] at hq
            rcases hq with hq | hq
            · exact h.2.2 q hq hl
            · simp only [List.mem_singleton] at hq; subst hq; omega
    · rename_i h1
      rw [e]
      apply ih
      cases next with
      | none =>
        intro q hq
        rw [List.mem_append] at hq
        rcases hq with hq | hq
        · exact h q hq
        · simp only [List.mem_singleton] at hq; subst hq; omega
      | some n =>
        refine ⟨by simp [h.1], h.2.1, fun q hq hl => ?_⟩
        rw [List.mem_append] at hq
        rcases hq with hq | hq
        · exact h.2.2 q hq hl
        · simp only [List.mem_singleton] at hq; subst hq; omega

theorem findNext_spec (last : Nat) (rs : List Region) : Least last rs (findNext last rs) := by
  have := findLoop_spec last rs [] none (by intro q hq; simp at hq)
  simpa [findNext] using this

/-- The one of two regions that starts first. -/
def earlier : Option Region → Option Region → Option Region
  | some x, some y => if y.start < x.start then some y else some x
  | some x, none => some x
  | none, y => y

/-- Combining the first regions of two lists. -/
theorem Least.both {last : Nat} {rs qs : List Region} {a b : Option Region} (ha : Least last rs a) (hb : Least last qs b) :
    Least last (rs ++ qs) (earlier a b) := by
  unfold earlier
  cases a with
  | none =>
    cases b with
    | none => intro q hq; rw [List.mem_append] at hq; exact hq.elim (ha q) (hb q)
    | some y =>
      refine ⟨by simp [hb.1], hb.2.1, fun q hq hl => ?_⟩
      rw [List.mem_append] at hq
      rcases hq with hq | hq
      · have := ha q hq; omega
      · exact hb.2.2 q hq hl
  | some x =>
    cases b with
    | none =>
      refine ⟨by simp [ha.1], ha.2.1, fun q hq hl => ?_⟩
      rw [List.mem_append] at hq
      rcases hq with hq | hq
      · exact ha.2.2 q hq hl
      · have := hb q hq; omega
    | some y =>
      dsimp only
      split
      · refine ⟨by simp [hb.1], hb.2.1, fun q hq hl => ?_⟩
        rw [List.mem_append] at hq
        rcases hq with hq | hq
        · have := ha.2.2 q hq hl; omega
        · exact hb.2.2 q hq hl
      · refine ⟨by simp [ha.1], ha.2.1, fun q hq hl => ?_⟩
        rw [List.mem_append] at hq
        rcases hq with hq | hq
        · exact ha.2.2 q hq hl
        · have := hb.2.2 q hq hl; omega

theorem Least.hit {last : Nat} {rs : List Region} {r : Region} (h : r ∈ rs) (e : r.start = last) : Least last rs (some r) :=
  ⟨h, by omega, fun q _ hq => by omega⟩

theorem findGroupLoop_spec (last : Nat) (gs : List (List Region)) : ∀ (pre : List Region) (next : Option Region), Least last pre next →
    Least last (pre ++ gs.flatten) (findGroupLoop last next gs) := by
  induction gs with
  | nil => intro pre next h; simpa [findGroupLoop] using h
  | cons g gs ih =>
    intro pre next h
    have hg := findNext_spec last g
    have hb := h.both hg
    have e : pre ++ (g :: gs).flatten = (pre ++ g) ++ gs.flatten := by simp
    unfold findGroupLoop
    cases hf : findNext last g with
    | none =>
      rw [hf] at hb
      rw [e]
      apply ih
      cases next <;> exact hb
    | some r =>
      rw [hf] at hb hg
      dsimp only
      split
      · rename_i h1
        exact Least.hit (by simp [hg.1]) h1
      · rename_i h1
        split
        · rename_i h2
          rw [e]
          apply ih
          cases next with
          | none => exact hb
          | some n =>
            simp only [Option.all_some, decide_eq_true_eq] at h2
            dsimp only [earlier] at hb
            rwa [if_pos h2] at hb
        · rename_i h2
          rw [e]
          apply ih
          cases next with
          | none => simp at h2
          | some n =>
            simp only [Option.all_some, decide_eq_true_eq] at h2
            dsimp only [earlier] at hb
            rwa [if_neg h2] at hb

theorem findGroup_spec (last : Nat) (gs : List (List Region)) : Least last gs.flatten (findGroup last gs) := by
  have := findGroupLoop_spec last gs [] none (by intro q hq; simp at hq)
  simpa [findGroup] using this

theorem findFlash_spec (last : Nat) (imgs rws : List (List Region)) :
    Least last (imgs.flatten ++ rws.flatten) (findFlash last imgs rws) := by
  have h1 := findGroup_spec last imgs
  have h2 := findGroup_spec last rws
  have hb := h1.both h2
  unfold findFlash
  cases ha : findGroup last imgs with
  | none => rw [ha] at hb; exact hb
  | some n =>
    rw [ha] at hb h1
    dsimp only
    split
    · rename_i e; exact Least.hit (by simp only [List.mem_append]; exact .inl h1.1) e
    · rename_i e
      cases hr : findGroup last rws with
      | none => rw [hr] at hb; exact hb
      | some r =>
        rw [hr] at hb h2
        dsimp only [earlier] at hb ⊢
        split
        · rename_i e2; exact Least.hit (by simp only [List.mem_append]; exact .inr h2.1) e2
        · exact hb

/-- Two lists with the same regions, no two of which start at the same address, give the same region. -/
theorem Least.unique {last : Nat} {rs qs : List Region} {a b : Option Region} (ha : Least last rs a) (hb : Least last qs b)
    (hm : ∀ r, r ∈ rs ↔ r ∈ qs) (hu : ∀ r ∈ rs, ∀ q ∈ rs, r.start = q.start → r = q) : a = b := by
  cases a with
  | none =>
    cases b with
    | none => rfl
    | some y => have := ha y ((hm y).2 hb.1); have := hb.2.1; omega
  | some x =>
    cases b with
    | none => have := hb x ((hm x).1 ha.1); have := ha.2.1; omega
    | some y =>
      have h1 := ha.2.2 y ((hm y).2 hb.1) hb.2.1
      have h2 := hb.2.2 x ((hm x).1 ha.1) ha.2.1
      rw [hu x ha.1 y ((hm y).2 hb.1) (by omega)]

/-! ### Flash functions -/

theorem valueCheck_spec (dv : Dev) (s : FS) (a len : Nat) (v : UInt8) (hf : a + len ≤ 2 ^ 32) :
    (valueCheck dv s a len v).2.mem = s.mem ∧
    ((valueCheck dv s a len v).1 = .ok → ∀ i, a ≤ i → i < a + len → s.mem i = v) := by
  obtain ⟨h1, h2, _, h4⟩ := checkLoop_spec dv len len (Nat.le_refl _) s a (fun _ => v) hf
  unfold valueCheck
  cases hc : checkLoop dv s a (fun _ => v) len with
  | mk st s1 =>
    rw [hc] at h1 h2
    cases st <;> refine ⟨h1, fun hok i hi hl => ?_⟩ <;> first | cases hok | skip
    have := h2 rfl (i - a) (by omega)
    rwa [show a + (i - a) = i by omega] at this

theorem ofStatus_ok {r : Status × FS} {s : FS} (h : ofStatus r = (.ok (), s)) : r = (.ok, s) := by
  obtain ⟨st, s1⟩ := r
  cases st <;> simp [ofStatus] at h ⊢ <;> exact h

theorem ofStatus_snd (r : Status × FS) : (ofStatus r).2 = r.2 := by
  obtain ⟨st, s1⟩ := r
  cases st <;> rfl

theorem eachUntil_mem {f : α → FS → Except Err Unit × FS} {l : List α} (hf : ∀ x ∈ l, ∀ s, (f x s).2.mem = s.mem) :
    ∀ s, (eachUntil f l s).2.mem = s.mem := by
  induction l with
  | nil => intro s; rfl
  | cons x xs ih =>
    intro s
    have h1 := hf x (by simp) s
    unfold eachUntil
    cases hc : f x s with
    | mk r s1 =>
      rw [hc] at h1
      cases r with
      | error e => exact h1
      | ok u => dsimp only; rw [ih (fun y hy => hf y (by simp [hy]))]; exact h1

/-- If nothing is changed and `P` follows for each element, success gives `P` for all of them. -/
theorem eachUntil_ok {f : α → FS → Except Err Unit × FS} {l : List α} (hf : ∀ x ∈ l, ∀ s, (f x s).2.mem = s.mem) {P : Mem → α → Prop}
    (hp : ∀ x ∈ l, ∀ s s', f x s = (.ok (), s') → P s.mem x) :
    ∀ s s', eachUntil f l s = (.ok (), s') → ∀ x ∈ l, P s.mem x := by
  induction l with
  | nil => intro s s' _ x hx; simp at hx
  | cons x xs ih =>
    intro s s' h y hy
    have h1 := hf x (by simp) s
    unfold eachUntil at h
    cases hc : f x s with
    | mk r s1 =>
      rw [hc] at h h1
      cases r with
      | error e => simp at h
      | ok u =>
        dsimp only at h
        rcases List.mem_cons.1 hy with rfl | hy
        · exact hp y (by simp) s s1 hc
        · have := ih (fun y hy => hf y (by simp [hy])) (fun y hy => hp y (by simp [hy])) s1 s' h y hy
          rwa [h1] at this

/-! ### Images -/

theorem hashFlash_mem (dv : Dev) (eg : Engine) (off : Nat) (rs : List Region) (ty : Nat) (s : FS) (hf : RegionsFit off rs) :
    (hashFlash dv eg off rs ty s).2.mem = s.mem ∧
    (∀ d s', hashFlash dv eg off rs ty s = (.ok d, s') → eg.digest ty (content s.mem off rs) = some d) := by
  have hr := hash_regions_exact dv eg.fail off (rs.map (fun r => (r.start, r.len))) s [] (by
    intro r hr
    simp only [List.mem_map] at hr
    obtain ⟨q, hq, rfl⟩ := hr
    exact hf q hq)
  unfold hashFlash
  split
  · exact ⟨rfl, fun d s' h => by simp at h⟩
  · split
    · exact ⟨rfl, fun d s' h => by simp at h⟩
    · cases hc : hashRegions dv eg.fail off s [] (rs.map (fun r => (r.start, r.len))) with
      | mk st x =>
        obtain ⟨data, s1⟩ := x
        rw [hc] at hr
        cases st <;> first | exact ⟨hr.1, fun d s' h => by simp at h⟩ | skip
        have hd := hr.2 rfl
        dsimp only at hd ⊢
        split
        · exact ⟨hr.1, fun d s' h => by simp at h⟩
        · cases hg : eg.digest ty data with
          | none => exact ⟨hr.1, fun d s' h => by simp at h⟩
          | some d =>
            refine ⟨hr.1, fun d' s' h => ?_⟩
            simp only [Prod.mk.injEq, Except.ok.injEq] at h
            rw [← h.1, ← hg, hd]
            simp [content, List.map_map, Function.comp_def]

theorem verifySig_mem (dv : Dev) (eg : Engine) (all : Bool) (off : Nat) (i : SigImage) (s : FS) (hf : RegionsFit off i.regions) :
    (verifySig dv eg all off i s).2.mem = s.mem ∧
    (∀ s', verifySig dv eg all off i s = (.ok (), s') → (all = true ∨ i.always ≠ 0) → i.Authentic eg s.mem off) := by
  obtain ⟨h1, h2⟩ := hashFlash_mem dv eg off i.regions sha256 s hf
  unfold verifySig
  split
  · split
    · exact ⟨rfl, fun s' h => by simp at h⟩
    · cases hc : hashFlash dv eg off i.regions sha256 s with
      | mk r s1 =>
        rw [hc] at h1
        cases r with
        | error e => exact ⟨h1, fun s' h => by simp at h⟩
        | ok d =>
          dsimp only
          split
          · rename_i hv
            exact ⟨h1, fun s' _ _ => ⟨d, h2 d s1 hc, hv⟩⟩
          · exact ⟨h1, fun s' h => by simp at h⟩
  · rename_i hn
    refine ⟨rfl, fun s' _ hv => ?_⟩
    simp only [Bool.or_eq_true, decide_eq_true_eq, not_or] at hn
    exact absurd hv (by simp_all)

theorem verifyHash_mem (dv : Dev) (eg : Engine) (stack : Bytes) (all : Bool) (off : Nat) (i : HashImage) (s : FS)
    (hf : RegionsFit off i.regions) (hl : ∀ x d, eg.digest i.hashType x = some d → d.length = i.hashLen) :
    (verifyHash dv eg stack all off i s).2.mem = s.mem ∧
    (∀ s', verifyHash dv eg stack all off i s = (.ok (), s') → (all = true ∨ i.always ≠ 0) → i.Authentic eg s.mem off) := by
  obtain ⟨h1, h2⟩ := hashFlash_mem dv eg off i.regions i.hashType s hf
  unfold verifyHash
  split
  · cases hc : hashFlash dv eg off i.regions i.hashType s with
    | mk r s1 =>
      rw [hc] at h1
      cases r with
      | error e => exact ⟨h1, fun s' h => by simp at h⟩
      | ok d =>
        dsimp only
        split
        · rename_i hv
          refine ⟨h1, fun s' _ _ => ?_⟩
          have hd := h2 d s1 hc
          unfold HashImage.Authentic
          rw [hd, hv, ← hl _ _ hd, List.take_left]
        · exact ⟨h1, fun s' h => by simp at h⟩
  · rename_i hn
    refine ⟨rfl, fun s' _ hv => ?_⟩
    simp only [Bool.or_eq_true, decide_eq_true_eq, not_or] at hn
    exact absurd hv (by simp_all)

theorem verifyOnFlash_mem (dv : Dev) (eg : Engine) (stack : Bytes) (all : Bool) (off : Nat) (l : ImageList) (s : FS) (hg : l.Good eg off) :
    (verifyOnFlash dv eg stack all off l s).2.mem = s.mem := by
  cases l with
  | sig l => exact eachUntil_mem (fun i hi s => (verifySig_mem dv eg all off i s (hg i hi)).1) s
  | hash l => exact eachUntil_mem (fun i hi s => (verifyHash_mem dv eg stack all off i s (hg i hi).1 (hg i hi).2).1) s

theorem verifyOnFlash_all (dv : Dev) (eg : Engine) (stack : Bytes) (off : Nat) (l : ImageList) (s s' : FS) (hg : l.Good eg off)
    (h : verifyOnFlash dv eg stack true off l s = (.ok (), s')) : l.AllAuthentic eg s.mem off := by
  cases l with
  | sig l =>
    exact eachUntil_ok (P := fun m i => SigImage.Authentic eg m off i) (fun i hi s => (verifySig_mem dv eg true off i s (hg i hi)).1)
      (fun i hi s s' h => (verifySig_mem dv eg true off i s (hg i hi)).2 s' h (.inl rfl)) s s' h
  | hash l =>
    exact eachUntil_ok (P := fun m i => HashImage.Authentic eg m off i)
      (fun i hi s => (verifyHash_mem dv eg stack true off i s (hg i hi).1 (hg i hi).2).1)
      (fun i hi s s' h => (verifyHash_mem dv eg stack true off i s (hg i hi).1 (hg i hi).2).2 s' h (.inl rfl)) s s' h

theorem verifyOnFlash_boot (dv : Dev) (eg : Engine) (stack : Bytes) (off : Nat) (l : ImageList) (s s' : FS) (hg : l.Good eg off)
    (h : verifyOnFlash dv eg stack false off l s = (.ok (), s')) : l.BootAuthentic eg s.mem off := by
  cases l with
  | sig l =>
    exact eachUntil_ok (P := fun m i => i.always ≠ 0 → SigImage.Authentic eg m off i)
      (fun i hi s => (verifySig_mem dv eg false off i s (hg i hi)).1)
      (fun i hi s s' h ha => (verifySig_mem dv eg false off i s (hg i hi)).2 s' h (.inr ha)) s s' h
  | hash l =>
    exact eachUntil_ok (P := fun m i => i.always ≠ 0 → HashImage.Authentic eg m off i)
      (fun i hi s => (verifyHash_mem dv eg stack false off i s (hg i hi).1 (hg i hi).2).1)
      (fun i hi s s' h ha => (verifyHash_mem dv eg stack false off i s (hg i hi).1 (hg i hi).2).2 s' h (.inr ha)) s s' h

end Verif.HostFw
