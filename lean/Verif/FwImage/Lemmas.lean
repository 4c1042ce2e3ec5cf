import Verif.FwImage.Spec
import Verif.Flash.Lemmas
/-! Success of the steps. -/
namespace Verif.FwImage
open Verif.Flash (Mem bytesAt u32 u32_id bytesAt_add)

theorem bind_ok {m : M α} {f : α → M β} {s t : St} {b : β} :
    (m >>= f) s = (.ok b, t) ↔ ∃ a u, m s = (.ok a, u) ∧ f a u = (.ok b, t) := by
  show (match m s with | (.ok a, s) => f a s | (.error e, s) => (.error e, s)) = _ ↔ _
  cases h : m s with
  | mk r u => cases r with
    | ok a =>
      constructor
      · intro e; exact ⟨a, u, rfl, e⟩
      · rintro ⟨_, _, e, e2⟩; injection e with e3 e4; injection e3 with e3; subst e3 e4; exact e2
    | error e => simp

theorem pure_ok {a b : α} {s t : St} : (pure a : M α) s = (.ok b, t) ↔ a = b ∧ s = t := by
  show ((.ok a, s) : Except Err α × St) = _ ↔ _
  simp

theorem fail_ok {e : Err} {b : α} {s t : St} : (fail e : M α) s = (.ok b, t) ↔ False := by
  simp [fail]

theorem onError_ok {m : M α} {f : St → St} {s t : St} {a : α} : onError m f s = (.ok a, t) ↔ m s = (.ok a, t) := by
  unfold onError
  cases h : m s with
  | mk r u => cases r <;> simp

theorem always_ok {m : M α} {f : St → St} {s t : St} {a : α} : always m f s = (.ok a, t) ↔ ∃ u, m s = (.ok a, u) ∧ f u = t := by
  unfold always
  cases h : m s with
  | mk r u => cases r with
    | error e => simp
    | ok b =>
      simp only [Prod.mk.injEq, Except.ok.injEq]
      constructor
      · rintro ⟨e, e2⟩; exact ⟨u, ⟨e, rfl⟩, e2⟩
      · rintro ⟨_, ⟨e, rfl⟩, e2⟩; exact ⟨e, e2⟩

theorem check_ok {b : Bool} {e : Err} {s t : St} {u : Unit} : check b e s = (.ok u, t) ↔ b = true ∧ s = t := by
  unfold check
  cases b
  · simp [fail]
  · simp only [if_true, pure_ok, true_and]

theorem call_ok {env : Env} {e : Err} {s t : St} {k : Nat} :
    call env e s = (.ok k, t) ↔ env.fault s.k = false ∧ k = s.k ∧ t = { s with k := s.k + 1 } := by
  unfold call
  cases h : env.fault s.k
  · simp only [Bool.false_eq_true, if_false, Prod.mk.injEq, Except.ok.injEq, true_and]
    exact ⟨fun h => ⟨h.1.symm, h.2.symm⟩, fun h => ⟨h.1.symm, h.2.symm⟩⟩
  · simp

theorem read_ok {env : Env} {a n : Nat} {s t : St} {d : Bytes} :
    read env a n s = (.ok d, t) ↔ env.fault s.k = false ∧ d = bytesAt (env.mem s.k) a n ∧ t = { s with k := s.k + 1 } := by
  unfold read
  simp only [bind_ok, call_ok, pure_ok]
  constructor
  · rintro ⟨_, _, ⟨h, rfl, rfl⟩, rfl, rfl⟩; exact ⟨h, rfl, rfl⟩
  · rintro ⟨h, rfl, rfl⟩; exact ⟨_, _, ⟨h, rfl, rfl⟩, rfl, rfl⟩

theorem alloc_ok {env : Env} {s t : St} {u : Unit} :
    alloc env s = (.ok u, t) ↔ env.fault s.k = false ∧ t = { s with k := s.k + 1, live := s.live + 1 } := by
  unfold alloc
  rw [bind_ok]
  simp only [call_ok, modify]
  constructor
  · rintro ⟨_, _, ⟨h, rfl, rfl⟩, e⟩
    simp only [Prod.mk.injEq, true_and] at e
    exact ⟨h, e.symm⟩
  · rintro ⟨h, rfl⟩; exact ⟨_, _, ⟨h, rfl, rfl⟩, rfl⟩

theorem hashStart_ok {env : Env} {t : Nat} {s r : St} {u : Unit} :
    hashStart env t s = (.ok u, r) ↔ s.hash = none ∧ env.builtIn t = true ∧ env.fault s.k = false ∧
      r = { s with k := s.k + 1, hash := some (t, []) } := by
  unfold hashStart
  cases hh : s.hash with
  | some x => simp
  | none =>
    cases hb : env.builtIn t with
    | false => simp
    | true =>
      cases hf : env.fault s.k with
      | true => simp [call, hf]
      | false => simp [call, hf]; exact eq_comm

theorem hashUpdate_ok {env : Env} {d : Bytes} {s r : St} {u : Unit} :
    hashUpdate env d s = (.ok u, r) ↔ ∃ t x, s.hash = some (t, x) ∧ env.fault s.k = false ∧
      r = { s with k := s.k + 1, hash := some (t, x ++ d) } := by
  unfold hashUpdate
  cases hh : s.hash with
  | none => simp
  | some p =>
    obtain ⟨t, x⟩ := p
    cases hf : env.fault s.k with
    | true => simp [call, hf]
    | false =>
      simp only [call, hf, Bool.false_eq_true, if_false, Prod.mk.injEq, true_and, Option.some.injEq]
      constructor
      · intro h; exact ⟨t, x, ⟨rfl, rfl⟩, h.symm⟩
      · rintro ⟨_, _, ⟨rfl, rfl⟩, h⟩; exact h.symm

theorem hashFinish_ok {env : Env} {n : Nat} {s r : St} {d : Bytes} :
    hashFinish env n s = (.ok d, r) ↔ ∃ t x, s.hash = some (t, x) ∧ (hashLength t).getD 0 ≤ n ∧ env.fault s.k = false ∧
      d = env.digest t x ∧ r = { s with k := s.k + 1, hash := none } := by
  unfold hashFinish
  cases hh : s.hash with
  | none => simp
  | some p =>
    obtain ⟨t, x⟩ := p
    simp only [Option.some.injEq, Prod.mk.injEq]
    by_cases hn : n < (hashLength t).getD 0
    · rw [if_pos hn]
      constructor
      · intro h; simp at h
      · rintro ⟨_, _, ⟨rfl, rfl⟩, h, _⟩; omega
    · rw [if_neg hn]
      cases hf : env.fault s.k with
      | true => simp [call, hf]
      | false =>
        simp only [call, hf, Bool.false_eq_true, if_false, Prod.mk.injEq, Except.ok.injEq, true_and]
        constructor
        · intro h; exact ⟨t, x, ⟨rfl, rfl⟩, by omega, h.1.symm, h.2.symm⟩
        · rintro ⟨_, _, ⟨rfl, rfl⟩, _, h1, h2⟩; exact ⟨h1.symm, h2.symm⟩

theorem checkSig_ok {env : Env} {d sig : Bytes} {s r : St} {u : Unit} :
    checkSig env d sig s = (.ok u, r) ↔ env.fault s.k = false ∧ env.sigOk d sig = true ∧ r = { s with k := s.k + 1 } := by
  unfold checkSig
  simp only [bind_ok, call_ok, check_ok]
  constructor
  · rintro ⟨_, _, ⟨h, rfl, rfl⟩, h2, rfl⟩; exact ⟨h, h2, rfl⟩
  · rintro ⟨h, h2, rfl⟩; exact ⟨_, _, ⟨h, rfl, rfl⟩, h2, rfl⟩

theorem verifyAndFinish_ok {env : Env} {sig : Bytes} {n : Nat} {s r : St} {d : Bytes} :
    verifyAndFinish env sig n s = (.ok d, r) ↔ ∃ t x, s.hash = some (t, x) ∧ sig.length ≠ 0 ∧ (hashLength t).getD 0 ≤ n ∧
      env.fault s.k = false ∧ env.fault (s.k + 1) = false ∧ d = env.digest t x ∧ env.sigOk d sig = true ∧
      r = { s with k := s.k + 2, hash := none } := by
  unfold verifyAndFinish
  cases hh : s.hash with
  | none => simp
  | some p =>
    obtain ⟨t, x⟩ := p
    simp only [bind_ok, onError_ok, check_ok, hashFinish_ok, checkSig_ok, pure_ok, decide_eq_true_eq, hh, Option.some.injEq, Prod.mk.injEq]
    constructor
    · rintro ⟨d', _, ⟨_, _, ⟨h1, rfl⟩, t', x', h2, h3, h4, rfl, rfl⟩, _, _, ⟨h5, h6, rfl⟩, rfl, rfl⟩
      rw [hh] at h2; injection h2 with h2; injection h2 with a b; subst a b
      exact ⟨_, _, ⟨rfl, rfl⟩, h1, h3, h4, h5, rfl, h6, rfl⟩
    · rintro ⟨_, _, ⟨rfl, rfl⟩, h1, h3, h4, h5, rfl, h6, rfl⟩
      exact ⟨_, _, ⟨(), _, ⟨h1, rfl⟩, _, _, hh, h3, h4, rfl, rfl⟩, (), _, ⟨h5, h6, rfl⟩, rfl, rfl⟩

theorem field_ok {h : Hdr} {i n : Nat} {s t : St} {d : Bytes} :
    h.field i n s = (.ok d, t) ↔ i + n ≤ h.data.length ∧ d = window h.data i n ∧ t = s := by
  unfold Hdr.field
  by_cases hl : i + n ≤ h.data.length
  · rw [if_pos hl, pure_ok]
    exact ⟨fun h => ⟨hl, h.1.symm, h.2.symm⟩, fun h => ⟨h.2.1.symm, h.2.2.symm⟩⟩
  · rw [if_neg hl]; simp [fail, hl]

theorem store_ok {d : Bytes} {s t : St} {u : Unit} :
    store d s = (.ok u, t) ↔ d.length ≤ s.buf.length ∧ t = { s with buf := d ++ s.buf.drop d.length } := by
  unfold store
  by_cases h : d.length ≤ s.buf.length
  · rw [if_pos h]; simp only [Prod.mk.injEq, true_and, h]; exact eq_comm
  · rw [if_neg h]; simp [h]

theorem loaded_ok {n : Nat} {s t : St} {d : Bytes} : loaded n s = (.ok d, t) ↔ d = s.buf.take n ∧ t = s := by
  simp only [loaded, Prod.mk.injEq, Except.ok.injEq]
  exact ⟨fun h => ⟨h.1.symm, h.2.symm⟩, fun h => ⟨h.1.symm, h.2.symm⟩⟩

theorem bytesAt_length (m : Mem) (a n : Nat) : (bytesAt m a n).length = n := by simp [bytesAt]

/-- Hashing a part of the flash. -/
theorem hashFlash_ok {env : Env} : ∀ (fuel a len : Nat) {s r : St} {u : Unit} {t : Nat} {x : Bytes}, len ≤ fuel → a + len ≤ 2 ^ 32 →
    s.hash = some (t, x) → hashFlash env fuel a len s = (.ok u, r) →
    ∃ d, d.length = len ∧ s.k ≤ r.k ∧ r = { s with k := r.k, hash := some (t, x ++ d) } ∧ Seen env s.k r.k a d := by
  intro fuel
  induction fuel with
  | zero =>
    intro a len s r u t x hl _ hh h
    simp only [hashFlash, pure_ok] at h
    obtain ⟨_, rfl⟩ := h
    exact ⟨[], by simp; omega, Nat.le_refl _, by simp [← hh], fun i hi => by simp at hi⟩
  | succ fuel ih =>
    intro a len s r u t x hl hf hh h
    unfold hashFlash at h
    by_cases h0 : len = 0
    · rw [if_pos h0, pure_ok] at h
      obtain ⟨_, rfl⟩ := h
      exact ⟨[], by simp [h0], Nat.le_refl _, by simp [← hh], fun i hi => by simp at hi⟩
    rw [if_neg h0] at h
    simp only [bind_ok, read_ok, hashUpdate_ok] at h
    obtain ⟨d1, _, ⟨_, rfl, rfl⟩, _, _, ⟨t', x', hh', _, rfl⟩, h⟩ := h
    have hh'' : s.hash = some (t', x') := hh'
    rw [hh] at hh''; injection hh'' with hh''; injection hh'' with e1 e2; subst e1 e2
    have hn : min len 256 ≤ len ∧ 0 < min len 256 := by omega
    generalize min len 256 = n at hn h
    have hd1 := bytesAt_length (env.mem s.k) a n
    by_cases he : len = n
    · subst he
      rw [Nat.sub_self] at h
      have hz : ∀ f b (s r : St) (u : Unit), hashFlash env f b 0 s = (.ok u, r) → s = r := by
        intro f b s r u h
        cases f with
        | zero => simp only [hashFlash, pure_ok] at h; exact h.2
        | succ f => rw [hashFlash, if_pos rfl, pure_ok] at h; exact h.2
      have := hz _ _ _ _ _ h
      subst this
      refine ⟨_, hd1, by simp; omega, rfl, fun i hi => ⟨s.k, Nat.le_refl _, by simp; omega, ?_⟩⟩
      rw [hd1] at hi
      exact Flash.bytesAt_getD _ _ _ _ _ hi
    · rw [u32_id (by omega)] at h
      obtain ⟨d, e1, e2, e3, e4⟩ := ih (a + n) (len - n) (by omega) (by omega) rfl h
      simp only at e2 e3 e4
      refine ⟨bytesAt (env.mem s.k) a n ++ d, by rw [List.length_append, hd1, e1]; omega, by omega, ?_, ?_⟩
      · rw [e3]; simp
      · intro i hi
        by_cases hin : i < n
        · refine ⟨s.k, Nat.le_refl _, by omega, ?_⟩
          rw [List.getD_eq_getElem?_getD, List.getElem?_append_left (by rw [hd1]; exact hin), ← List.getD_eq_getElem?_getD]
          exact Flash.bytesAt_getD _ _ _ _ _ hin
        · rw [List.length_append, hd1] at hi
          obtain ⟨k, k1, k2, k3⟩ := e4 (i - n) (by omega)
          refine ⟨k, by omega, k2, ?_⟩
          rw [List.getD_eq_getElem?_getD, List.getElem?_append_right (by rw [hd1]; omega), hd1, ← List.getD_eq_getElem?_getD, k3]
          congr 1; omega

/-- Hashing a part of a flash that does not change. -/
theorem hashFlash_calm {env : Env} {m : Mem} (hc : Calm env m) : ∀ (fuel a len : Nat) (s : St) (t : Nat) (x : Bytes), len ≤ fuel →
    a + len ≤ 2 ^ 32 → s.hash = some (t, x) →
    ∃ k, hashFlash env fuel a len s = (.ok (), { s with k := k, hash := some (t, x ++ bytesAt m a len) }) := by
  intro fuel
  induction fuel with
  | zero =>
    intro a len s t x hl _ hh
    have : len = 0 := by omega
    subst this
    exact ⟨s.k, by simp [hashFlash, bytesAt, ← hh]; rfl⟩
  | succ fuel ih =>
    intro a len s t x hl hf hh
    unfold hashFlash
    by_cases h0 : len = 0
    · rw [if_pos h0]; subst h0
      exact ⟨s.k, by simp [bytesAt, ← hh]; rfl⟩
    rw [if_neg h0]
    have hn : min len 256 ≤ len ∧ 0 < min len 256 := by omega
    generalize min len 256 = n at hn
    by_cases he : len = n
    · subst he
      refine ⟨s.k + 2, bind_ok.mpr ⟨_, _, read_ok.mpr ⟨hc.fault _, rfl, rfl⟩, bind_ok.mpr ⟨(), _,
        hashUpdate_ok.mpr ⟨t, x, hh, hc.fault _, rfl⟩, ?_⟩⟩⟩
      rw [Nat.sub_self, hc.mem]
      cases fuel with
      | zero => rfl
      | succ f => rw [hashFlash, if_pos rfl]; rfl
    · rw [u32_id (by omega)]
      obtain ⟨k, hk⟩ := ih (a + n) (len - n) { s with k := s.k + 2, hash := some (t, x ++ bytesAt m a n) } t _ (by omega) (by omega) rfl
      refine ⟨k, bind_ok.mpr ⟨_, _, read_ok.mpr ⟨hc.fault _, rfl, rfl⟩, bind_ok.mpr ⟨(), _,
        hashUpdate_ok.mpr ⟨t, x, hh, hc.fault _, rfl⟩, ?_⟩⟩⟩
      rw [hc.mem]
      simp only
      rw [hk, List.append_assoc, ← bytesAt_add, show n + (len - n) = len by omega]

end Verif.FwImage
