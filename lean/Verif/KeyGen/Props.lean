import Verif.KeyGen.Model
import Verif.KeyGen.Spec
import Verif.BufferUtil.Props
/-! Property C151: key pairs are tested before they are returned. -/
namespace Verif.KeyGen
variable {P Q : Type}

theorem equalBytes_iff (a b : Bytes) (n : Nat) (ha : n ≤ a.length) (hb : n ≤ b.length) :
    equalBytes a b n = true ↔ a.take n = b.take n := by
  rw [equalBytes, BufferUtil.compare_iff_equal]
  constructor
  · intro h
    apply List.ext_getElem
    · simp only [List.length_take]; omega
    · intro k h1 h2
      simp only [List.length_take] at h1
      have := h k (by omega)
      simp only [List.getD_eq_getElem?_getD, List.getElem?_eq_getElem (show k < a.length by omega),
        List.getElem?_eq_getElem (show k < b.length by omega), Option.getD_some] at this
      simpa using this
  · intro h k hk
    have e : (a.take n)[k]? = (b.take n)[k]? := by rw [h]
    rw [List.getElem?_take_of_lt hk, List.getElem?_take_of_lt hk] at e
    simp [List.getD_eq_getElem?_getD, e]

/-- A result of the engine, errors left out. -/
def val {α : Type} : Except Nat α → Option α
  | .ok a => some a
  | .error _ => none

theorem release_two (s : St) (i j : Nat) (l : List Nat) (hij : i ≠ j) (hl : s.live = j :: i :: l) :
    ((s.release (some i)).release (some j)).live = l ∧ ((s.release (some i)).release (some j)).bad = s.bad := by
  have h1 : (j :: i :: l).erase i = j :: l := by
    rw [List.erase_cons_tail (by simpa using fun h : j = i => hij h.symm), List.erase_cons_head]
  simp [St.release, hl, h1]

/-- The test leaves no key context behind. -/
theorem ecdhPct_contexts (E : Engine P Q) (s : St) (p : P) (q : Q) :
    (ecdhPct E s p q).2.live = s.live ∧ (ecdhPct E s p q).2.bad = s.bad := by
  simp only [ecdhPct]
  split
  · exact ⟨rfl, rfl⟩
  · split
    · exact ⟨rfl, rfl⟩
    · have r := fun s' : St => release_two s' s.next (s.next + 1) s.live (by omega)
      split
      · exact r _ rfl
      · split
        · exact r _ rfl
        · split
          · exact r _ rfl
          · split <;> exact r _ rfl

theorem ecdsaPct_contexts (E : Engine P Q) (s : St) (h : Hash) (p : P) (q : Q) :
    (ecdsaPct E s h p q).2.live = s.live ∧ (ecdsaPct E s h p q).2.bad = s.bad := by
  simp only [ecdsaPct]
  split
  · exact ⟨rfl, rfl⟩
  · split <;> exact ⟨rfl, rfl⟩

/-- The contexts the caller owns. -/
def owned : Option (Keys P Q) → List Nat
  | none => []
  | some ⟨p, none⟩ => [p.1]
  | some ⟨p, some q⟩ => [q.1, p.1]

theorem conclude_contexts (p : P) (q : Q) (i : Nat) (w : Bool) (r : Status × St) (l : List Nat) (b : Bool)
    (hl : r.2.live = (i + 1) :: i :: l) (hb : r.2.bad = b) :
    (conclude p q i (i + 1) w r).2.2.live = owned (conclude p q i (i + 1) w r).2.1 ++ l ∧
    (conclude p q i (i + 1) w r).2.2.bad = b ∧
    ((conclude p q i (i + 1) w r).1 = .ok ↔ r.1 = .ok) ∧
    ((conclude p q i (i + 1) w r).1 = .ok →
      (conclude p q i (i + 1) w r).2.1 = some ⟨(i, p), if w then some (i + 1, q) else none⟩) ∧
    ((conclude p q i (i + 1) w r).1 ≠ .ok → (conclude p q i (i + 1) w r).2.1 = none) := by
  obtain ⟨t, s⟩ := r
  simp only at hl hb
  have r2 := release_two s i (i + 1) l (by omega) hl
  cases t with
  | ok =>
    cases w
    · refine ⟨?_, ?_, by simp [conclude], by simp [conclude], by simp [conclude]⟩
      · simp [conclude, St.release, hl, owned]
      · simp [conclude, St.release, hl, hb]
    · exact ⟨by simp [conclude, hl, owned], by simp [conclude, hb], by simp [conclude], by simp [conclude],
        by simp [conclude]⟩
  | pctFailure => exact ⟨by simpa [conclude, owned] using r2.1, by simpa [conclude, hb] using r2.2, by simp [conclude],
      by simp [conclude], by simp [conclude]⟩
  | unsupportedKeyLength => exact ⟨by simpa [conclude, owned] using r2.1, by simpa [conclude, hb] using r2.2, by simp [conclude],
      by simp [conclude], by simp [conclude]⟩
  | engine c => exact ⟨by simpa [conclude, owned] using r2.1, by simpa [conclude, hb] using r2.2, by simp [conclude],
      by simp [conclude], by simp [conclude]⟩

/-- C151: the key contexts the engine holds afterwards are those it held before and those the caller was given: the private key and,
if asked for, the public key on success; none on failure. Nothing is released twice. Both for key agreement and for signatures. -/
theorem contexts_exact (E : Engine P Q) (s : St) (len : Nat) (w : Bool)
    (r : Status × Option (Keys P Q) × St) (hr : r = ecdhGenerate E s len w ∨ r = ecdsaGenerate E s len w) :
    r.2.2.live = owned r.2.1 ++ s.live ∧ r.2.2.bad = s.bad ∧
    (r.1 = .ok ↔ r.2.1 ≠ none) ∧ (∀ k, r.2.1 = some k → (k.pub.isSome = w)) := by
  have fin : ∀ (p : P) (q : Q) (t : Status × St), t.2.live = (s.next + 1) :: s.next :: s.live → t.2.bad = s.bad →
      r = conclude p q s.next (s.next + 1) w t →
      r.2.2.live = owned r.2.1 ++ s.live ∧ r.2.2.bad = s.bad ∧
      (r.1 = .ok ↔ r.2.1 ≠ none) ∧ (∀ k, r.2.1 = some k → (k.pub.isSome = w)) := by
    intro p q t h1 h2 h3
    have c := conclude_contexts p q s.next w t s.live s.bad h1 h2
    rw [← h3] at c
    obtain ⟨c1, c2, _, c4, c5⟩ := c
    refine ⟨c1, c2, ⟨fun h => by simp [c4 h], fun h => Classical.byContradiction fun h' => h (c5 h')⟩, ?_⟩
    intro k hk
    by_cases h : r.1 = .ok
    · rw [c4 h] at hk
      simp only [Option.some.injEq] at hk
      subst hk
      cases w <;> rfl
    · rw [c5 h] at hk; simp at hk
  rcases hr with hr | hr
  · simp only [ecdhGenerate] at hr
    split at hr
    · subst hr; exact ⟨rfl, rfl, by simp, by simp⟩
    · rename_i p q _
      have c := ecdhPct_contexts E s.tick.alloc.alloc p q
      exact fin p q _ c.1 c.2 hr
  · simp only [ecdsaGenerate] at hr
    split at hr
    · subst hr; exact ⟨rfl, rfl, by simp, by simp⟩
    · rename_i p q _
      have c := ecdsaPct_contexts E s.tick.alloc.alloc (hashFor len) p q
      exact fin p q _ c.1 c.2 hr

theorem ecdhPct_exact (E : Engine P Q) (s : St) (p : P) (q : Q) :
    (ecdhPct E s p q).1 = .ok ↔
      ∃ n tp tq, val (E.maxSecret s.calls p) = some n ∧
        val (E.initPair (s.calls + 1) (if n ∈ Spec.curves then some n else none)) = some (tp, tq) ∧
        Spec.Agree (fun p q => val (E.secret (s.calls + 2) p q)) (fun p q => val (E.secret (s.calls + 3) p q)) p q tp tq := by
  have ht : ∀ n, testKey n = if n ∈ Spec.curves then some n else none := by
    intro n; simp [testKey, Spec.curves]
  simp only [ecdhPct]
  split
  · rename_i h; simp [h, val]
  · rename_i n h
    have c1 : s.tick.calls = s.calls + 1 := rfl
    simp only [c1, ht]
    split
    · rename_i h2
      simp only [h, val, Option.some.injEq]
      constructor
      · intro x; simp at x
      · rintro ⟨n', tp, tq, rfl, h3, _⟩; rw [h2] at h3; simp at h3
    · rename_i tp tq h2
      have c2 : s.tick.tick.alloc.alloc.calls = s.calls + 2 := rfl
      have c3 : s.tick.tick.alloc.alloc.tick.calls = s.calls + 3 := rfl
      have hex : ∀ R : Prop, (R ↔ Spec.Agree (fun p q => val (E.secret (s.calls + 2) p q))
          (fun p q => val (E.secret (s.calls + 3) p q)) p q tp tq) →
          (R ↔ ∃ n tp tq, val (E.maxSecret s.calls p) = some n ∧
            val (E.initPair (s.calls + 1) (if n ∈ Spec.curves then some n else none)) = some (tp, tq) ∧
            Spec.Agree (fun p q => val (E.secret (s.calls + 2) p q))
              (fun p q => val (E.secret (s.calls + 3) p q)) p q tp tq) := by
        intro R hR
        rw [hR]
        constructor
        · intro x; exact ⟨n, tp, tq, by rw [h]; rfl, by rw [h2]; rfl, x⟩
        · rintro ⟨n', tp', tq', h3, h4, x⟩
          rw [h] at h3; simp only [val, Option.some.injEq] at h3; subst h3
          rw [h2] at h4; simp only [val, Option.some.injEq, Prod.mk.injEq] at h4
          rw [h4.1, h4.2]; exact x
      apply hex
      simp only [c2, c3, Spec.Agree]
      split
      · rename_i h3; simp [h3, val]
      · rename_i a h3
        split
        · rename_i h4; simp [h4, val]
        · rename_i b h4
          simp only [h3, h4, val, Option.some.injEq]
          by_cases hl : b.length = a.length
          · rw [if_neg (by simpa using hl)]
            have e := equalBytes_iff a b a.length (by omega) (by omega)
            rw [List.take_length, List.take_of_length_le (by omega)] at e
            by_cases hab : a = b
            · rw [if_neg (by rw [e.mpr hab]; simp)]; simp [hab]
            · rw [if_pos (by rw [← Bool.not_eq_true, e]; exact hab)]
              simp only [reduceCtorEq, false_iff]
              rintro ⟨x, rfl, rfl⟩; exact hab rfl
          · rw [if_pos hl]
            simp only [reduceCtorEq, false_iff]
            rintro ⟨x, rfl, rfl⟩; exact hl rfl

/-- C151: a key pair for key agreement is returned exactly if the engine gave one and it agreed with a test pair of its curve; it
is the pair the engine gave. -/
theorem ecdh_exact (E : Engine P Q) (s : St) (len : Nat) (w : Bool) :
    let r := ecdhGenerate E s len w
    (r.1 = .ok ↔ ∃ p q n tp tq, val (E.gen s.calls len) = some (p, q) ∧ val (E.maxSecret (s.calls + 1) p) = some n ∧
      val (E.initPair (s.calls + 2) (if n ∈ Spec.curves then some n else none)) = some (tp, tq) ∧
      Spec.Agree (fun p q => val (E.secret (s.calls + 3) p q)) (fun p q => val (E.secret (s.calls + 4) p q)) p q tp tq) ∧
    (∀ k, r.2.1 = some k → ∃ p q, val (E.gen s.calls len) = some (p, q) ∧ k.priv.2 = p ∧ (∀ x, k.pub = some x → x.2 = q)) := by
  simp only [ecdhGenerate]
  split
  · rename_i h; simp [h, val]
  · rename_i p q h
    have c := ecdhPct_contexts E s.tick.alloc.alloc p q
    obtain ⟨_, _, c3, c4, c5⟩ := conclude_contexts p q s.next w _ s.live s.bad c.1 c.2
    have x := ecdhPct_exact E s.tick.alloc.alloc p q
    have hc : s.tick.alloc.alloc.calls = s.calls + 1 := rfl
    rw [hc] at x
    constructor
    · rw [c3, x]
      constructor
      · rintro ⟨n, tp, tq, y⟩; exact ⟨p, q, n, tp, tq, by rw [h]; rfl, y⟩
      · rintro ⟨p', q', n, tp, tq, h1, y⟩
        rw [h] at h1; simp only [val, Option.some.injEq, Prod.mk.injEq] at h1
        obtain ⟨rfl, rfl⟩ := h1
        exact ⟨n, tp, tq, y⟩
    · intro k hk
      refine ⟨p, q, by rw [h]; rfl, ?_⟩
      by_cases ho : (conclude p q s.next (s.next + 1) w (ecdhPct E s.tick.alloc.alloc p q)).1 = .ok
      · rw [c4 ho] at hk
        simp only [Option.some.injEq] at hk
        subst hk
        cases w <;> simp
      · rw [c5 ho] at hk; simp at hk

/-- C151: pairs that belong together pass: if secrets are those of a Diffie-Hellman function and no call fails, a generated pair is
returned for every supported curve. -/
theorem ecdh_complete (E : Engine P Q) (s : St) (len : Nat) (w : Bool) (pub : P → Q) (dh : P → Q → Bytes)
    (hdh : ∀ a b, dh a (pub b) = dh b (pub a)) (hsec : ∀ n p q, E.secret n p q = .ok (dh p q))
    (hmax : ∀ n p, E.maxSecret n p = .ok len) (hlen : len ∈ Spec.curves)
    (hinit : ∀ n, ∃ t, E.initPair n (some len) = .ok (t, pub t)) (p : P) (hgen : E.gen s.calls len = .ok (p, pub p)) :
    (ecdhGenerate E s len w).1 = .ok := by
  obtain ⟨t, ht⟩ := hinit (s.calls + 2)
  rw [(ecdh_exact E s len w).1]
  refine ⟨p, pub p, len, t, pub t, by rw [hgen]; rfl, by rw [hmax]; rfl, by rw [if_pos hlen, ht]; rfl, dh p (pub t), ?_, ?_⟩
  · simp only [hsec, val]
  · simp only [hsec, val, hdh t p]

/-- The hash with so many bits. -/
def hashOf (bits : Nat) : Hash := if bits = 384 then .sha384 else if bits = 512 then .sha512 else .sha256

theorem hashFor_eq (len : Nat) : hashFor len = hashOf (Spec.digestBits len) := by
  simp only [hashFor, hashOf, Spec.digestBits]
  by_cases h : len = 48 <;> by_cases h' : len = 66 <;> simp [h, h']

/-- C151: a key pair for signatures is returned exactly if the engine gave one and a signature of the test message with the private
key, with the digest that fits the curve, verified with the public key. -/
theorem ecdsa_exact (E : Engine P Q) (s : St) (len : Nat) (w : Bool) :
    let r := ecdsaGenerate E s len w
    (r.1 = .ok ↔ ∃ p q, val (E.gen s.calls len) = some (p, q) ∧
      Spec.Signs (fun p => val (E.sign (s.calls + 1) (hashOf (Spec.digestBits len)) p))
        (fun q x => E.verify (s.calls + 2) (hashOf (Spec.digestBits len)) q x == .good) p q) ∧
    (∀ k, r.2.1 = some k → ∃ p q, val (E.gen s.calls len) = some (p, q) ∧ k.priv.2 = p ∧ (∀ x, k.pub = some x → x.2 = q)) := by
  simp only [ecdsaGenerate, ← hashFor_eq]
  split
  · rename_i h; simp [h, val]
  · rename_i p q h
    have c := ecdsaPct_contexts E s.tick.alloc.alloc (hashFor len) p q
    obtain ⟨_, _, c3, c4, c5⟩ := conclude_contexts p q s.next w _ s.live s.bad c.1 c.2
    have x : (ecdsaPct E s.tick.alloc.alloc (hashFor len) p q).1 = .ok ↔
        Spec.Signs (fun p => val (E.sign (s.calls + 1) (hashFor len) p))
          (fun q x => E.verify (s.calls + 2) (hashFor len) q x == .good) p q := by
      have k1 : s.tick.alloc.alloc.calls = s.calls + 1 := rfl
      have k2 : s.tick.alloc.alloc.tick.calls = s.calls + 2 := rfl
      simp only [ecdsaPct, Spec.Signs, k1, k2]
      split
      · rename_i h1; simp [h1, val]
      · rename_i g h1
        simp only [h1, val, Option.some.injEq, exists_eq_left', beq_iff_eq]
        split <;> rename_i h2 <;> simp [h2]
    constructor
    · rw [c3, x]
      constructor
      · intro y; exact ⟨p, q, by rw [h]; rfl, y⟩
      · rintro ⟨p', q', h1, y⟩
        rw [h] at h1; simp only [val, Option.some.injEq, Prod.mk.injEq] at h1
        obtain ⟨rfl, rfl⟩ := h1
        exact y
    · intro k hk
      refine ⟨p, q, by rw [h]; rfl, ?_⟩
      by_cases ho : (conclude p q s.next (s.next + 1) w (ecdsaPct E s.tick.alloc.alloc (hashFor len) p q)).1 = .ok
      · rw [c4 ho] at hk
        simp only [Option.some.injEq] at hk
        subst hk
        cases w <;> simp
      · rw [c5 ho] at hk; simp at hk

theorem ecdhHwPct_exact (E : Hw) (p : Bytes) (len : Nat) (q : Bytes)
    (hs : ∀ n p q a, E.secret n p len q = .ok a → a.length = 66) :
    ecdhHwPct E p len q = .ok ↔ len ∈ Spec.curves ∧
      Spec.Agree (fun p q => (val (E.secret 0 p len q)).map (·.take len)) (fun p q => (val (E.secret 1 p len q)).map (·.take len))
        p q (E.testPriv len) (E.testPub len) := by
  simp only [ecdhHwPct]
  by_cases hl : len = 32 ∨ len = 48 ∨ len = 66
  · have hm : len ∈ Spec.curves := by simpa [Spec.curves] using hl
    have hle : len ≤ 66 := by omega
    rw [if_pos hl]
    simp only [hm, true_and, Spec.Agree]
    split
    · rename_i h1; simp [h1, val]
    · rename_i a h1
      split
      · rename_i h2; simp [h2, val]
      · rename_i b h2
        have e := equalBytes_iff a b len (by rw [hs _ _ _ _ h1]; exact hle) (by rw [hs _ _ _ _ h2]; exact hle)
        simp only [h1, h2, val, Option.map_some, Option.some.injEq, exists_eq_left']
        by_cases hab : a.take len = b.take len
        · rw [if_neg (by rw [e.mpr hab]; simp)]; simp [hab]
        · rw [if_pos (by rw [← Bool.not_eq_true, e]; exact hab)]
          simp only [reduceCtorEq, false_iff]
          exact fun h => hab h.symm
  · have hm : len ∉ Spec.curves := by simpa [Spec.curves] using hl
    rw [if_neg hl]; simp [hm]

theorem hw_cases (E : Hw) (test : Bytes → Nat → Bytes → Status) (m : Mem) (len : Nat) (w : Bool) (d q : Bytes)
    (hg : E.gen len = (none, d, q)) :
    ((hwGenerate E test m len w).1 = test d len q) ∧
    (test d len q = .ok → (hwGenerate E test m len w).2 = ⟨d, len, if w then q else List.replicate q.length 0⟩) ∧
    (test d len q ≠ .ok →
      (hwGenerate E test m len w).2 = ⟨List.replicate d.length 0, 0, List.replicate q.length 0⟩) := by
  simp only [hwGenerate, hg]
  split
  · rename_i h; rw [h]; cases w <;> simp
  · rename_i hne
    exact ⟨rfl, fun hk => absurd hk hne, fun _ => rfl⟩

/-- C151, hardware: if the hardware generates a pair, it is returned exactly if it passes the test; otherwise all of the private and
public key is zero. This is not so if the hardware fails after it wrote some of the key (`counterexample_hw_failure`). -/
theorem hw_exact_partial (E : Hw) (m : Mem) (len : Nat) (w : Bool) (d q : Bytes) (hg : E.gen len = (none, d, q))
    (hs : ∀ n p q a, E.secret n p len q = .ok a → a.length = 66) :
    ((ecdhHwGenerate E m len w).1 = .ok ↔ len ∈ Spec.curves ∧
      Spec.Agree (fun p q => (val (E.secret 0 p len q)).map (·.take len)) (fun p q => (val (E.secret 1 p len q)).map (·.take len))
        d q (E.testPriv len) (E.testPub len)) ∧
    ((ecdsaHwGenerate E m len w).1 = .ok ↔
      Spec.Signs (fun p => val (E.sign (hashOf (Spec.digestBits len)) p len))
        (fun q x => E.verify (hashOf (Spec.digestBits len)) q x == .good) d q) ∧
    (∀ r, r = ecdhHwGenerate E m len w ∨ r = ecdsaHwGenerate E m len w →
      (r.1 = .ok → r.2.d = d ∧ r.2.keyLength = len ∧ (w = true → r.2.pub = q)) ∧
      (r.1 ≠ .ok → (∀ b ∈ r.2.d, b = 0) ∧ r.2.d.length = d.length ∧ r.2.keyLength = 0 ∧ (∀ b ∈ r.2.pub, b = 0))) := by
  have a := hw_cases E (ecdhHwPct E) m len w d q hg
  have b := hw_cases E (ecdsaHwPct E (hashFor len)) m len w d q hg
  refine ⟨?_, ?_, ?_⟩
  · rw [ecdhHwGenerate, a.1, ecdhHwPct_exact E d len q hs]
  · rw [ecdsaHwGenerate, b.1, ← hashFor_eq]
    simp only [ecdsaHwPct, Spec.Signs]
    split
    · rename_i h1; simp [h1, val]
    · rename_i g h1
      simp only [h1, val, Option.some.injEq, exists_eq_left', beq_iff_eq]
      split <;> rename_i h2 <;> simp [h2]
  · have fin : ∀ test : Bytes → Nat → Bytes → Status, ∀ r, r = hwGenerate E test m len w →
        (r.1 = .ok → r.2.d = d ∧ r.2.keyLength = len ∧ (w = true → r.2.pub = q)) ∧
        (r.1 ≠ .ok → (∀ b ∈ r.2.d, b = 0) ∧ r.2.d.length = d.length ∧ r.2.keyLength = 0 ∧ (∀ b ∈ r.2.pub, b = 0)) := by
      rintro test r rfl
      have c := hw_cases E test m len w d q hg
      rw [c.1]
      constructor
      · intro h; rw [c.2.1 h]; exact ⟨rfl, rfl, fun hw => by simp [hw]⟩
      · intro h; rw [c.2.2 h]
        exact ⟨fun b hb => List.eq_of_mem_replicate hb, by simp, rfl, fun b hb => List.eq_of_mem_replicate hb⟩
    rintro r (h | h)
    · exact fin _ r h
    · exact fin _ r h

/-- A toy engine: private keys are numbers, public keys their double, secrets the product. -/
def toy (given : Nat × Nat) : Engine Nat Nat where
  gen _ _ := .ok given
  maxSecret _ _ := .ok 32
  initPair _ c := match c with | some _ => .ok (7, 14) | none => .error 5
  secret _ p q := .ok [UInt8.ofNat (p * q)]
  sign _ _ p := .ok [UInt8.ofNat (2 * p)]
  verify _ _ q s := if s = [UInt8.ofNat q] then .good else .bad

example : (ecdhGenerate (toy (5, 10)) ⟨0, 3, [1], false⟩ 32 true).1 = .ok ∧
    (ecdhGenerate (toy (5, 10)) ⟨0, 3, [1], false⟩ 32 true).2.2.live = [4, 3, 1] ∧
    (ecdhGenerate (toy (5, 11)) ⟨0, 3, [1], false⟩ 32 true).1 = .pctFailure ∧
    (ecdhGenerate (toy (5, 11)) ⟨0, 3, [1], false⟩ 32 true).2.2.live = [1] ∧
    (ecdsaGenerate (toy (5, 10)) ⟨0, 3, [1], false⟩ 48 false).2.2.live = [3, 1] ∧
    (ecdsaGenerate (toy (5, 11)) ⟨0, 3, [1], false⟩ 48 false).1 = .pctFailure := by decide +kernel

/-- The hypotheses of `ecdh_complete` are met by the toy engine. -/
example (w : Bool) : (ecdhGenerate (toy (5, 10)) ⟨0, 3, [1], false⟩ 32 w).1 = .ok :=
  ecdh_complete (toy (5, 10)) _ 32 w (fun p => 2 * p) (fun p q => [UInt8.ofNat (p * q)])
    (fun a b => by simp only [Nat.mul_left_comm a 2 b, Nat.mul_left_comm b 2 a, Nat.mul_comm a b])
    (fun _ _ _ => rfl) (fun _ _ => rfl) (by simp [Spec.curves]) (fun _ => ⟨7, rfl⟩) 5 rfl

/-- Toy hardware: the secret is the exclusive or of the first bytes. -/
def toyHw (g : Option Nat × Bytes × Bytes) : Hw where
  gen _ := g
  testPriv _ := [9]
  testPub _ := [9]
  secret _ p _ q := .ok (List.replicate 66 (p.getD 0 0 ^^^ q.getD 0 0))
  sign _ p _ := .ok p
  verify _ q s := if s = q then .good else .bad

example : (ecdhHwGenerate (toyHw (none, [1, 2], [1, 2])) ⟨[], 0, []⟩ 48 true) = (.ok, ⟨[1, 2], 48, [1, 2]⟩) ∧
    (ecdhHwGenerate (toyHw (none, [1, 2], [3, 4])) ⟨[], 0, []⟩ 48 true) = (.pctFailure, ⟨[0, 0], 0, [0, 0]⟩) ∧
    (ecdsaHwGenerate (toyHw (none, [1, 2], [3, 4])) ⟨[], 0, []⟩ 48 true).1 = .pctFailure ∧
    (ecdhHwGenerate (toyHw (none, [1, 2], [1, 2])) ⟨[], 0, []⟩ 40 true).1 = .unsupportedKeyLength := by decide +kernel

/-- The hypotheses of `hw_exact_partial` are met by the toy hardware. -/
example (d q : Bytes) : (toyHw (none, d, q)).gen 32 = (none, d, q) ∧
    ∀ n p q' a, (toyHw (none, d, q)).secret n p 32 q' = .ok a → a.length = 66 :=
  ⟨rfl, fun n p q' a h => by simp only [toyHw, Except.ok.injEq] at h; rw [← h, List.length_replicate]⟩

/-- C151, false if key generation itself fails: what the hardware wrote of the private key stays in the caller's buffer. -/
theorem counterexample_hw_failure : ∃ (E : Hw) (m : Mem), (∀ b ∈ m.d, b = 0) ∧
    (ecdhHwGenerate E m 32 true).1 ≠ .ok ∧ ∃ b ∈ (ecdhHwGenerate E m 32 true).2.d, b ≠ 0 :=
  ⟨toyHw (some 1, [1, 2], [0, 0]), ⟨[0, 0], 0, [0, 0]⟩, by simp, by decide +kernel, 1, by decide +kernel, by decide⟩

end Verif.KeyGen
