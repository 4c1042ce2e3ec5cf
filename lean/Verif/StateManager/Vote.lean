import Verif.StateManager.Spec
/-!
Facts about reading an entry: what the bit-by-bit vote computes.
-/
namespace Verif.StateManager

theorem maskBit_getLsbD (w : BitVec 16) (i j : Nat) (hi : i < 16) :
    (w &&& (1#16 <<< i)).getLsbD j = (decide (j = i) && w.getLsbD i) := by
  rw [BitVec.getLsbD_and, BitVec.getLsbD_shiftLeft]
  by_cases h : j = i
  · subst h; simp [hi]
  · by_cases h2 : j < i
    · simp [h, h2]
    · have : j - i ≠ 0 := by omega
      simp [h, this]

theorem maskBit_eq (a b : BitVec 16) (i : Nat) (hi : i < 16) :
    (a &&& (1#16 <<< i) = b &&& (1#16 <<< i)) ↔ a.getLsbD i = b.getLsbD i := by
  constructor
  · intro h
    have := congrArg (fun w => w.getLsbD i) h
    simpa [maskBit_getLsbD _ _ _ hi] using this
  · intro h
    apply BitVec.eq_of_getLsbD_eq
    intro j _
    rw [maskBit_getLsbD _ _ _ hi, maskBit_getLsbD _ _ _ hi, h]

/-- The bit the vote settles on. -/
def voteBit (e : Entry) (i : Nat) : Bool :=
  let b0 := e.w0.getLsbD i
  let b1 := e.w1.getLsbD i
  let b2 := e.w2.getLsbD i
  if b0 = b1 ∧ b0 = b2 then b0
  else if i ≠ 6 ∧ i ≠ 7 then (if b0 = b1 ∨ b0 = b2 then b0 else b1)
  else false

theorem voteStep_getLsbD (e : Entry) (v : Vote) (i j : Nat) (hi : i < 16) :
    (voteStep e v i).nv.getLsbD j = (v.nv.getLsbD j || (decide (j = i) && voteBit e i)) := by
  unfold voteStep voteBit
  simp only [maskBit_eq _ _ _ hi]
  split
  · simp [BitVec.getLsbD_or, maskBit_getLsbD _ _ _ hi]
  · split
    · split <;> simp [BitVec.getLsbD_or, maskBit_getLsbD _ _ _ hi]
    · split <;> simp

theorem voteFold_getLsbD (e : Entry) (n j : Nat) (hn : n ≤ 16) :
    ((List.range n).foldl (voteStep e) ⟨0, false, false⟩).nv.getLsbD j =
      (decide (j < n) && voteBit e j) := by
  induction n with
  | zero => simp
  | succ n ih =>
    rw [List.range_succ, List.foldl_append, List.foldl_cons, List.foldl_nil,
      voteStep_getLsbD _ _ _ _ (by omega), ih (by omega)]
    by_cases h : j = n
    · subst h; simp
    · have : (j < n + 1) ↔ (j < n) := by omega
      simp [h, this]

theorem voteFold_clean (e : Entry) (h1 : e.w0 = e.w1) (h2 : e.w0 = e.w2) (n : Nat) :
    ((List.range n).foldl (voteStep e) ⟨0, false, false⟩).error = false ∧
    ((List.range n).foldl (voteStep e) ⟨0, false, false⟩).refresh = false := by
  induction n with
  | zero => simp
  | succ n ih =>
    rw [List.range_succ, List.foldl_append, List.foldl_cons, List.foldl_nil]
    revert ih
    generalize (List.range n).foldl (voteStep e) ⟨0, false, false⟩ = v
    intro ih
    unfold voteStep
    rw [if_pos (by rw [← h1, ← h2]; exact ⟨rfl, rfl⟩)]
    exact ih

/-- The vote before the two repairs. -/
def rawVote (e : Entry) : Vote := (List.range 16).foldl (voteStep e) ⟨0, false, false⟩

theorem rawVote_getLsbD (e : Entry) (j : Nat) (hj : j < 16) :
    (rawVote e).nv.getLsbD j = voteBit e j := by
  unfold rawVote
  rw [voteFold_getLsbD e 16 j (by omega)]; simp [hj]

/-- Value written by the store: bit 6 is clear and bit 7 is set. -/
def Stored (v : BitVec 16) : Prop := v.getLsbD 6 = false ∧ v.getLsbD 7 = true

theorem Stored.and_single {v : BitVec 16} (h : v.getLsbD 6 = false) : v &&& SINGLE = 0 := by
  have h1 := maskBit_getLsbD v 6
  apply BitVec.eq_of_getLsbD_eq
  intro j _
  have e : SINGLE = 1#16 <<< 6 := by decide
  rw [e, h1 j (by omega), h]; simp

theorem single_iff (v : BitVec 16) : v &&& SINGLE = 0 ↔ v.getLsbD 6 = false := by
  constructor
  · intro h
    have := congrArg (fun w => w.getLsbD 6) h
    have e : SINGLE = 1#16 <<< 6 := by decide
    rw [e] at this
    simpa [maskBit_getLsbD v 6 6 (by omega)] using this
  · exact Stored.and_single

theorem Stored.ne_ffff {v : BitVec 16} (h : v.getLsbD 6 = false) : v ≠ 0xffff := by
  intro e; subst e; exact absurd h (by decide)

theorem Stored.isEntry {v : BitVec 16} (h : v.getLsbD 6 = false) : isEntry v = true := by
  unfold StateManager.isEntry
  rw [Stored.and_single h, decide_eq_true (Stored.ne_ffff h)]; rfl

theorem storeValue_stored (s : State) : Stored (storeValue s) := by
  unfold Stored storeValue SINGLE MULTI
  constructor
  · simp [BitVec.getLsbD_or, BitVec.getLsbD_and, BitVec.getLsbD_not]
  · simp [BitVec.getLsbD_or, BitVec.getLsbD_and, BitVec.getLsbD_not]

theorem settings_storeValue (s : State) : settings (storeValue s) = settings s.nv := by
  unfold settings storeValue SINGLE MULTI
  generalize s.nv = v
  revert v
  intro v
  apply BitVec.eq_of_getLsbD_eq
  intro j hj
  have : j = 0 ∨ j = 1 ∨ j = 2 ∨ j = 3 ∨ j = 4 ∨ j = 5 ∨ j = 6 ∨ j = 7 ∨ j = 8 ∨ j = 9 ∨ j = 10 ∨
      j = 11 ∨ j = 12 ∨ j = 13 ∨ j = 14 ∨ j = 15 := by omega
  rcases this with h|h|h|h|h|h|h|h|h|h|h|h|h|h|h|h <;> subst h <;>
    simp [BitVec.getLsbD_or, BitVec.getLsbD_and, BitVec.getLsbD_not]

/-- If the vote agrees with a stored value outside the format marks, that value is read. -/
theorem read_of_votes (e : Entry) (v : BitVec 16) (hv : Stored v)
    (h : ∀ i, i < 16 → i ≠ 7 → voteBit e i = v.getLsbD i) : (readStateBits e).nv = v := by
  have h6 : (rawVote e).nv.getLsbD 6 = false := by
    rw [rawVote_getLsbD _ _ (by omega), h 6 (by omega) (by omega), hv.1]
  have hb : fixBlank e (rawVote e) = rawVote e := by
    unfold fixBlank
    rw [if_neg]
    exact fun c => Stored.ne_ffff h6 c.1
  show (fixFormat (fixBlank e (rawVote e))).nv = v
  rw [hb]
  unfold fixFormat
  have h7 : ((rawVote e).nv &&& (SINGLE ||| MULTI) = 0) ↔ (rawVote e).nv.getLsbD 7 = false := by
    constructor
    · intro hc
      have := congrArg (fun w => w.getLsbD 7) hc
      simpa [SINGLE, MULTI, BitVec.getLsbD_and] using this
    · intro hc
      apply BitVec.eq_of_getLsbD_eq
      intro j hj
      have : j = 6 ∨ j = 7 ∨ (SINGLE ||| MULTI).getLsbD j = false := by
        revert j; decide
      rcases this with rfl | rfl | hs
      · rw [BitVec.getLsbD_and, h6]; rfl
      · rw [BitVec.getLsbD_and, hc]; rfl
      · rw [BitVec.getLsbD_and, hs]; simp
  by_cases hc : (rawVote e).nv.getLsbD 7 = false
  · rw [if_pos (h7.mpr hc)]
    apply BitVec.eq_of_getLsbD_eq
    intro j hj
    rw [BitVec.getLsbD_or, rawVote_getLsbD _ _ hj]
    by_cases hj7 : j = 7
    · subst hj7; rw [hv.2]; simp [MULTI]
    · rw [h j hj hj7]
      have : MULTI.getLsbD j = false := by revert j; decide
      rw [this, Bool.or_false]
  · rw [if_neg (fun hh => hc (h7.mp hh))]
    apply BitVec.eq_of_getLsbD_eq
    intro j hj
    rw [rawVote_getLsbD _ _ hj]
    by_cases hj7 : j = 7
    · subst hj7
      rw [hv.2, ← rawVote_getLsbD _ _ (by omega)]
      simpa using hc
    · exact h j hj hj7

theorem read_damaged (v : BitVec 16) (hv : Stored v) (d : Entry) (hd : DamagedCopies v d) :
    (readStateBits d).nv = v := by
  apply read_of_votes d v hv
  intro i hi h7
  unfold voteBit
  have := hd i hi
  by_cases h6 : i = 6
  · subst h6
    have hv6 := hv.1
    rw [hv6] at this ⊢
    grind
  · grind

theorem read_clean (v : BitVec 16) (hv : Stored v) :
    readStateBits (entryOf v) = ⟨v, false, false⟩ := by
  have h1 : (readStateBits (entryOf v)).nv = v := by
    apply read_damaged v hv
    intro i _
    simp [entryOf]
  have hc := voteFold_clean (entryOf v) rfl rfl 16
  have hr : (rawVote (entryOf v)).nv = v := by
    apply BitVec.eq_of_getLsbD_eq
    intro j hj
    rw [rawVote_getLsbD _ _ hj]; simp [voteBit, entryOf]
  have hb : fixBlank (entryOf v) (rawVote (entryOf v)) = rawVote (entryOf v) := by
    unfold fixBlank
    rw [if_neg]
    intro c; rw [hr] at c; exact Stored.ne_ffff hv.1 c.1
  have hf : (readStateBits (entryOf v)).error = false ∧ (readStateBits (entryOf v)).refresh = false := by
    show (fixFormat (fixBlank _ (rawVote (entryOf v)))).error = false ∧
      (fixFormat (fixBlank _ (rawVote (entryOf v)))).refresh = false
    rw [hb]
    unfold fixFormat
    split <;> exact hc
  cases hx : readStateBits (entryOf v) with
  | mk a b c => rw [hx] at h1 hf; simp_all

theorem read_blank : readStateBits ⟨0xffff, 0xffff, 0xffff, 0xffff⟩ = ⟨0xffff, false, false⟩ := by
  decide +kernel

end Verif.StateManager
