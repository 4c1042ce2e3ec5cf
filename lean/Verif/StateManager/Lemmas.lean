import Verif.StateManager.Vote
/-!
The layout of the two sectors, and how storing, erasing and booting act on it.
-/
namespace Verif.StateManager

/-- Entry `i` of the two sectors is erased. -/
def Blank (c : Cfg) (m : Mem) (i : Nat) : Prop := ∀ j, j < 8 → m (c.base + 8 * i + j) = 0xff

/-- The words of entry `i`. -/
def ent (c : Cfg) (m : Mem) (i : Nat) : Entry := rdEntry m (c.base + 8 * i)

/-- Entry `i` holds an undamaged stored value. -/
def Clean (c : Cfg) (m : Mem) (i : Nat) : Prop := ∃ x, Stored x ∧ ent c m i = entryOf x

/-- What reading entry `i` gives. -/
def vt (c : Cfg) (m : Mem) (i : Nat) : Vote := readStateBits (ent c m i)

theorem rdEntry_congr {m m' : Mem} {a : Nat} (h : ∀ j, j < 8 → m' (a + j) = m (a + j)) :
    rdEntry m' a = rdEntry m a := by
  have h0 := h 0 (by omega)
  have h1 := h 1 (by omega)
  have h2 := h 2 (by omega)
  have h3 := h 3 (by omega)
  have h4 := h 4 (by omega)
  have h5 := h 5 (by omega)
  have h6 := h 6 (by omega)
  have h7 := h 7 (by omega)
  simp only [Nat.add_zero] at h0
  simp only [rdEntry, rdWord, Nat.add_assoc, Nat.reduceAdd, h0, h1, h2, h3, h4, h5, h6, h7]

theorem Blank.ent {c : Cfg} {m : Mem} {i : Nat} (h : Blank c m i) :
    ent c m i = ⟨0xffff, 0xffff, 0xffff, 0xffff⟩ := by
  have h0 := h 0 (by omega)
  have h1 := h 1 (by omega)
  have h2 := h 2 (by omega)
  have h3 := h 3 (by omega)
  have h4 := h 4 (by omega)
  have h5 := h 5 (by omega)
  have h6 := h 6 (by omega)
  have h7 := h 7 (by omega)
  simp only [Nat.add_zero] at h0
  simp only [StateManager.ent, rdEntry, rdWord, Nat.add_assoc, Nat.reduceAdd] at *
  simp only [h0, h1, h2, h3, h4, h5, h6, h7]
  decide

theorem Blank.vt {c : Cfg} {m : Mem} {i : Nat} (h : Blank c m i) : vt c m i = ⟨0xffff, false, false⟩ := by
  rw [StateManager.vt, h.ent, read_blank]

theorem Clean.vt {c : Cfg} {m : Mem} {i : Nat} (h : Clean c m i) :
    isEntry (vt c m i).nv = true ∧ (vt c m i).error = false ∧ (vt c m i).refresh = false := by
  obtain ⟨x, hx, he⟩ := h
  rw [StateManager.vt, he, read_clean x hx]
  exact ⟨Stored.isEntry hx.1, rfl, rfl⟩

theorem bytes_length (e : Entry) : e.bytes.length = 8 := rfl

theorem rdWord_wordBytes (w : BitVec 16) :
    (w.extractLsb' 8 8 ++ w.extractLsb' 0 8 : BitVec 16) = w := by
  apply BitVec.eq_of_getLsbD_eq
  intro j hj
  simp only [BitVec.getLsbD_append, BitVec.getLsbD_extractLsb']
  by_cases h : j < 8
  · simp [h]
  · have : j - 8 < 8 ∧ 8 + (j - 8) = j := by omega
    rw [this.2]; simp [h, this.1]

theorem and_ff (b : UInt8) : 0xff &&& b = b := by
  revert b; decide +kernel

theorem ent_program_eq {c : Cfg} {m : Mem} {i : Nat} (e : Entry) (h : Blank c m i) :
    ent c (program m (c.base + 8 * i) e.bytes) i = e := by
  have hp : ∀ j, j < 8 → program m (c.base + 8 * i) e.bytes (c.base + 8 * i + j) = e.bytes.getD j 0xff := by
    intro j hj
    unfold program
    rw [if_pos ⟨by omega, by rw [bytes_length]; omega⟩, h j hj]
    rw [show c.base + 8 * i + j - (c.base + 8 * i) = j by omega, and_ff]
  revert hp
  generalize program m (c.base + 8 * i) e.bytes = P
  intro hp
  have h0 := hp 0 (by omega)
  have h1 := hp 1 (by omega)
  have h2 := hp 2 (by omega)
  have h3 := hp 3 (by omega)
  have h4 := hp 4 (by omega)
  have h5 := hp 5 (by omega)
  have h6 := hp 6 (by omega)
  have h7 := hp 7 (by omega)
  simp only [Nat.add_zero] at h0
  obtain ⟨a, b, d, f⟩ := e
  simp only [StateManager.ent, rdEntry, rdWord, Nat.add_assoc, Nat.reduceAdd] at *
  simp only [h0, h1, h2, h3, h4, h5, h6, h7, Entry.bytes, wordBytes, List.cons_append, List.nil_append,
    List.getD_cons_zero, List.getD_cons_succ]
  rw [rdWord_wordBytes, rdWord_wordBytes, rdWord_wordBytes, rdWord_wordBytes]

theorem program_ne {c : Cfg} {m : Mem} {i j k : Nat} (data : Bytes) (hl : data.length ≤ 8) (h : i ≠ j)
    (hk : k < 8) :
    program m (c.base + 8 * i) data (c.base + 8 * j + k) = m (c.base + 8 * j + k) := by
  unfold program; rw [if_neg]; omega

theorem ent_program_ne {c : Cfg} {m : Mem} {i j : Nat} (data : Bytes) (hl : data.length ≤ 8) (h : i ≠ j) :
    ent c (program m (c.base + 8 * i) data) j = ent c m j :=
  rdEntry_congr (fun _ hk => program_ne data hl h hk)

theorem Blank.program_ne {c : Cfg} {m : Mem} {i j : Nat} {data : Bytes} (hl : data.length ≤ 8)
    (h : i ≠ j) (hb : Blank c m j) : Blank c (program m (c.base + 8 * i) data) j := by
  intro k hk; rw [StateManager.program_ne data hl h hk]; exact hb k hk

theorem Clean.program_ne {c : Cfg} {m : Mem} {i j : Nat} {data : Bytes} (hl : data.length ≤ 8)
    (h : i ≠ j) (hb : Clean c m j) : Clean c (program m (c.base + 8 * i) data) j := by
  obtain ⟨x, hx, he⟩ := hb
  exact ⟨x, hx, by rw [ent_program_ne data hl h, he]⟩

theorem Blank.erase_in {c : Cfg} {m : Mem} {n k i : Nat} (h1 : k ≤ i) (h2 : i < k + n) :
    Blank c (eraseMem m (c.base + 8 * k) (8 * n)) i := by
  intro j hj
  unfold eraseMem; rw [if_pos]; omega

theorem erase_out {c : Cfg} {m : Mem} {n k i j : Nat} (h : i < k ∨ k + n ≤ i) (hj : j < 8) :
    eraseMem m (c.base + 8 * k) (8 * n) (c.base + 8 * i + j) = m (c.base + 8 * i + j) := by
  unfold eraseMem; rw [if_neg]; omega

theorem Blank.erase {c : Cfg} {m : Mem} {n k i : Nat} (h : Blank c m i) :
    Blank c (eraseMem m (c.base + 8 * k) (8 * n)) i := by
  intro j hj
  by_cases hh : i < k ∨ k + n ≤ i
  · rw [erase_out hh hj]; exact h j hj
  · exact Blank.erase_in (by omega) (by omega) j hj

theorem ent_erase_out {c : Cfg} {m : Mem} {n k i : Nat} (h : i < k ∨ k + n ≤ i) :
    ent c (eraseMem m (c.base + 8 * k) (8 * n)) i = ent c m i :=
  rdEntry_congr (fun _ hj => erase_out h hj)

theorem Clean.erase_out {c : Cfg} {m : Mem} {n k i : Nat} (h : i < k ∨ k + n ≤ i) (hb : Clean c m i) :
    Clean c (eraseMem m (c.base + 8 * k) (8 * n)) i := by
  obtain ⟨x, hx, he⟩ := hb
  exact ⟨x, hx, by rw [ent_erase_out h, he]⟩

/-! ## Searching for the newest entry -/

theorem scan_run (c : Cfg) (m : Mem) (n : Nat) (hs : c.sector = 8 * n) :
    ∀ (d a fuel : Nat) (nv : BitVec 16) (err rf : Bool), d < fuel → a + d ≤ 2 * n →
    (∀ i, a ≤ i → i < a + d → isEntry (vt c m i).nv = true) →
    (a + d = 2 * n ∨ isEntry (vt c m (a + d)).nv = false) →
    (scan c m fuel (8 * a) nv err rf).offset = 8 * (a + d) ∧
    (scan c m fuel (8 * a) nv err rf).nv = (if d = 0 then nv else (vt c m (a + d - 1)).nv) ∧
    (d = 0 → a < 2 * n → (scan c m fuel (8 * a) nv err rf).lastNv = (vt c m a).nv ∧
      (scan c m fuel (8 * a) nv err rf).lastError = (vt c m a).error) ∧
    (err = false → rf = false →
      (∀ i, a ≤ i → i ≤ a + d → i < 2 * n → (vt c m i).error = false ∧ (vt c m i).refresh = false) →
      (scan c m fuel (8 * a) nv err rf).bitError = false ∧
      (scan c m fuel (8 * a) nv err rf).refresh = false) := by
  intro d
  induction d with
  | zero =>
    intro a fuel nv err rf hf hle _ hend
    obtain ⟨f, rfl⟩ : ∃ f, fuel = f + 1 := ⟨fuel - 1, by omega⟩
    rw [scan]
    by_cases ha : a = 2 * n
    · rw [if_neg (by rw [hs]; omega)]
      refine ⟨rfl, rfl, by omega, fun h1 h2 _ => ⟨h1, h2⟩⟩
    · rw [if_pos (by rw [hs]; omega)]
      have hne : isEntry (vt c m a).nv = false := by
        rcases hend with h | h
        · omega
        · simpa using h
      have hne' : isEntry (readStateBits (rdEntry m (c.base + 8 * a))).nv = false := hne
      simp only [hne', Bool.false_eq_true, if_false]
      refine ⟨rfl, rfl, fun _ _ => ⟨rfl, rfl⟩, fun h1 h2 h3 => ⟨h1, ?_⟩⟩
      have := (h3 a (by omega) (by omega) (by omega)).2
      simp only [StateManager.vt, StateManager.ent] at this
      rw [h2, this]; rfl
  | succ d ih =>
    intro a fuel nv err rf hf hle hent hend
    obtain ⟨f, rfl⟩ : ∃ f, fuel = f + 1 := ⟨fuel - 1, by omega⟩
    rw [scan, if_pos (by rw [hs]; omega)]
    have he := hent a (by omega) (by omega)
    have ih' := ih (a + 1) f (vt c m a).nv (vt c m a).error (rf || (vt c m a).refresh)
      (by omega) (by omega) (fun i h1 h2 => hent i (by omega) (by omega))
      (by rw [show a + 1 + d = a + (d + 1) by omega]; exact hend)
    simp only [StateManager.vt, StateManager.ent] at he ih' ⊢
    simp only [he, if_true]
    rw [show 8 * a + 8 = 8 * (a + 1) by omega]
    obtain ⟨i1, i2, _, i4⟩ := ih'
    refine ⟨by rw [i1]; omega, ?_, by omega, ?_⟩
    · rw [i2]
      rw [show a + 1 + d = a + (d + 1) by omega]
      rw [if_neg (by omega : ¬ d + 1 = 0)]
      split
      · subst d; simp
      · rfl
    · intro h1 h2 h3
      have h3a := h3 a (by omega) (by omega) (by omega)
      exact i4 h3a.1 (by rw [h2, h3a.2]; rfl) (fun i h4 h5 h6 => h3 i (by omega) (by omega) h6)

/-- The layout as far as booting is concerned: entry `cur` is the newest one and holds `v`. -/
def Lay (c : Cfg) (m : Mem) (n cur : Nat) (v : BitVec 16) : Prop :=
  (vt c m cur).nv = v ∧
  ((cur < n ∧ (∀ i, i ≤ cur → isEntry (vt c m i).nv = true) ∧ isEntry (vt c m (cur + 1)).nv = false) ∨
   (n ≤ cur ∧ cur < 2 * n ∧
    (isEntry (vt c m 0).nv = false ∨ ∀ i, i < n → isEntry (vt c m i).nv = true) ∧
    (∀ i, n ≤ i → i ≤ cur → isEntry (vt c m i).nv = true) ∧
    (cur + 1 = 2 * n ∨ isEntry (vt c m (cur + 1)).nv = false)))

theorem initMulti_lay {c : Cfg} {m : Mem} {n cur : Nat} {v : BitVec 16} (hs : c.sector = 8 * n)
    (hn : 2 ≤ n) (h : Lay c m n cur v) :
    (initMulti c m).offset = 8 * (cur + 1) ∧ (initMulti c m).nv = v ∧
    ((∀ i, i < 2 * n → i ≤ cur + 1 → (vt c m i).error = false ∧ (vt c m i).refresh = false) →
      (initMulti c m).bitError = false ∧ (initMulti c m).refresh = false) := by
  obtain ⟨hv, h⟩ := h
  unfold initMulti
  have run := scan_run c m n hs
  by_cases hz : isEntry (vt c m 0).nv = false
  · -- the first sector is skipped
    rcases h with ⟨_, h2, _⟩ | ⟨h1, h2, _, h4, h5⟩
    · rw [h2 0 (by omega)] at hz; exact absurd hz (by decide)
    · obtain ⟨a1, a2, a3, a4⟩ := run 0 0 (c.sector * 2) 0xffff false false (by omega) (by omega)
        (fun i _ _ => by omega) (Or.inr hz)
      have b := a3 rfl (by omega)
      simp only [Nat.mul_zero, Nat.add_zero] at a1 a2 a4 b
      simp only [a1, if_true]
      rw [show c.sector = 8 * n from hs] at a1 a2 a4 b ⊢
      obtain ⟨r1, r2, _, r4⟩ := run (cur + 1 - n) n (8 * n * 2)
        (scan c m (8 * n * 2) 0 0xffff false false).lastNv
        (scan c m (8 * n * 2) 0 0xffff false false).lastError
        (scan c m (8 * n * 2) 0 0xffff false false).refresh
        (by omega) (by omega) (fun i h6 h7 => h4 i h6 (by omega))
        (by rw [show n + (cur + 1 - n) = cur + 1 by omega]; exact h5)
      refine ⟨by rw [r1]; omega, ?_, ?_⟩
      · rw [r2, if_neg (by omega), show n + (cur + 1 - n) - 1 = cur by omega, hv]
      · intro hc
        have c0 := hc 0 (by omega) (by omega)
        apply r4
        · rw [b.2]; exact c0.1
        · exact (a4 trivial trivial (fun i h6 h7 h8 => hc i h8 (by omega))).2
        · intro i h6 h7 h8; exact hc i h8 (by omega)
  · have hz' : isEntry (vt c m 0).nv = true := by simpa using hz
    have key : (∀ i, i ≤ cur → isEntry (vt c m i).nv = true) ∧ cur < 2 * n ∧
        (cur + 1 = 2 * n ∨ isEntry (vt c m (cur + 1)).nv = false) := by
      rcases h with ⟨h1, h2, h3⟩ | ⟨h1, h2, h3, h4, h5⟩
      · exact ⟨h2, by omega, Or.inr h3⟩
      · refine ⟨?_, h2, h5⟩
        intro i hi
        rcases h3 with h3 | h3
        · exact absurd h3 hz
        · by_cases hin : i < n
          · exact h3 i hin
          · exact h4 i (by omega) hi
    obtain ⟨k1, k2, k3⟩ := key
    obtain ⟨a1, a2, _, a4⟩ := run (cur + 1) 0 (c.sector * 2) 0xffff false false (by omega) (by omega)
        (fun i _ h => k1 i (by omega)) (by rw [Nat.zero_add]; exact k3)
    simp only [Nat.mul_zero, Nat.zero_add] at a1 a2 a4
    have hne : ¬ (scan c m (c.sector * 2) 0 0xffff false false).offset = 0 := by rw [a1]; omega
    simp only [hne, if_false]
    refine ⟨a1, ?_, ?_⟩
    · rw [a2, if_neg (by omega)]; simpa using hv
    · intro hc; exact a4 trivial trivial (fun i _ h7 h8 => hc i h8 h7)

theorem isEntry_ne {v : BitVec 16} (h : isEntry v = true) : v ≠ 0xffff ∧ v &&& SINGLE = 0 := by
  unfold isEntry at h
  simpa using h

theorem ent_zero (c : Cfg) (m : Mem) : rdEntry m c.base = ent c m 0 := rfl

theorem initFinish_nv (c : Cfg) (o : Nat) (nv : BitVec 16) (vol : BitVec 8) (a b : Bool) :
    (initFinish c o nv vol a b).nv = nv := by
  unfold initFinish setNextSector
  cases a <;> cases b <;> simp <;> (try split) <;> (try split) <;> rfl

/-- Booting from a layout with a newest entry restores that entry. -/
theorem boot_lay {c : Cfg} {m : Mem} {n cur : Nat} {v : BitVec 16} {e : Env} (hs : c.sector = 8 * n)
    (hn : 2 ≤ n) (h : Lay c m n cur v) (ok : (initState c m e).status = .ok) :
    (initState c m e).ops = [] ∧
    (initState c m e).state = initFinish c (8 * (cur + 1)) v 0 (initMulti c m).refresh (initMulti c m).bitError := by
  have hm := initMulti_lay hs hn h
  have e2 : rdEntry m (c.base + c.sector) = ent c m n := by rw [hs]; rfl
  have hent : isEntry (vt c m 0).nv = true ∨ isEntry (vt c m n).nv = true := by
    rcases h.2 with ⟨_, h2, _⟩ | ⟨h1, _, _, h4, _⟩
    · exact Or.inl (h2 0 (by omega))
    · exact Or.inr (h4 n (by omega) h1)
  unfold initState at ok ⊢
  simp only [ent_zero, e2] at ok ⊢
  split at ok
  · cases ok
  rename_i g1
  split at ok
  · cases ok
  rename_i g2
  split at ok
  · cases ok
  rename_i g3
  have f1 : (readStateBits (ent c m 0)).nv ≠ 0xffff ∨ (readStateBits (ent c m n)).nv ≠ 0xffff := by
    rcases hent with h | h
    · exact Or.inl (isEntry_ne h).1
    · exact Or.inr (isEntry_ne h).1
  have f2 : (readStateBits (ent c m 0)).nv &&& SINGLE = 0 ∨ (readStateBits (ent c m n)).nv &&& SINGLE = 0 := by
    rcases hent with h | h
    · exact Or.inl (isEntry_ne h).2
    · exact Or.inr (isEntry_ne h).2
  rw [if_neg g1, if_neg g2, if_neg g3, if_pos f1, if_pos f2]
  refine ⟨rfl, ?_⟩
  simp only [hm.1, hm.2.1]

theorem boot_lay_ok {c : Cfg} {m : Mem} {n cur : Nat} {v : BitVec 16} {e : Env} (hs : c.sector = 8 * n)
    (h : Lay c m n cur v) (ha : c.base % c.sector = 0) (h1 : e.sizeOk = true) (h2 : e.readOk = true) :
    (initState c m e).status = .ok := by
  have e2 : rdEntry m (c.base + c.sector) = ent c m n := by rw [hs]; rfl
  have hent : isEntry (vt c m 0).nv = true ∨ isEntry (vt c m n).nv = true := by
    rcases h.2 with ⟨_, h2, _⟩ | ⟨h1, _, _, h4, _⟩
    · exact Or.inl (h2 0 (by omega))
    · exact Or.inr (h4 n (by omega) h1)
  have f1 : (readStateBits (ent c m 0)).nv ≠ 0xffff ∨ (readStateBits (ent c m n)).nv ≠ 0xffff := by
    rcases hent with h | h
    · exact Or.inl (isEntry_ne h).1
    · exact Or.inr (isEntry_ne h).1
  have f2 : (readStateBits (ent c m 0)).nv &&& SINGLE = 0 ∨ (readStateBits (ent c m n)).nv &&& SINGLE = 0 := by
    rcases hent with h | h
    · exact Or.inl (isEntry_ne h).2
    · exact Or.inr (isEntry_ne h).2
  unfold initState
  simp only [ent_zero, e2]
  rw [if_neg (by simp [h1]), if_neg (by simp [ha]), if_neg (by simp [h2]), if_pos f1, if_pos f2]

end Verif.StateManager
