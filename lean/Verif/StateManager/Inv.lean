import Verif.StateManager.Lemmas
/-!
The invariant kept by every history, and its preservation by each step.
-/
namespace Verif.StateManager

/-- The newest entry is in the first sector. -/
structure MA (c : Cfg) (m : Mem) (n cur : Nat) (v : BitVec 16) : Prop where
  lt : cur < n
  old : ∀ i, i ≤ cur → Clean c m i
  free : ∀ j, cur < j → j < n → Blank c m j
  next : cur + 1 = n → Blank c m n
  stored : Stored v
  val : ent c m cur = entryOf v

/-- The newest entry is in the second sector; the first is erased or full of older entries. -/
structure MB (c : Cfg) (m : Mem) (n cur : Nat) (v : BitVec 16) : Prop where
  ge : n ≤ cur
  lt : cur < 2 * n
  first : (∀ i, i < n → Blank c m i) ∨ (∀ i, i < n → Clean c m i)
  old : ∀ i, n ≤ i → i ≤ cur → Clean c m i
  free : ∀ j, cur < j → j < 2 * n → Blank c m j
  stored : Stored v
  val : ent c m cur = entryOf v

def MAB (c : Cfg) (m : Mem) (n cur : Nat) (v : BitVec 16) : Prop := MA c m n cur v ∨ MB c m n cur v

/-- Nothing is stored. -/
def MC (c : Cfg) (m : Mem) (n : Nat) : Prop := Blank c m 0 ∧ Blank c m n

/-- The memory holds `saved`. -/
def MemInv (c : Cfg) (n : Nat) (m : Mem) (saved : BitVec 16) : Prop :=
  (∃ cur v, MAB c m n cur v ∧ settings v = settings saved) ∨
  (MC c m n ∧ settings saved = settings 0xffff)

/-- The blank flags can be trusted. -/
def Flags (c : Cfg) (n : Nat) (m : Mem) (vol : BitVec 8) : Prop :=
  (vol &&& SECTOR_1_BLANK ≠ 0 → ∀ i, i < n → Blank c m i) ∧
  (vol &&& SECTOR_2_BLANK ≠ 0 → ∀ i, n ≤ i → i < 2 * n → Blank c m i)

/-- The running system. -/
def Inv (c : Cfg) (n : Nat) (s : Sys) : Prop :=
  Flags c n s.mem s.state.vol ∧
  ((∃ cur v, MAB c s.mem n cur v ∧ s.state.storeAddr = c.base + 8 * cur ∧ s.state.lastNv = v ∧
      settings v = settings s.saved) ∨
   (MC c s.mem n ∧ (∀ i, i < n → Blank c s.mem i) ∧ s.state.vol &&& SECTOR_1_BLANK ≠ 0 ∧
      s.state.storeAddr = c.base + 8 * (2 * n - 1) ∧ s.state.lastNv = 0xffff ∧
      settings s.saved = settings 0xffff))

theorem Inv.memInv {c : Cfg} {n : Nat} {s : Sys} (h : Inv c n s) : MemInv c n s.mem s.saved := by
  rcases h.2 with ⟨cur, v, h1, _, _, h4⟩ | ⟨h1, _, _, _, _, h4⟩
  · exact Or.inl ⟨cur, v, h1, h4⟩
  · exact Or.inr ⟨h1, h4⟩

theorem blank_not_entry {c : Cfg} {m : Mem} {i : Nat} (h : Blank c m i) : isEntry (vt c m i).nv = false := by
  rw [h.vt]; decide

theorem MAB.lay {c : Cfg} {m : Mem} {n cur : Nat} {v : BitVec 16} (hn : 2 ≤ n) (h : MAB c m n cur v) :
    Lay c m n cur v := by
  rcases h with h | h
  · refine ⟨by rw [vt, h.val, read_clean v h.stored], Or.inl ⟨h.lt, fun i hi => (h.old i hi).vt.1, ?_⟩⟩
    by_cases hc : cur + 1 = n
    · rw [hc]; exact blank_not_entry (h.next hc)
    · have := h.lt
      exact blank_not_entry (h.free _ (by omega) (by omega))
  · refine ⟨by rw [vt, h.val, read_clean v h.stored],
      Or.inr ⟨h.ge, h.lt, ?_, fun i h1 h2 => (h.old i h1 h2).vt.1, ?_⟩⟩
    · rcases h.first with g | g
      · exact Or.inl (blank_not_entry (g 0 (by omega)))
      · exact Or.inr (fun i hi => (g i hi).vt.1)
    · by_cases hc : cur + 1 = 2 * n
      · exact Or.inl hc
      · have := h.lt
        exact Or.inr (blank_not_entry (h.free _ (by omega) (by omega)))

theorem clean_vt_flags {c : Cfg} {m : Mem} {i : Nat} (h : Clean c m i ∨ Blank c m i) :
    (vt c m i).error = false ∧ (vt c m i).refresh = false := by
  rcases h with h | h
  · exact h.vt.2
  · rw [h.vt]; exact ⟨rfl, rfl⟩

theorem MAB.noError {c : Cfg} {m : Mem} {n cur : Nat} {v : BitVec 16} (h : MAB c m n cur v) :
    ∀ i, i < 2 * n → i ≤ cur + 1 → (vt c m i).error = false ∧ (vt c m i).refresh = false := by
  intro i hi hc
  apply clean_vt_flags
  rcases h with h | h
  · by_cases h1 : i ≤ cur
    · exact Or.inl (h.old i h1)
    · by_cases h2 : cur + 1 = n
      · have : i = n := by omega
        subst this; exact Or.inr (h.next h2)
      · have := h.lt
        exact Or.inr (h.free i (by omega) (by omega))
  · by_cases h1 : i < n
    · rcases h.first with g | g
      · exact Or.inr (g i h1)
      · exact Or.inl (g i h1)
    · by_cases h2 : i ≤ cur
      · exact Or.inl (h.old i (by omega) h2)
      · exact Or.inr (h.free i (by omega) (by omega))

theorem initFinish_clean (c : Cfg) (o : Nat) (nv : BitVec 16) (vol : BitVec 8) :
    initFinish c o nv vol false false = ⟨c.base + o - 8, nv, nv, vol⟩ := rfl

/-- A boot from memory that holds `saved` restores it and leaves a system in good order. -/
theorem boot_inv {c : Cfg} {n : Nat} {m : Mem} {saved : BitVec 16} {e : Env} (hs : c.sector = 8 * n)
    (hn : 2 ≤ n) (h : MemInv c n m saved) (ok : (initState c m e).status = .ok) :
    Inv c n ⟨applyOps (initState c m e).ops m, (initState c m e).state, saved⟩ ∧
    settings (initState c m e).state.nv = settings saved := by
  rcases h with ⟨cur, v, hm, hv⟩ | ⟨hm, hv⟩
  · obtain ⟨b1, b2⟩ := boot_lay hs hn (hm.lay hn) ok
    have hf := (initMulti_lay hs hn (hm.lay hn)).2.2 hm.noError
    rw [hf.1, hf.2, initFinish_clean] at b2
    rw [b1, b2]
    refine ⟨⟨⟨?_, ?_⟩, Or.inl ⟨cur, v, hm, ?_, rfl, hv⟩⟩, hv⟩
    · intro hc; exact absurd (show (0 : BitVec 8) &&& SECTOR_1_BLANK = 0 by decide) hc
    · intro hc; exact absurd (show (0 : BitVec 8) &&& SECTOR_2_BLANK = 0 by decide) hc
    · show c.base + 8 * (cur + 1) - 8 = c.base + 8 * cur
      omega
  · have e1 : readStateBits (ent c m 0) = ⟨0xffff, false, false⟩ := by
      have := hm.1.vt; rw [vt] at this; exact this
    have e2 : readStateBits (ent c m n) = ⟨0xffff, false, false⟩ := by
      have := hm.2.vt; rw [vt] at this; exact this
    have e3 : rdEntry m (c.base + c.sector) = ent c m n := by rw [hs]; rfl
    unfold initState at ok ⊢
    simp only [ent_zero, e3, e1, e2] at ok ⊢
    split at ok
    · cases ok
    rename_i g1
    split at ok
    · cases ok
    rename_i g2
    split at ok
    · cases ok
    rename_i g3
    rw [if_neg g1, if_neg g2, if_neg g3]
    rw [if_neg (by decide)] at ok ⊢
    split at ok
    · rename_i g4
      rw [if_pos g4, initFinish_clean, hs]
      have her : ∀ i, i < n → Blank c (eraseMem m c.base (8 * n)) i := by
        intro i hi
        have := Blank.erase_in (c := c) (m := m) (n := n) (k := 0) (i := i) (by omega) (by omega)
        simpa using this
      have hb2 : Blank c (eraseMem m c.base (8 * n)) n := by
        have := Blank.erase (c := c) (m := m) (n := n) (k := 0) (i := n) hm.2
        simpa using this
      have ha : applyOps [FlashOp.erase c.base (8 * n)] m = eraseMem m c.base (8 * n) := rfl
      rw [ha]
      refine ⟨⟨⟨fun _ => her, ?_⟩, Or.inr ⟨⟨her 0 (by omega), hb2⟩, her,
        show SECTOR_1_BLANK &&& SECTOR_1_BLANK ≠ 0 by decide, ?_, rfl, hv⟩⟩, hv.symm⟩
      · intro hc; exact absurd (show SECTOR_1_BLANK &&& SECTOR_2_BLANK = 0 by decide) hc
      · show c.base + 8 * n * 2 - 8 = c.base + 8 * (2 * n - 1)
        omega
    · cases ok

/-! ## Erasing the unused sector -/

theorem MA.eraseSecond {c : Cfg} {m : Mem} {n cur : Nat} {v : BitVec 16} (h : MA c m n cur v) :
    MA c (eraseMem m (c.base + 8 * n) (8 * n)) n cur v where
  lt := h.lt
  old i hi := (h.old i hi).erase_out (by have := h.lt; omega)
  free j h1 h2 := (h.free j h1 h2).erase
  next hc := (h.next hc).erase
  stored := h.stored
  val := by rw [ent_erase_out (by have := h.lt; omega), h.val]

theorem MB.eraseFirst {c : Cfg} {m : Mem} {n cur : Nat} {v : BitVec 16} (h : MB c m n cur v) :
    MB c (eraseMem m (c.base + 8 * 0) (8 * n)) n cur v where
  ge := h.ge
  lt := h.lt
  first := Or.inl (fun i hi => Blank.erase_in (by omega) (by omega))
  old i h1 h2 := (h.old i h1 h2).erase_out (by omega)
  free j h1 h2 := (h.free j h1 h2).erase
  stored := h.stored
  val := by rw [ent_erase_out (by have := h.ge; omega), h.val]

theorem vol_facts (v : BitVec 8) :
    ((v &&& ~~~SECTOR_1_BLANK) &&& SECTOR_1_BLANK = 0) ∧
    ((v &&& ~~~SECTOR_1_BLANK) &&& SECTOR_2_BLANK = v &&& SECTOR_2_BLANK) ∧
    ((v &&& ~~~SECTOR_2_BLANK) &&& SECTOR_2_BLANK = 0) ∧
    ((v &&& ~~~SECTOR_2_BLANK) &&& SECTOR_1_BLANK = v &&& SECTOR_1_BLANK) ∧
    (((v &&& ~~~SECTOR_1_BLANK) ||| SECTOR_2_BLANK) &&& SECTOR_1_BLANK = 0) ∧
    (((v &&& ~~~SECTOR_2_BLANK) ||| SECTOR_1_BLANK) &&& SECTOR_2_BLANK = 0) := by
  revert v; decide +kernel

theorem eraseUnused_inv {c : Cfg} {n cur : Nat} {m : Mem} {v : BitVec 16} {e : Env} {s : State}
    (hs : c.sector = 8 * n) (hm : MAB c m n cur v) (ha : s.storeAddr = c.base + 8 * cur)
    (hf1 : n ≤ cur → s.vol &&& SECTOR_1_BLANK ≠ 0 → ∀ i, i < n → Blank c m i)
    (hf2 : cur < n → s.vol &&& SECTOR_2_BLANK ≠ 0 → ∀ i, n ≤ i → i < 2 * n → Blank c m i) :
    MAB c (applyOps (eraseUnused c e s).2 m) n cur v ∧
    Flags c n (applyOps (eraseUnused c e s).2 m) (eraseUnused c e s).1.vol ∧
    (eraseUnused c e s).1.storeAddr = s.storeAddr ∧ (eraseUnused c e s).1.lastNv = s.lastNv ∧
    (eraseUnused c e s).1.nv = s.nv := by
  obtain ⟨v1, v2, v3, v4, v5, v6⟩ := vol_facts s.vol
  unfold eraseUnused
  by_cases hc : cur < n
  · rw [if_pos (by omega)]
    have hA : MA c m n cur v := by
      rcases hm with h | h
      · exact h
      · have := h.ge; omega
    simp only [v2]
    by_cases hb : s.vol &&& SECTOR_2_BLANK = 0
    · rw [if_pos hb]
      cases e.eraseOk
      · refine ⟨Or.inl hA, ⟨fun h => absurd v1 h, fun h => ?_⟩, by trivial, by trivial, by trivial⟩
        have h : (s.vol &&& ~~~SECTOR_1_BLANK) &&& SECTOR_2_BLANK ≠ 0 := h
        rw [v2] at h; exact absurd hb h
      · have e1 : applyOps [FlashOp.erase (c.base + c.sector) c.sector] m =
            eraseMem m (c.base + 8 * n) (8 * n) := by rw [hs]; rfl
        simp only [if_true]
        rw [e1]
        exact ⟨Or.inl hA.eraseSecond, ⟨fun h => absurd v5 h,
          fun _ i h1 h2 => Blank.erase_in (by omega) (by omega)⟩, by trivial, by trivial, by trivial⟩
    · rw [if_neg hb]
      exact ⟨Or.inl hA, ⟨fun h => absurd v1 h, fun _ => hf2 hc hb⟩, by trivial, by trivial, by trivial⟩
  · rw [if_neg (by omega)]
    have hB : MB c m n cur v := by
      rcases hm with h | h
      · have := h.lt; omega
      · exact h
    simp only [v4]
    by_cases hb : s.vol &&& SECTOR_1_BLANK = 0
    · rw [if_pos hb]
      cases e.eraseOk
      · refine ⟨Or.inr hB, ⟨fun h => ?_, fun h => absurd v3 h⟩, by trivial, by trivial, by trivial⟩
        have h : (s.vol &&& ~~~SECTOR_2_BLANK) &&& SECTOR_1_BLANK ≠ 0 := h
        rw [v4] at h; exact absurd hb h
      · have e1 : applyOps [FlashOp.erase c.base c.sector] m =
            eraseMem m (c.base + 8 * 0) (8 * n) := by rw [hs]; rfl
        simp only [if_true]
        rw [e1]
        exact ⟨Or.inr hB.eraseFirst, ⟨fun _ i h1 => Blank.erase_in (by omega) (by omega),
          fun h => absurd v6 h⟩, by trivial, by trivial, by trivial⟩
    · rw [if_neg hb]
      exact ⟨Or.inr hB, ⟨fun _ => hf1 (by omega) hb, fun h => absurd v3 h⟩, by trivial, by trivial, by trivial⟩

/-! ## Writing an entry -/

/-- The slot after `cur`. -/
def nextSlot (n cur : Nat) : Nat := if cur + 1 = 2 * n then 0 else cur + 1

theorem nextAddr_eq {c : Cfg} {n cur : Nat} {s : State} (hs : c.sector = 8 * n)
    (ha : s.storeAddr = c.base + 8 * cur) : nextAddr c s = c.base + 8 * nextSlot n cur := by
  unfold nextAddr nextSlot
  by_cases h : cur + 1 = 2 * n
  · rw [if_pos (by omega), if_pos h]; rfl
  · rw [if_neg (by omega), if_neg h]; omega

theorem blankCheck_flags {c : Cfg} {n cur : Nat} {s : State} (hs : c.sector = 8 * n) (hn : 2 ≤ n)
    (ha : s.storeAddr = c.base + 8 * cur) (hb : blankCheck c s = true) :
    (nextSlot n cur = 0 → s.vol &&& SECTOR_1_BLANK ≠ 0) ∧
    (nextSlot n cur = n → s.vol &&& SECTOR_2_BLANK ≠ 0) ∧
    (nextSlot n cur = 2 * n - 1 → s.vol &&& SECTOR_1_BLANK ≠ 0) ∧
    (nextSlot n cur = n - 1 → s.vol &&& SECTOR_2_BLANK ≠ 0) := by
  have h := nextAddr_eq hs ha
  unfold blankCheck at hb
  rw [h] at hb
  simp only at hb
  split at hb
  · cases hb
  rename_i h1
  split at hb
  · cases hb
  rename_i h2
  split at hb
  · cases hb
  rename_i h3
  split at hb
  · cases hb
  rename_i h4
  refine ⟨fun hk hv => h1 ⟨by omega, hv⟩, fun hk hv => h2 ⟨by omega, hv⟩,
    fun hk hv => h3 ⟨by omega, hv⟩, fun hk hv => h4 ⟨by omega, hv⟩⟩

/-- Where a system may write its next entry: what `Inv` says about memory and position. -/
def Pos (c : Cfg) (n : Nat) (m : Mem) (cur : Nat) : Prop :=
  (∃ v, MAB c m n cur v) ∨ (cur = 2 * n - 1 ∧ ∀ i, i < n → Blank c m i)

theorem write_blank {c : Cfg} {n cur : Nat} {m : Mem} {s : State} (hs : c.sector = 8 * n) (hn : 2 ≤ n)
    (ha : s.storeAddr = c.base + 8 * cur) (hf : Flags c n m s.vol) (hp : Pos c n m cur)
    (hb : blankCheck c s = true) : Blank c m (nextSlot n cur) := by
  obtain ⟨k1, k2, k3, k4⟩ := blankCheck_flags hs hn ha hb
  by_cases h : cur + 1 = 2 * n
  · have e : nextSlot n cur = 0 := by unfold nextSlot; rw [if_pos h]
    rw [e]; exact hf.1 (k1 e) 0 (by omega)
  · have e : nextSlot n cur = cur + 1 := by unfold nextSlot; rw [if_neg h]
    rw [e] at k1 k2 k3 k4 ⊢
    rcases hp with ⟨v, hA | hB⟩ | ⟨h1, _⟩
    · have := hA.lt
      by_cases h2 : cur + 1 = n
      · rw [h2]; exact hA.next h2
      · exact hA.free _ (by omega) (by omega)
    · have := hB.lt
      exact hB.free _ (by omega) (by omega)
    · omega

theorem write_mab {c : Cfg} {n cur : Nat} {m : Mem} {s : State} {v : BitVec 16} (hs : c.sector = 8 * n)
    (hn : 2 ≤ n) (ha : s.storeAddr = c.base + 8 * cur) (hf : Flags c n m s.vol) (hp : Pos c n m cur)
    (hb : blankCheck c s = true) (hv : Stored v) :
    MAB c (program m (c.base + 8 * nextSlot n cur) (entryOf v).bytes) n (nextSlot n cur) v ∧
    (n ≤ nextSlot n cur → s.vol &&& SECTOR_1_BLANK ≠ 0 → ∀ i, i < n →
      Blank c (program m (c.base + 8 * nextSlot n cur) (entryOf v).bytes) i) ∧
    (nextSlot n cur < n → s.vol &&& SECTOR_2_BLANK ≠ 0 → ∀ i, n ≤ i → i < 2 * n →
      Blank c (program m (c.base + 8 * nextSlot n cur) (entryOf v).bytes) i) := by
  have hbl := write_blank hs hn ha hf hp hb
  obtain ⟨k1, k2, k3, k4⟩ := blankCheck_flags hs hn ha hb
  have hlen : (entryOf v).bytes.length ≤ 8 := by rw [bytes_length]; omega
  have hval := ent_program_eq (c := c) (m := m) (i := nextSlot n cur) (entryOf v) hbl
  refine ⟨?_, fun h1 h2 i hi => (hf.1 h2 i hi).program_ne hlen (by omega),
    fun h1 h2 i hi hi2 => (hf.2 h2 i hi hi2).program_ne hlen (by omega)⟩
  have pb : ∀ j, j ≠ nextSlot n cur → Blank c m j →
      Blank c (program m (c.base + 8 * nextSlot n cur) (entryOf v).bytes) j :=
    fun j h1 h2 => h2.program_ne hlen (by omega)
  have pc : ∀ j, j ≠ nextSlot n cur → Clean c m j →
      Clean c (program m (c.base + 8 * nextSlot n cur) (entryOf v).bytes) j :=
    fun j h1 h2 => h2.program_ne hlen (by omega)
  have pn : Clean c (program m (c.base + 8 * nextSlot n cur) (entryOf v).bytes) (nextSlot n cur) :=
    ⟨v, hv, hval⟩
  revert hval pb pc pn
  generalize program m (c.base + 8 * nextSlot n cur) (entryOf v).bytes = m'
  intro hval pb pc pn
  by_cases h : cur + 1 = 2 * n
  · have e : nextSlot n cur = 0 := by unfold nextSlot; rw [if_pos h]
    rw [e] at k1 k2 k3 k4 hval pb pc pn ⊢
    have hz := hf.1 (k1 rfl)
    exact Or.inl ⟨by omega, fun i hi => by rw [show i = 0 by omega]; exact pn,
      fun j h1 h2 => pb j (by omega) (hz j h2), fun h => by omega, hv, hval⟩
  · have e : nextSlot n cur = cur + 1 := by unfold nextSlot; rw [if_neg h]
    rw [e] at k1 k2 k3 k4 hval pb pc pn ⊢
    rcases hp with ⟨v0, hA | hB⟩ | ⟨h1, _⟩
    · have hlt := hA.lt
      by_cases h2 : cur + 1 = n
      · have hz := hf.2 (k2 h2)
        refine Or.inr ⟨by omega, by omega, Or.inr (fun i hi => pc i (by omega) (hA.old i (by omega))), ?_,
          fun j h3 h4 => pb j (by omega) (hz j (by omega) h4), hv, hval⟩
        intro i h3 h4
        rw [show i = cur + 1 by omega]; exact pn
      · refine Or.inl ⟨by omega, ?_, fun j h3 h4 => pb j (by omega) (hA.free j (by omega) h4), ?_, hv, hval⟩
        · intro i hi
          by_cases h3 : i = cur + 1
          · rw [h3]; exact pn
          · exact pc i h3 (hA.old i (by omega))
        · intro h3
          exact pb n (by omega) (hf.2 (k4 (by omega)) n (by omega) (by omega))
    · have hlt := hB.lt
      have hge := hB.ge
      refine Or.inr ⟨by omega, by omega, ?_, ?_, fun j h3 h4 => pb j (by omega) (hB.free j (by omega) h4), hv, hval⟩
      · rcases hB.first with g | g
        · exact Or.inl (fun i hi => pb i (by omega) (g i hi))
        · exact Or.inr (fun i hi => pc i (by omega) (g i hi))
      · intro i h3 h4
        by_cases h5 : i = cur + 1
        · rw [h5]; exact pn
        · exact pc i h5 (hB.old i h3 (by omega))
    · omega

/-! ## Storing -/

theorem verifyStored_inv {c : Cfg} {n : Nat} {s : Sys} (h : Inv c n s) (e : Env) :
    (verifyStored c s.mem e s.state).2 = s.state ∧
    ((verifyStored c s.mem e s.state).1 = .ok ∨ (verifyStored c s.mem e s.state).1 = .flashError) := by
  unfold verifyStored
  by_cases hv : storeValue s.state = s.state.lastNv
  · rw [if_pos hv]
    cases e.readOk
    · exact ⟨rfl, Or.inr rfl⟩
    · rcases h.2 with ⟨cur, v, hm, ha, hl, _⟩ | ⟨_, _, _, _, hl, _⟩
      · have hr : readStateBits (rdEntry s.mem s.state.storeAddr) = ⟨v, false, false⟩ := by
          rw [ha]
          rcases hm with hm | hm
          · exact (congrArg readStateBits hm.val).trans (read_clean v hm.stored)
          · exact (congrArg readStateBits hm.val).trans (read_clean v hm.stored)
        simp only [hr, hv, hl, if_true]
        simp
      · rw [hl] at hv
        exact absurd hv (Stored.ne_ffff (storeValue_stored _).1)
  · rw [if_neg hv]; exact ⟨rfl, Or.inl rfl⟩

/-- What a store does, once the no-change check is out of the way. -/
theorem store_cases {c : Cfg} {n : Nat} {s : Sys} (h : Inv c n s) (e : Env) :
    ((store c s.mem e s.state).status ≠ .ok ∧ (store c s.mem e s.state).ops = [] ∧
      (store c s.mem e s.state).state = s.state) ∨
    (storeValue s.state ≠ s.state.lastNv ∧ blankCheck c s.state = true ∧
      store c s.mem e s.state =
        ⟨.ok, (eraseUnused c e { s.state with lastNv := storeValue s.state, storeAddr := nextAddr c s.state }).1,
          .write (nextAddr c s.state) (entryOf (storeValue s.state)).bytes ::
          (eraseUnused c e { s.state with lastNv := storeValue s.state, storeAddr := nextAddr c s.state }).2⟩) ∨
    ((store c s.mem e s.state).ops = (eraseUnused c e s.state).2 ∧
      (store c s.mem e s.state).state = (eraseUnused c e s.state).1 ∧
      (((store c s.mem e s.state).status = .notBlank ∧ storeValue s.state ≠ s.state.lastNv ∧ blankCheck c s.state = false) ∨
       (storeValue s.state = s.state.lastNv ∧ (e.readOk = true → (store c s.mem e s.state).status = .ok)))) := by
  obtain ⟨h1, h2⟩ := verifyStored_inv h e
  unfold store
  cases hsz : e.sizeOk
  · left; simp
  · simp only [Bool.not_true, Bool.false_eq_true, if_false]
    rw [h1]
    by_cases hv : storeValue s.state = s.state.lastNv
    · right; right
      simp only [hv, ne_eq, not_true_eq_false, if_false, false_and, and_false, false_or, true_and]
      intro hr
      rcases h2 with h2 | h2
      · exact h2
      · unfold verifyStored at h2
        rw [if_pos hv, hr] at h2
        simp only [if_true] at h2
        split at h2
        · split at h2 <;> cases h2
        · cases h2
    · simp only [ne_eq, hv, not_false_eq_true, if_true]
      cases hb : blankCheck c s.state
      · right; right
        simp
      · cases e.writeOk
        · left; simp
        · right; left; simp

theorem Inv.pos {c : Cfg} {n : Nat} {s : Sys} (h : Inv c n s) :
    ∃ cur, s.state.storeAddr = c.base + 8 * cur ∧ Pos c n s.mem cur := by
  rcases h.2 with ⟨cur, v, hm, ha, _⟩ | ⟨_, hz, _, ha, _⟩
  · exact ⟨cur, ha, Or.inl ⟨v, hm⟩⟩
  · exact ⟨_, ha, Or.inr ⟨rfl, hz⟩⟩

/-- In a state with nothing stored the blank check passes. -/
theorem blankCheck_empty {c : Cfg} {n : Nat} {s : State} (hs : c.sector = 8 * n) (hn : 2 ≤ n)
    (ha : s.storeAddr = c.base + 8 * (2 * n - 1)) (hv : s.vol &&& SECTOR_1_BLANK ≠ 0) :
    blankCheck c s = true := by
  have h : nextAddr c s = c.base := by
    unfold nextAddr; rw [if_pos (by omega)]
  unfold blankCheck
  simp only [h]
  rw [if_neg (fun h => hv h.2), if_neg (by omega), if_neg (by omega), if_neg (by omega)]

/-- Storing keeps the invariant, and what is saved follows the reported status. -/
theorem store_inv {c : Cfg} {n : Nat} {s : Sys} (hs : c.sector = 8 * n) (hn : 2 ≤ n) (h : Inv c n s)
    (e : Env) :
    Inv c n ⟨applyOps (store c s.mem e s.state).ops s.mem, (store c s.mem e s.state).state,
      if (store c s.mem e s.state).status = .ok then s.state.nv else s.saved⟩ := by
  rcases store_cases h e with ⟨h1, h2, h3⟩ | ⟨hne, hb, h3⟩ | ⟨h1, h2, h3⟩
  · rw [h2, h3, if_neg h1]; exact h
  · rw [h3]
    simp only [if_true]
    obtain ⟨cur, ha, hp⟩ := h.pos
    obtain ⟨w1, w2, w3⟩ := write_mab hs hn ha h.1 hp hb (storeValue_stored s.state)
    have e1 := nextAddr_eq hs ha
    obtain ⟨r1, r2, r3, r4, r5⟩ := eraseUnused_inv (e := e)
      (s := { s.state with lastNv := storeValue s.state, storeAddr := nextAddr c s.state })
      hs w1 e1 w2 w3
    rw [← e1] at r1 r2
    exact ⟨r2, Or.inl ⟨_, _, r1, by rw [r3, e1], r4, settings_storeValue s.state⟩⟩
  · rw [h1, h2]
    rcases h.2 with ⟨cur, v, hm, ha, hl, hsv⟩ | ⟨hm, hz, hvol, ha, hl, hsv⟩
    · obtain ⟨r1, r2, r3, r4, r5⟩ := eraseUnused_inv (e := e) hs hm ha (fun _ => h.1.1) (fun _ => h.1.2)
      refine ⟨r2, Or.inl ⟨cur, v, r1, by rw [r3, ha], by rw [r4, hl], ?_⟩⟩
      rcases h3 with ⟨h3, _⟩ | ⟨h3, _⟩
      · rw [h3]; simpa using hsv
      · split
        · rw [← settings_storeValue, h3, hl]
        · exact hsv
    · rcases h3 with ⟨_, _, h3⟩ | ⟨h3, _⟩
      · rw [blankCheck_empty hs hn ha hvol] at h3; cases h3
      · rw [hl] at h3; exact absurd h3 (Stored.ne_ffff (storeValue_stored _).1)

theorem eraseUnused_ops (c : Cfg) (e : Env) (s : State) :
    (eraseUnused c e s).2 = [] ∨ ∃ o, (eraseUnused c e s).2 = [o] := by
  unfold eraseUnused
  split <;> (simp only; split) <;> (try split) <;> simp

theorem prefix_single {α : Type} {a b : List α} {x : α} (h : a ++ b = [x]) : a = [] ∨ a = [x] := by
  cases a with
  | nil => exact Or.inl rfl
  | cons y ys =>
    simp only [List.cons_append, List.cons.injEq, List.append_eq_nil_iff] at h
    exact Or.inr (by rw [h.1, h.2.1])

/-- A power loss inside a store leaves the old or the new value in the memory. -/
theorem crash_mem {c : Cfg} {n : Nat} {s : Sys} {e : Env} {m' : Mem} (hs : c.sector = 8 * n) (hn : 2 ≤ n)
    (h : Inv c n s) (hc : CrashMem (store c s.mem e s.state).ops s.mem m') :
    MemInv c n m' s.saved ∨ MemInv c n m' s.state.nv := by
  have hfin := (store_inv hs hn h e).memInv
  generalize hops : (store c s.mem e s.state).ops = ops at hc
  cases hc with
  | cut done rest =>
  rcases store_cases h e with ⟨_, h2, _⟩ | ⟨hne, hb, h3⟩ | ⟨h1, h2, h3⟩
  · rw [h2] at hops
    have hd : done = [] := (List.append_eq_nil_iff.mp hops.symm).1
    subst hd
    exact Or.inl h.memInv
  · obtain ⟨cur, ha, hp⟩ := h.pos
    obtain ⟨w1, w2, w3⟩ := write_mab hs hn ha h.1 hp hb (storeValue_stored s.state)
    have e1 := nextAddr_eq hs ha
    rw [← e1] at w1
    have hmid : MemInv c n (program s.mem (nextAddr c s.state) (entryOf (storeValue s.state)).bytes) s.state.nv :=
      Or.inl ⟨_, _, w1, settings_storeValue s.state⟩
    rw [h3] at hfin hops
    simp only [if_true] at hfin hops
    cases done with
    | nil => exact Or.inl h.memInv
    | cons d ds =>
      simp only [List.cons_append, List.cons.injEq] at hops
      obtain ⟨hd, hds⟩ := hops
      subst hd
      right
      rcases eraseUnused_ops c e { s.state with lastNv := storeValue s.state, storeAddr := nextAddr c s.state }
        with ho | ⟨o, ho⟩
      · rw [ho] at hds
        have : ds = [] := (List.append_eq_nil_iff.mp hds.symm).1
        subst this
        exact hmid
      · rw [ho] at hds hfin
        rcases prefix_single hds.symm with hd | hd
        · subst hd; exact hmid
        · subst hd; exact hfin
  · rw [h1] at hops
    rcases eraseUnused_ops c e s.state with ho | ⟨o, ho⟩
    · rw [ho] at hops
      have hd : done = [] := (List.append_eq_nil_iff.mp hops.symm).1
      subst hd
      exact Or.inl h.memInv
    · rw [ho] at hops
      rcases prefix_single hops.symm with hd | hd
      · subst hd; exact Or.inl h.memInv
      · subst hd
        rw [h1, ho] at hfin
        split at hfin
        · exact Or.inr hfin
        · exact Or.inl hfin

theorem Cfg.WF.sector_eq {c : Cfg} (h : c.WF) : c.sector = 8 * (c.sector / 8) ∧ 2 ≤ c.sector / 8 := by
  have h1 := h.whole
  have h2 := h.two
  omega

theorem vol_keep {a b : BitVec 8} (h : a &&& 0xc0 = b &&& 0xc0) :
    a &&& SECTOR_1_BLANK = b &&& SECTOR_1_BLANK ∧ a &&& SECTOR_2_BLANK = b &&& SECTOR_2_BLANK := by
  have h1 : ∀ x : BitVec 8, x &&& SECTOR_1_BLANK = (x &&& 0xc0) &&& SECTOR_1_BLANK ∧
      x &&& SECTOR_2_BLANK = (x &&& 0xc0) &&& SECTOR_2_BLANK := by decide +kernel
  rw [(h1 a).1, (h1 b).1, (h1 a).2, (h1 b).2, h]
  exact ⟨rfl, rfl⟩

/-- Every history keeps the invariant. -/
theorem reach_inv {c : Cfg} (hw : c.WF) {s : Sys} (h : Reach c s) : Inv c (c.sector / 8) s := by
  obtain ⟨hs, hn⟩ := hw.sector_eq
  induction h with
  | start m e blank ok =>
    refine (boot_inv hs hn (Or.inr ⟨⟨?_, ?_⟩, rfl⟩) ok).1
    · intro j hj; exact blank _ (by omega) (by omega)
    · intro j hj; exact blank _ (by omega) (by omega)
  | change s nv vol _ keep ih =>
    obtain ⟨k1, k2⟩ := vol_keep keep
    refine ⟨⟨fun h => ih.1.1 (by rw [← k1]; exact h), fun h => ih.1.2 (by rw [← k2]; exact h)⟩, ?_⟩
    rcases ih.2 with ⟨cur, v, h1, h2, h3, h4⟩ | ⟨h1, h2, h3, h4, h5, h6⟩
    · exact Or.inl ⟨cur, v, h1, h2, h3, h4⟩
    · exact Or.inr ⟨h1, h2, by rw [← k1] at h3; exact h3, h4, h5, h6⟩
  | store s e _ ih => exact store_inv hs hn ih e
  | reboot s e _ ok ih => exact (boot_inv hs hn ih.memInv ok).1
  | crash s e e' m' _ cut ok ih =>
    rcases crash_mem hs hn ih cut with hm | hm
    · obtain ⟨b1, b2⟩ := boot_inv hs hn hm ok
      have hb := b1.memInv
      refine ⟨b1.1, ?_⟩
      rcases b1.2 with ⟨cur, v, h1, h2, h3, h4⟩ | ⟨h1, h2, h3, h4, h5, h6⟩
      · exact Or.inl ⟨cur, v, h1, h2, h3, h4.trans b2.symm⟩
      · exact Or.inr ⟨h1, h2, h3, h4, h5, b2.trans h6⟩
    · obtain ⟨b1, b2⟩ := boot_inv hs hn hm ok
      refine ⟨b1.1, ?_⟩
      rcases b1.2 with ⟨cur, v, h1, h2, h3, h4⟩ | ⟨h1, h2, h3, h4, h5, h6⟩
      · exact Or.inl ⟨cur, v, h1, h2, h3, h4.trans b2.symm⟩
      · exact Or.inr ⟨h1, h2, h3, h4, h5, b2.trans h6⟩

end Verif.StateManager
