import Verif.StateManager.Inv
/-!
C24 and C25: reading damaged entries, and histories of stores, reboots and power losses.
-/
namespace Verif.StateManager

theorem Lay.congr {c : Cfg} {m m' : Mem} {n cur : Nat} {v : BitVec 16} (hn : 2 ≤ n) (h : Lay c m n cur v)
    (he : ∀ i, i < 2 * n → i ≤ cur + 1 → (vt c m' i).nv = (vt c m i).nv) : Lay c m' n cur v := by
  obtain ⟨h1, h2⟩ := h
  rcases h2 with ⟨a, b, d⟩ | ⟨a, b, d, f, g⟩
  · refine ⟨by rw [he cur (by omega) (by omega), h1], Or.inl ⟨a, ?_, ?_⟩⟩
    · intro i hi; rw [he i (by omega) (by omega)]; exact b i hi
    · rw [he _ (by omega) (by omega)]; exact d
  · refine ⟨by rw [he cur (by omega) (by omega), h1], Or.inr ⟨a, b, ?_, ?_, ?_⟩⟩
    · rcases d with d | d
      · exact Or.inl (by rw [he 0 (by omega) (by omega)]; exact d)
      · exact Or.inr (fun i hi => by rw [he i (by omega) (by omega)]; exact d i hi)
    · intro i h3 h4; rw [he i (by omega) (by omega)]; exact f i h3 h4
    · rcases g with g | g
      · exact Or.inl g
      · by_cases hx : cur + 1 = 2 * n
        · exact Or.inl hx
        · exact Or.inr (by rw [he _ (by omega) (by omega)]; exact g)

theorem boot_lay_settings {c : Cfg} {m : Mem} {n cur : Nat} {v : BitVec 16} (hs : c.sector = 8 * n)
    (hn : 2 ≤ n) (ha : c.base % c.sector = 0) (h : Lay c m n cur v) :
    (initState c m .good).status = .ok ∧ (initState c m .good).state.nv = v := by
  have ok : (initState c m .good).status = .ok := boot_lay_ok hs h ha rfl rfl
  refine ⟨ok, ?_⟩
  rw [(boot_lay hs hn h ok).2, initFinish_nv]

theorem boot_empty_ok {c : Cfg} {m : Mem} {n : Nat} (hs : c.sector = 8 * n) (ha : c.base % c.sector = 0)
    (h1 : (vt c m 0).nv = 0xffff) (h2 : (vt c m n).nv = 0xffff) :
    (initState c m .good).status = .ok ∧ (initState c m .good).state.nv = 0xffff := by
  have e3 : rdEntry m (c.base + c.sector) = ent c m n := by rw [hs]; rfl
  have g1 : (readStateBits (ent c m 0)).nv = 0xffff := h1
  have g2 : (readStateBits (ent c m n)).nv = 0xffff := h2
  unfold initState
  simp only [ent_zero, e3, g1, g2]
  rw [if_neg (by decide), if_neg (by simp [ha]), if_neg (by decide), if_neg (by decide), if_pos (by decide)]
  exact ⟨rfl, rfl⟩

theorem vt_damaged {c : Cfg} {m m' : Mem} {i : Nat} (hi : 8 * i < c.sector * 2) (hd : DamagedMem c m m')
    (hc : Clean c m i ∨ Blank c m i) : (vt c m' i).nv = (vt c m i).nv := by
  rcases hd i hi with h | ⟨v, h1, h2⟩
  · have : ent c m' i = ent c m i := h
    rw [vt, vt, this]
  · have h1 : ent c m i = entryOf v := h1
    rcases hc with ⟨x, hx, he⟩ | hb
    · rw [he] at h1
      have hv : x = v := congrArg Entry.w0 h1
      subst hv
      rw [vt, vt, he, read_clean x hx]
      exact read_damaged x hx _ h2
    · rw [hb.ent] at h1
      have : (0xffff : BitVec 16) = 0 := congrArg Entry.w3 h1
      exact absurd this (by decide)

theorem MAB.relevant {c : Cfg} {m : Mem} {n cur : Nat} {v : BitVec 16} (h : MAB c m n cur v) :
    ∀ i, i < 2 * n → i ≤ cur + 1 → Clean c m i ∨ Blank c m i := by
  intro i hi hc
  rcases h with h | h
  · by_cases h1 : i ≤ cur
    · exact Or.inl (h.old i h1)
    · by_cases h2 : cur + 1 = n
      · have : i = n := by omega
        subst this; exact Or.inr (h.next h2)
      · have := h.lt
        exact Or.inr (h.free i (by omega) (by omega))
  · by_cases h1 : i < n
    · rcases h.first with g | g
      · exact Or.inr (g i h1)
      · exact Or.inl (g i h1)
    · by_cases h2 : i ≤ cur
      · exact Or.inl (h.old i (by omega) h2)
      · exact Or.inr (h.free i (by omega) (by omega))

/-- **C24.** A stored entry whose copies are damaged, with at most one bad copy for each bit, reads
as the value that was stored. Bit 6 is clear and bit 7 is set in every value the store writes. -/
theorem damaged_entry_reads_back (v : BitVec 16) (h6 : v.getLsbD 6 = false) (h7 : v.getLsbD 7 = true)
    (d : Entry) (hd : DamagedCopies v d) : (readStateBits d).nv = v :=
  read_damaged v ⟨h6, h7⟩ d hd

example : DamagedCopies 0x1281 ⟨0x1280, 0x12c1, 0xf201, 0x5555⟩ := by
  unfold DamagedCopies; decide

/-- **C24.** However the device got to where it is: if the flash is damaged with at most one bad
copy for each bit, the next boot restores the settings that were saved. -/
theorem boot_outvotes_damage (c : Cfg) (hw : c.WF) (s : Sys) (hr : Reach c s) (m' : Mem)
    (hd : DamagedMem c s.mem m') :
    (initState c m' .good).status = .ok ∧
    settings (initState c m' .good).state.nv = settings s.saved := by
  obtain ⟨hs, hn⟩ := hw.sector_eq
  have hi := (reach_inv hw hr).memInv
  rcases hi with ⟨cur, v, hm, hv⟩ | ⟨⟨b1, b2⟩, hv⟩
  · have hl : Lay c m' (c.sector / 8) cur v := (hm.lay hn).congr hn (fun i h1 h2 =>
      vt_damaged (by omega) hd (hm.relevant i h1 h2))
    obtain ⟨r1, r2⟩ := boot_lay_settings hs hn hw.aligned hl
    exact ⟨r1, by rw [r2, hv]⟩
  · have := boot_empty_ok hs hw.aligned (m := m')
      (by rw [vt_damaged (by omega) hd (Or.inr b1), b1.vt])
      (by rw [vt_damaged (by omega) hd (Or.inr b2), b2.vt])
    exact ⟨this.1, by rw [this.2, hv]⟩

/-- **C25**, without a power loss: in every history of changes, stores, failing flash drivers,
reboots and power losses between flash operations, the next boot restores exactly the settings of
the last successful store (`saved`). `_partial`: see `crash_old_or_new_partial`. -/
theorem boot_restores_partial (c : Cfg) (hw : c.WF) (s : Sys) (hr : Reach c s) :
    (initState c s.mem .good).status = .ok ∧
    settings (initState c s.mem .good).state.nv = settings s.saved :=
  boot_outvotes_damage c hw s hr s.mem (fun _ _ => Or.inl rfl)

/-- **C25**, power loss: if power is lost between any two flash operations of a store, the next boot
restores the previously saved settings or the ones being stored. `_partial`: a power loss *inside* a
flash operation is not covered here. For a torn write see `torn_write_partial`; that the full
property is false of the code is `torn_write_loses_state`, `torn_erase_restores_stale_state` and
`refresh_erase_failure_loses_state`. -/
theorem crash_old_or_new_partial (c : Cfg) (hw : c.WF) (s : Sys) (hr : Reach c s) (e : Env) (m' : Mem)
    (hc : CrashMem (store c s.mem e s.state).ops s.mem m') :
    (initState c m' .good).status = .ok ∧
    (settings (initState c m' .good).state.nv = settings s.saved ∨
     settings (initState c m' .good).state.nv = settings s.state.nv) := by
  obtain ⟨hs, hn⟩ := hw.sector_eq
  have key : ∀ w, MemInv c (c.sector / 8) m' w → (initState c m' .good).status = .ok ∧
      settings (initState c m' .good).state.nv = settings w := by
    intro w hm
    rcases hm with ⟨cur, v, hm, hv⟩ | ⟨⟨b1, b2⟩, hv⟩
    · obtain ⟨r1, r2⟩ := boot_lay_settings hs hn hw.aligned (hm.lay hn)
      exact ⟨r1, by rw [r2, hv]⟩
    · have := boot_empty_ok hs hw.aligned (m := m') (by rw [b1.vt]) (by rw [b2.vt])
      exact ⟨this.1, by rw [this.2, hv]⟩
  rcases crash_mem hs hn (reach_inv hw hr) hc with h | h
  · exact ⟨(key _ h).1, Or.inl (key _ h).2⟩
  · exact ⟨(key _ h).1, Or.inr (key _ h).2⟩

theorem torn_words {c : Cfg} {m : Mem} {i k : Nat} (v : BitVec 16) (hb : Blank c m i) (hk : 4 ≤ k) :
    (ent c (program m (c.base + 8 * i) ((entryOf v).bytes.take k)) i).w0 = v ∧
    (ent c (program m (c.base + 8 * i) ((entryOf v).bytes.take k)) i).w1 = v := by
  have hlen : ((entryOf v).bytes.take k).length = min k 8 := by
    rw [List.length_take, bytes_length]
  have hp : ∀ j, j < 4 → program m (c.base + 8 * i) ((entryOf v).bytes.take k) (c.base + 8 * i + j) =
      (entryOf v).bytes.getD j 0xff := by
    intro j hj
    unfold program
    rw [if_pos ⟨by omega, by rw [hlen]; omega⟩, hb j (by omega),
      show c.base + 8 * i + j - (c.base + 8 * i) = j by omega, and_ff, List.getD_eq_getElem?_getD,
      List.getD_eq_getElem?_getD, List.getElem?_take, if_pos (by omega)]
  revert hp
  generalize program m (c.base + 8 * i) ((entryOf v).bytes.take k) = P
  intro hp
  have h0 := hp 0 (by omega)
  have h1 := hp 1 (by omega)
  have h2 := hp 2 (by omega)
  have h3 := hp 3 (by omega)
  simp only [Nat.add_zero] at h0
  simp only [StateManager.ent, rdEntry, rdWord, Nat.add_assoc, Nat.reduceAdd] at *
  simp only [h0, h1, h2, h3, Entry.bytes, wordBytes, entryOf, List.cons_append, List.nil_append,
    List.getD_cons_zero, List.getD_cons_succ]
  exact ⟨rdWord_wordBytes v, rdWord_wordBytes v⟩

/-- **C25**, power loss inside the write of an entry: if at least half of the entry was programmed,
the next boot restores the new settings. `_partial`: with fewer bytes it is false, see
`torn_write_loses_state`. -/
theorem torn_write_partial (c : Cfg) (hw : c.WF) (s : Sys) (hr : Reach c s) (e : Env) (a : Nat)
    (d : Bytes) (rest : List FlashOp) (hops : (store c s.mem e s.state).ops = .write a d :: rest)
    (k : Nat) (hk : 4 ≤ k) :
    (initState c (program s.mem a (d.take k)) .good).status = .ok ∧
    settings (initState c (program s.mem a (d.take k)) .good).state.nv = settings s.state.nv := by
  obtain ⟨hs, hn⟩ := hw.sector_eq
  have hi := reach_inv hw hr
  rcases store_cases hi e with ⟨_, h2, _⟩ | ⟨hne, hb, h3⟩ | ⟨h1, _, _⟩
  · rw [h2] at hops; cases hops
  · obtain ⟨cur, ha, hp⟩ := hi.pos
    have e1 := nextAddr_eq hs ha
    rw [h3, e1] at hops
    simp only [List.cons.injEq, FlashOp.write.injEq] at hops
    obtain ⟨⟨hA, hD⟩, _⟩ := hops
    subst hA hD
    have hbl := write_blank hs hn ha hi.1 hp hb
    have hfull := ent_program_eq (c := c) (m := s.mem) (entryOf (storeValue s.state)) hbl
    obtain ⟨w1, w2, w3⟩ := write_mab hs hn ha hi.1 hp hb (storeValue_stored s.state)
    have hlen : (entryOf (storeValue s.state)).bytes.length ≤ 8 := by rw [bytes_length]; omega
    have hlenk : ((entryOf (storeValue s.state)).bytes.take k).length ≤ 8 := by
      rw [List.length_take, bytes_length]; omega
    have hl := (w1.lay hn).congr hn (m' := program s.mem (c.base + 8 * nextSlot (c.sector / 8) cur)
        ((entryOf (storeValue s.state)).bytes.take k)) (by
      intro i h1 h2
      by_cases hx : i = nextSlot (c.sector / 8) cur
      · subst hx
        rw [vt, vt, hfull, read_clean _ (storeValue_stored _)]
        obtain ⟨t0, t1⟩ := torn_words (c := c) (storeValue s.state) hbl hk
        exact read_damaged _ (storeValue_stored _) _ (fun j _ => Or.inr (Or.inr ⟨by rw [t0], by rw [t1]⟩))
      · rw [vt, vt, ent_program_ne _ hlenk (Ne.symm hx), ent_program_ne _ hlen (Ne.symm hx)])
    obtain ⟨r1, r2⟩ := boot_lay_settings hs hn hw.aligned hl
    exact ⟨r1, by rw [r2, settings_storeValue]⟩
  · rw [h1] at hops
    unfold eraseUnused at hops
    split at hops <;> (simp only at hops; split at hops) <;> (try split at hops) <;> simp at hops

theorem store_good_status {c : Cfg} {n : Nat} {s : Sys} (h : Inv c n s) :
    (store c s.mem .good s.state).status = .ok ∨
    ((store c s.mem .good s.state).status = .notBlank ∧ blankCheck c s.state = false ∧
      (store c s.mem .good s.state).state = (eraseUnused c .good s.state).1) := by
  have hv := verifyStored_inv h .good
  unfold store
  simp only [Env.good, Bool.not_true, Bool.false_eq_true, if_false, if_true] at hv ⊢
  rw [hv.1]
  by_cases hc : storeValue s.state = s.state.lastNv
  · left
    simp only [hc, ne_eq, not_true_eq_false, if_false]
    unfold verifyStored
    rw [if_pos hc]
    simp only [if_true]
    split
    · split <;> rfl
    · rfl
  · simp only [ne_eq, hc, not_false_eq_true, if_true]
    cases hb : blankCheck c s.state
    · right; simp
    · left; simp

theorem blankCheck_after {c : Cfg} {n cur : Nat} {s : State} (hs : c.sector = 8 * n) (hn : 2 ≤ n)
    (ha : s.storeAddr = c.base + 8 * cur) (hc : cur < 2 * n) :
    blankCheck c (eraseUnused c .good s).1 = true := by
  obtain ⟨v1, v2, v3, v4, v5, v6⟩ := vol_facts s.vol
  have orf : ∀ v : BitVec 8, (v ||| SECTOR_2_BLANK) &&& SECTOR_2_BLANK ≠ 0 ∧
      (v ||| SECTOR_1_BLANK) &&& SECTOR_1_BLANK ≠ 0 := by decide +kernel
  have key : (eraseUnused c .good s).1.storeAddr = s.storeAddr ∧
      (cur < n → (eraseUnused c .good s).1.vol &&& SECTOR_2_BLANK ≠ 0) ∧
      (n ≤ cur → (eraseUnused c .good s).1.vol &&& SECTOR_1_BLANK ≠ 0) := by
    unfold eraseUnused
    by_cases hcn : cur < n
    · rw [if_pos (by omega)]
      simp only [v2]
      by_cases hz : s.vol &&& SECTOR_2_BLANK = 0
      · rw [if_pos hz]
        exact ⟨rfl, fun _ => (orf _).1, fun h => by omega⟩
      · rw [if_neg hz]
        exact ⟨rfl, fun _ => by rw [v2]; exact hz, fun h => by omega⟩
    · rw [if_neg (by omega)]
      simp only [v4]
      by_cases hz : s.vol &&& SECTOR_1_BLANK = 0
      · rw [if_pos hz]
        exact ⟨rfl, fun h => by omega, fun _ => (orf _).2⟩
      · rw [if_neg hz]
        exact ⟨rfl, fun h => by omega, fun _ => by rw [v4]; exact hz⟩
  obtain ⟨k1, k2, k3⟩ := key
  have e1 := nextAddr_eq hs (s := (eraseUnused c .good s).1) (k1.trans ha)
  unfold blankCheck
  rw [e1]
  unfold nextSlot
  by_cases hcn : cur < n
  · have := k2 hcn
    simp only [this, and_false, if_false]
    rw [if_neg (by split <;> omega), if_neg (by split <;> omega)]
  · have := k3 (by omega)
    simp only [this, and_false, if_false]
    rw [if_neg (by split <;> omega), if_neg (by split <;> omega)]

/-- A refused store repairs what it was refused for: with a working flash driver a store reports
success or "not blank", and after "not blank" a second store succeeds. -/
theorem store_retry_succeeds (c : Cfg) (hw : c.WF) (s : Sys) (hr : Reach c s) :
    (store c s.mem .good s.state).status = .ok ∨
    ((store c s.mem .good s.state).status = .notBlank ∧
     (store c (applyOps (store c s.mem .good s.state).ops s.mem) .good
       (store c s.mem .good s.state).state).status = .ok) := by
  obtain ⟨hs, hn⟩ := hw.sector_eq
  have hi := reach_inv hw hr
  rcases store_good_status hi with h | ⟨h1, h2, h3⟩
  · exact Or.inl h
  · refine Or.inr ⟨h1, ?_⟩
    have hi2 := store_inv hs hn hi .good
    rcases store_good_status hi2 with h | ⟨_, g2, _⟩
    · exact h
    · exfalso
      obtain ⟨cur, ha, hp⟩ := hi.pos
      have hcl : cur < 2 * (c.sector / 8) := by
        rcases hp with ⟨v, hA | hB⟩ | ⟨hx, _⟩
        · have := hA.lt; omega
        · exact hB.lt
        · omega
      have g2 : blankCheck c (store c s.mem .good s.state).state = false := g2
      rw [h3, blankCheck_after hs hn ha hcl] at g2
      cases g2

/-! ## Concrete histories -/

/-- Two sectors of two entries. -/
def demoCfg : Cfg := ⟨0x1000, 16⟩

theorem demoCfg_wf : demoCfg.WF := ⟨by decide, by decide, by decide, by decide⟩

/-- An event of a concrete history. -/
inductive Ev where
  | set (nv : BitVec 16)
  | store (e : Env)
  | reboot

def Sys.step (c : Cfg) (s : Sys) : Ev → Sys
  | .set nv => ⟨s.mem, { s.state with nv := nv, vol := s.state.vol }, s.saved⟩
  | .store e => ⟨applyOps (StateManager.store c s.mem e s.state).ops s.mem,
      (StateManager.store c s.mem e s.state).state,
      if (StateManager.store c s.mem e s.state).status = .ok then s.state.nv else s.saved⟩
  | .reboot =>
    if (initState c s.mem .good).status = .ok then
      ⟨applyOps (initState c s.mem .good).ops s.mem, (initState c s.mem .good).state, s.saved⟩
    else s

def demoStart : Sys :=
  ⟨applyOps (initState demoCfg (fun _ => 0xff) .good).ops (fun _ => 0xff),
    (initState demoCfg (fun _ => 0xff) .good).state, 0xffff⟩

theorem reach_demoStart : Reach demoCfg demoStart :=
  Reach.start _ .good (fun _ _ _ => rfl) (by decide +kernel)

theorem reach_step {c : Cfg} {s : Sys} (h : Reach c s) (ev : Ev) : Reach c (s.step c ev) := by
  cases ev with
  | set nv => exact Reach.change s nv _ h rfl
  | store e => exact Reach.store s e h
  | reboot =>
    simp only [Sys.step]
    split
    · exact Reach.reboot s .good h (by assumption)
    · exact h

def demoRun (l : List Ev) : Sys := l.foldl (fun s e => s.step demoCfg e) demoStart

theorem reach_demoRun (l : List Ev) : Reach demoCfg (demoRun l) := by
  unfold demoRun
  have : ∀ s, Reach demoCfg s → Reach demoCfg (l.foldl (fun s e => s.step demoCfg e) s) := by
    induction l with
    | nil => intro s h; exact h
    | cons e es ih => intro s h; exact ih _ (reach_step h e)
  exact this _ reach_demoStart

/-- A history that goes around both sectors, with a failing erase and a refused store: the saved
settings are `0xfff0`, and that is what a boot restores. -/
example :
    let s := demoRun [.set 0xfffe, .store .good, .set 0xfffd, .store ⟨true, true, true, false⟩,
      .set 0xfffb, .store .good, .reboot, .set 0xfff7, .store .good, .store .good, .store .good,
      .set 0xfff0, .store .good, .store .good]
    s.saved = 0xfff0 ∧ s.state.storeAddr = 0x1000 ∧
    settings (initState demoCfg s.mem .good).state.nv = 0xfff0 ||| 0xc0 := by
  decide +kernel

/-- The system about to store `0xfffc` over `0xfffe`. -/
def demoTorn : Sys := demoRun [.set 0xfffe, .store .good, .set 0xfffc]

/-- **C25 is false of the code**, power loss inside a write: after the first two bytes of an entry
have been programmed, the entry counts as valid and the boot restores the default settings, which
are neither the saved ones nor the ones being stored. -/
theorem torn_write_loses_state :
    ∃ (c : Cfg) (s : Sys) (a : Nat) (d : Bytes) (rest : List FlashOp), c.WF ∧ Reach c s ∧
      (store c s.mem .good s.state).ops = .write a d :: rest ∧
      (initState c (program s.mem a (d.take 2)) .good).status = .ok ∧
      settings (initState c (program s.mem a (d.take 2)) .good).state.nv ≠ settings s.saved ∧
      settings (initState c (program s.mem a (d.take 2)) .good).state.nv ≠ settings s.state.nv :=
  ⟨demoCfg, demoTorn, 0x1008, (entryOf (storeValue demoTorn.state)).bytes, [], demoCfg_wf,
    reach_demoRun _, by decide +kernel, by decide +kernel, by decide +kernel, by decide +kernel⟩

/-- The system about to move to the second sector: the first is full. -/
def demoFull : Sys := demoRun [.set 0xfffe, .store .good, .set 0xfffd, .store .good, .set 0xfffb]

/-- Power was lost while the full first sector was being erased: only its second entry is gone. -/
def demoHalfErased : Mem := fun i =>
  if 0x1008 ≤ i ∧ i < 0x1010 then 0xff
  else (program demoFull.mem 0x1010 (entryOf (storeValue demoFull.state)).bytes) i

/-- **C25 is false of the code**, power loss inside the erase that follows a write: the boot can
restore settings that are older than the saved ones (here `0xfffe`, although `0xfffd` was saved and
`0xfffb` was being stored). -/
theorem torn_erase_restores_stale_state :
    ∃ (c : Cfg) (s : Sys) (a : Nat) (d : Bytes) (b len : Nat) (m' : Mem), c.WF ∧ Reach c s ∧
      (store c s.mem .good s.state).ops = [.write a d, .erase b len] ∧
      PartlyErased b len (program s.mem a d) m' ∧
      (initState c m' .good).status = .ok ∧
      settings (initState c m' .good).state.nv ≠ settings s.saved ∧
      settings (initState c m' .good).state.nv ≠ settings s.state.nv := by
  refine ⟨demoCfg, demoFull, 0x1010, (entryOf (storeValue demoFull.state)).bytes, 0x1000, 16,
    demoHalfErased, demoCfg_wf, reach_demoRun _, by decide +kernel, ?_, by decide +kernel,
    by decide +kernel, by decide +kernel⟩
  intro i
  unfold demoHalfErased
  have h1 : ∀ b : UInt8, 0xff ||| b = 0xff := by decide +kernel
  have h2 : ∀ b : UInt8, b ||| b = b := by decide +kernel
  split
  · split
    · exact h1 _
    · exact h2 _
  · split
    · omega
    · rfl

/-- One damaged bit: the format mark in the first copy of the entry at `0x1000`. -/
def demoDamaged : Mem := fun i =>
  if i = 0x1000 then 0xfe else (demoRun [.set 0xfffe, .store .good]).mem i

/-- **C25 is false of the code** when a bit of the newest entry is damaged and an erase fails: the
store of `0xfffc` reports success, but the next boot restores the old settings. (The entry goes to
the other sector, and the old sector, which a boot looks at first, could not be erased: that failure
is only logged.) -/
theorem refresh_erase_failure_loses_state :
    DamagedMem demoCfg (demoRun [.set 0xfffe, .store .good]).mem demoDamaged ∧
    ∃ s0 s1 s2 s3 : Sys,
      s0 = ⟨demoDamaged, (initState demoCfg demoDamaged .good).state, 0xfffe⟩ ∧
      s1 = s0.step demoCfg (.set 0xfffc) ∧
      s2 = s1.step demoCfg (.store .good) ∧
      s3 = s2.step demoCfg (.store ⟨true, true, true, false⟩) ∧
      (store demoCfg s2.mem ⟨true, true, true, false⟩ s2.state).status = .ok ∧
      s3.saved = 0xfffc ∧
      settings (initState demoCfg s3.mem .good).state.nv = 0xfffe := by
  refine ⟨?_, _, _, _, _, rfl, rfl, rfl, rfl, by decide +kernel, by decide +kernel, by decide +kernel⟩
  intro i hi
  have : i = 0 ∨ i = 1 ∨ i = 2 ∨ i = 3 := by
    have : demoCfg.sector = 16 := rfl
    omega
  rcases this with rfl | rfl | rfl | rfl
  · refine Or.inr ⟨0xffbe, by decide +kernel, ?_⟩
    unfold DamagedCopies
    decide +kernel
  · exact Or.inl (by decide +kernel)
  · exact Or.inl (by decide +kernel)
  · exact Or.inl (by decide +kernel)

end Verif.StateManager
