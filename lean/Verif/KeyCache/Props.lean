import Verif.KeyCache.Hist
/-! Properties C32 and C33. -/
namespace Verif.KeyCache

/-- A cache set up on a store with enough sectors. -/
structure Setup (c : Cfg) (s : State) (f : Store) (scans : List Scan) : Prop where
  made : init c c.sectors = .ok s
  scanned : scans.length = c.sectors
  ids : c.sectors ≤ 1024

theorem Setup.sizes {c : Cfg} {s : State} {f : Store} {scans : List Scan} (h : Setup c s f scans) :
    0 < c.requestors ∧ 0 < c.credits ∧ c.keys ≤ c.sectors ∧ s.info.length = c.sectors ∧ s.credit.length = c.requestors ∧ s.err = false := by
  have := h.made
  unfold init at this
  split at this
  · cases this
  split at this
  · cases this
  split at this
  · cases this
  simp only [Except.ok.injEq] at this
  subst this
  refine ⟨by omega, by omega, by omega, by simp, by simp, rfl⟩

/-- C32, first part: whatever the flash does, a cache that came up without error behaves as a bounded FIFO for every sequence of calls: keys
are handed out in the order they were stored, and never more than the capacity are held. -/
theorem session_fifo {c : Cfg} {s : State} {f : Store} {scans : List Scan} (h : Setup c s f scans)
    (he : (initCache c s f scans).1.err = false) :
    ∃ Q, Q.length ≤ c.requestors * c.credits ∧ (∀ k ∈ Q, ∃ i, (initCache c s f scans).2 i = some k) ∧
      ∀ ops, Allowed (c.requestors * c.credits) (some Q) ops (results c (initCache c s f scans).1 (initCache c s f scans).2 ops) := by
  obtain ⟨h1, _, h2, h3, h4, _⟩ := h.sizes
  obtain ⟨Q, hQ⟩ := init_inv h1 h2 h.ids h.scanned h3 h4 he
  refine ⟨Q, ?_, fun k hk => ?_, fun ops => ?_⟩
  · have := hQ.bound; unfold Cfg.keys at this; omega
  · obtain ⟨n, hn, rfl⟩ := List.getElem_of_mem hk
    refine ⟨_, (hQ.occ n hn).2.trans ?_⟩
    rw [getElem!_pos Q n hn]
  · exact inv_allowed ops _ _ Q hQ

/-- C32, second part, within one session: what is handed out is a subsequence of the keys found and the keys accepted; so no stored key
comes out twice, however erasing and writing fails. -/
theorem session_once {c : Cfg} {s : State} {f : Store} {scans : List Scan} (h : Setup c s f scans)
    (he : (initCache c s f scans).1.err = false) :
    ∃ Q, (∀ k ∈ Q, ∃ i, (initCache c s f scans).2 i = some k) ∧
      ∀ ops, (handed (results c (initCache c s f scans).1 (initCache c s f scans).2 ops)).Sublist
        (Q ++ accepted ops (results c (initCache c s f scans).1 (initCache c s f scans).2 ops)) := by
  obtain ⟨Q, _, h1, h2⟩ := session_fifo h he
  exact ⟨Q, h1, fun ops => allowed_handed ops _ Q (h2 ops)⟩

/-- C32, third part: over the whole life of the device, with any number of new scans and resets, no key is handed out twice, provided
erasing works, keys offered are new, and the flash did not start with copies. The missing part is erasing that fails: see `handed_twice`. -/
theorem handed_once_partial {c : Cfg} (s : State) (f : Store) (evs : List Event) (hrel : ∀ e ∈ evs, e.reliable) (hf : Distinct f)
    (hnew : (offered evs).Nodup) (hfresh : ∀ k ∈ offered evs, ∀ i, f i ≠ some k) : (lifeHanded c s f evs).Nodup := by
  have := life_nodup c evs s f [] hrel hf (by simp) (by simp) hnew (fun k hk => ⟨by simp, hfresh k hk⟩)
  simpa using this

def cfg2 : Cfg := ⟨3, 1, 2⟩
def empty : Store := fun _ => none
def okScan : Scan := ⟨true, .ok⟩
def start (c : Cfg) : State := ⟨List.replicate c.sectors ⟨.invalid, 0, 0⟩, List.replicate c.requestors 0, 0, 0, 0, false, false⟩

example : Setup cfg2 (start cfg2) empty [okScan, okScan, okScan] := ⟨rfl, rfl, by decide⟩
example : (initCache cfg2 (start cfg2) empty [okScan, okScan, okScan]).1.err = false := by decide +kernel

/-- A session with two keys going in and coming out again in order. -/
example : results cfg2 (initCache cfg2 (start cfg2) empty [okScan, okScan, okScan]).1 empty
    [.add [1] [.ok], .add [2] [.ok], .remove 0 true .ok, .remove 0 true .ok, .remove 0 true .ok] =
    [.added, .added, .got [1], .got [2], .failed .queueEmpty] := by decide +kernel

/-- A life the third part applies to. -/
example : lifeHanded cfg2 (start cfg2) empty
    [.restart [okScan, okScan, okScan], .call (.add [1] [.fail none, .ok]), .call (.add [2] [.ok]), .call (.remove 0 true .ok),
     .restart [okScan, okScan, okScan], .call (.remove 0 true .ok), .call (.remove 0 true .ok)] = [[1], [2]] := by decide +kernel

/-- Disagreement: an erase that fails when a key is removed does not stop the key from being returned; with no spare sector the cache
goes out of service, the next scan (which the key manager starts at once) finds the key again, and it is handed out a second time. -/
theorem handed_twice : lifeHanded cfg2 (start cfg2) empty
    [.restart [okScan, okScan, okScan], .call (.add [1] [.ok]), .call (.remove 0 true (.fail (some [1]))),
     .rescan [okScan, okScan, okScan], .call (.remove 0 true .ok)] = [[1], [1]] := by decide +kernel

/-- The same with spare sectors, over a reset. -/
theorem handed_twice_reset : lifeHanded ⟨6, 1, 2⟩ (start ⟨6, 1, 2⟩) empty
    [.restart (List.replicate 6 okScan), .call (.add [1] [.ok]), .call (.remove 0 true (.fail (some [1]))),
     .restart (List.replicate 6 okScan), .call (.remove 0 true .ok)] = [[1], [1]] := by decide +kernel

/-- Disagreement: adding to a full cache takes it out of service instead of reporting that it is full, once a key was removed: the free
slot between the ends of the queue belongs to no requestor, and this is checked before the queue is checked to be full. -/
theorem full_add_stops : results cfg2 (initCache cfg2 (start cfg2) empty [okScan, okScan, okScan]).1 empty
    [.add [1] [.ok], .add [2] [.ok], .add [3] [.ok], .remove 0 true .ok, .add [3] [.ok], .add [4] [.ok], .remove 0 true .ok] =
    [.added, .added, .failed .queueFull, .got [1], .added, .failed .memoryCorrupted, .failed .notInitialized] := by decide +kernel

/-- Disagreement: the sector number has ten bits; sector 1024 is recorded as sector 0. -/
theorem ids_wrap (f : Store) : ((scanAll f 0 (List.replicate 1025 okScan)).2[1024]!).phys = ((scanAll f 0 (List.replicate 1025 okScan)).2[0]!).phys := by
  obtain ⟨_, _, h⟩ := scan_spec (List.replicate 1025 okScan) f 0
  rw [(h 1024 (by rw [List.length_replicate]; decide)).1, (h 0 (by rw [List.length_replicate]; decide)).1]

/-! ### C33 -/

theorem usable_bounds {c : Cfg} {s : State} {f : Store} {scans : List Scan} (h : Setup c s f scans) :
    ∃ high, (initCache c s f scans).1.err = decide (high + 1 < c.keys) ∧ high ≤ usableCount f 0 scans ∧ usableCount f 0 scans ≤ high + 1 := by
  obtain ⟨h1, _, h2, h3, h4, h5⟩ := h.sizes
  obtain ⟨a1, a2, a3, a4, low, high, b1, b2, b3, b4, b5, b6, b7, b8, b9, b10, b11⟩ := initCache_spec c s f scans h1 h2 h.ids h.scanned h3 h4
  refine ⟨high, by rw [b3, h5, Bool.false_or], ?_⟩
  rw [usableCount_eq, ← b6.countP_eq]
  refine countP_split _ high (by omega) (fun i hi => ?_) (fun i hi1 hi2 => b9 i hi1 (by omega))
  rcases Nat.lt_or_ge i low with hl | hl
  · rw [b7 i hl]; simp
  · rw [b8 i hl hi]; simp

/-- C33, for every pattern of sectors: with two usable sectors too few (or more) the cache reports an error. The full statement has `<` for
`usableCount + 1 <`; the missing case is that exactly one sector too few is usable, see `one_short`. -/
theorem few_usable_partial {c : Cfg} {s : State} {f : Store} {scans : List Scan} (h : Setup c s f scans)
    (hu : usableCount f 0 scans + 1 < c.keys) : (initCache c s f scans).1.err = true := by
  obtain ⟨high, e, h1, h2⟩ := usable_bounds h
  rw [e, decide_eq_true_iff]; omega

/-- There are no false alarms. -/
theorem error_means_few {c : Cfg} {s : State} {f : Store} {scans : List Scan} (h : Setup c s f scans)
    (he : (initCache c s f scans).1.err = true) : usableCount f 0 scans < c.keys := by
  obtain ⟨high, e, h1, h2⟩ := usable_bounds h
  rw [e, decide_eq_true_iff] at he; omega

/-- A cache in error does nothing, for every sequence of calls. -/
theorem error_refuses {c : Cfg} {s : State} (f : Store) (op : Op) (he : s.err = true) :
    (step c s f op).1 = s ∧ (step c s f op).2.1 = f ∧ ∃ e, (step c s f op).2.2 = .failed e := by
  cases hi : s.inited with
  | false => obtain ⟨e, h1, h2, h3⟩ := step_dead (c := c) f op hi; exact ⟨h2, h3, e, h1⟩
  | true =>
    cases op with
    | add key outs => by_cases hk : key.length = 0 <;> simp [step, add, hk, hi, he]
    | remove r readable er => simp [step, remove, hi, he]

/-- Two sectors of three are unusable: this is reported. -/
example : Setup cfg2 (start cfg2) empty [okScan, ⟨true, .fail none⟩, ⟨true, .fail none⟩] ∧
    usableCount empty 0 [okScan, ⟨true, .fail none⟩, ⟨true, .fail none⟩] + 1 < cfg2.keys := ⟨⟨rfl, rfl, by decide⟩, by decide +kernel⟩

/-- Disagreement: two of the three sectors needed are usable, the third is corrupted, and no error is reported: the last sector the
arrangement comes to is never looked at. -/
theorem one_short : Setup cfg2 (start cfg2) empty [okScan, okScan, ⟨true, .fail none⟩] ∧
    usableCount empty 0 [okScan, okScan, ⟨true, .fail none⟩] < cfg2.keys ∧
    (initCache cfg2 (start cfg2) empty [okScan, okScan, ⟨true, .fail none⟩]).1.err = false :=
  ⟨⟨rfl, rfl, by decide⟩, by decide +kernel, by decide +kernel⟩

end Verif.KeyCache
