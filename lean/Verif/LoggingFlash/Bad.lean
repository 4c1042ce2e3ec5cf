import Verif.LoggingFlash.Props
/-! Cases in which the log is not as expected, and examples. -/
namespace Verif.LoggingFlash
open Spec

/-- An empty log. -/
def start : St := { flash := fun _ => blank, addr := 0, nextId := 0, remain := 4096, used := fun _ => 0, start := 0 }

theorem start_eq : init (fun _ => blank) = start := by
  obtain ⟨w, w0, w1, w2, w3, w4⟩ := phase_blank (flash := fun _ => blank) 16 0 {} (fun _ _ => rfl) (.inr ⟨rfl, rfl⟩) (by decide)
  unfold init
  rw [scanAll_eq, w0]
  dsimp only
  rw [w1, w2, w3, w4]
  rfl

def works (n : Nat) : Io := { erase := true, write := some n, programmed := n }
def torn (n : Nat) : Io := { erase := true, write := none, programmed := n }

/-! ### Reading while half of the end mark is written -/

def half1 : St := (create start [1] (works 0)).2
/-- The end mark of the sector is written but for its last three bytes. -/
def half2 : St := (create half1 (List.replicate 4089 2) (works 12)).2

set_option maxRecDepth 100000 in
/-- **C91, reading.** After an incomplete write of the end of a sector, reading the log reads beyond
the entry buffer. -/
theorem read_half_end_mark : Honest (works 0) (terminate start) ∧ Honest (works 12) (terminate half1) ∧ Half half2 ∧ ∀ o n, readContents half2 o n = none := by
  have h : Half half2 := by unfold Half; decide_cbv
  refine ⟨?_, ?_, h, fun o n => by unfold readContents; exact if_pos h⟩
  · rintro n ⟨⟩
    exact ⟨Nat.le_refl _, Nat.zero_le _⟩
  · rintro n ⟨⟩
    exact ⟨Nat.le_refl _, by decide_cbv⟩

/-! ### Power lost within a header -/

def torn1 : St := (flush (create start [1] (works 0)).2 (works 8)).2
/-- Three bytes of the header of the second entry are written. -/
def torn2 : St := (flush (create torn1 [9] (works 0)).2 (torn 3)).2
/-- After the restart, an entry is created and flushed. -/
def torn3 : St := (create (init torn2.flash) [2, 3] (works 0)).2
def torn4 : St := (flush torn3 (works 9)).2

/-- State after the restart. -/
def stuckSt (flash : Nat → Bytes) (addr id used : Nat) : St :=
  { flash, addr, nextId := id, remain := secLen - addr % secLen, used := fun i => if i = 0 then used else 0, start := 0 }

theorem stuck_eq {flash : Nat → Bytes} {a b : Entry} {n : Nat} (h0 : flash 0 = bytes [a, b] ++ List.replicate n 0xFF) (hn : 7 ≤ n)
    (hrest : ∀ i, 0 < i → i < 16 → flash i = blank) (ha : a.Ok) (hb : b.Ok) (hid : a.id < 2 ^ 32 - 1) (hbid : b.id = 2 ^ 32 - 1) (hs : a.bytes.length ≤ 4089) :
    init flash = stuckSt flash a.bytes.length (a.id + 1) (bytes [a, b]).length := by
  obtain ⟨h1, h2, h3, h4, h5⟩ := stuck h0 hn hrest ha hb hid hbid hs
  have hu : (init flash).used = fun i => if i = 0 then (bytes [a, b]).length else 0 := by
    funext i
    by_cases hi : i = 0
    · subst hi; rw [if_pos rfl]; exact h3
    · rw [if_neg hi]; exact h5 i (by omega)
  have he : init flash = St.mk flash [] (secLen - (init flash).addr % secLen) false (init flash).nextId (init flash).used (init flash).addr (init flash).start := rfl
  rw [he, h1, h2, h4, hu]
  rfl

theorem other_sectors (i : Nat) (h : 0 < i) : torn2.flash i = blank := by
  have e : torn2.flash = set (set (set (fun _ => blank) 0 blank) 0 (program blank 0 [0xCB, 8, 0, 0, 0, 0, 0, 1])) 0
      (program (program blank 0 [0xCB, 8, 0, 0, 0, 0, 0, 1]) 8 [0xCB, 8, 0]) := by rfl
  rw [e, set_ne _ _ (by omega), set_ne _ _ (by omega), set_ne _ _ (by omega)]

set_option maxRecDepth 100000 in
theorem torn2_sector : torn2.flash 0 = bytes [⟨0, [1]⟩, ⟨2 ^ 32 - 1, [0xFF]⟩] ++ List.replicate 4080 0xFF := by decide_cbv

theorem torn2_init : init torn2.flash = stuckSt torn2.flash 8 1 16 :=
  stuck_eq torn2_sector (by decide) (fun i h _ => other_sectors i h) ⟨by decide, by decide, by decide⟩ ⟨by decide, by decide, by decide⟩ (by decide) (by decide) (by decide)

set_option maxRecDepth 100000 in
/-- **C91, restart.** When power is lost after three bytes of a header, the next entry is written over
them after the restart: although creating it and flushing it succeed, the log does not contain it (its
length is wrong), and ends in bytes that are no entry. -/
theorem torn_header_overwritten : (create (init torn2.flash) [2, 3] (works 0)).1 = .ok () ∧ (flush torn3 (works 9)).1 = .ok () ∧
    readContents torn4 0 100 = some ([0xCB, 8, 0, 0, 0, 0, 0, 1] ++ [0xCB, 8, 0, 1, 0, 0, 0, 2, 3] ++ List.replicate 8 0xFF) := by
  refine ⟨?_, ?_, ?_⟩
  · rw [torn2_init]
    rfl
  · apply save_works
    refine ⟨rfl, ?_, ?_⟩ <;> · unfold torn3; rw [torn2_init]; rfl
  · unfold torn4 torn3
    rw [torn2_init]
    decide_cbv

/-! ### Power lost between erasing and writing the first sector -/

theorem fold_one (sec : Nat) : ∀ (es : List Entry) (v : Scan), v.found = 1 → v.prev = 0 →
    (es.foldl (Scan.read sec) v).found = 1 ∧ (es.foldl (Scan.read sec) v).start = v.start ∧
    (es.foldl (Scan.read sec) v).addr = v.addr ∧ (es.foldl (Scan.read sec) v).prev = 0 ∧
    (es.foldl (Scan.read sec) v).used sec = v.used sec + (bytes es).length ∧
    (∀ j, j ≠ sec → (es.foldl (Scan.read sec) v).used j = v.used j)
  | [], v, hf, hp => ⟨hf, rfl, rfl, hp, rfl, fun _ _ => rfl⟩
  | e :: es, v, hf, hp => by
    have hv : v.read sec e = { v with id := (e.id + 1) % 2 ^ 32, used := set v.used sec (v.used sec + (7 + e.data.length)) } := by
      unfold Scan.read Scan.entry
      dsimp only
      rw [if_pos (by omega), if_neg (by omega), if_neg (by omega)]
    obtain ⟨i1, i2, i3, i5, i6, i7⟩ := fold_one sec es (v.read sec e) (by rw [hv]; exact hf) (by rw [hv]; exact hp)
    rw [List.foldl_cons]
    refine ⟨i1, by rw [i2, hv], by rw [i3, hv], i5, ?_, ?_⟩
    · rw [i6, hv, bytes_cons, List.length_append, entry_length]; dsimp only; rw [set_same]; omega
    · intro j hj; rw [i7 j hj, hv]; exact set_ne _ _ hj

theorem phase_one {flash : Nat → Bytes} (hlen : ∀ i, i < 16 → (flash i).length = 4096) : ∀ (L : List (List Entry)) (k : Nat) (v : Scan),
    (∀ i es, L[i]? = some es → Sector (flash (k + i)) es) → k + L.length ≤ 16 → v.found = 1 → v.prev = 0 → v.addr = 0 →
    ∃ w, (List.range' k L.length).foldl (step flash) v = w ∧ w.start = v.start ∧ w.addr = 0 ∧
      (∀ i es, L[i]? = some es → w.used (k + i) = v.used (k + i) + (bytes es).length) ∧
      (∀ j, j < k ∨ k + L.length ≤ j → w.used j = v.used j)
  | [], k, v, _, _, _, _, ha => ⟨v, rfl, rfl, ha, nofun, fun _ _ => rfl⟩
  | es :: L, k, v, hs, hk, hf, hp, ha => by
    rw [List.length_cons] at hk
    have hs0 : Sector (flash k) es := hs 0 es rfl
    have hl0 := hlen k (by omega)
    obtain ⟨s1, s2, s3, s5, s6, s7⟩ := fold_one k es v hf hp
    have hst : step flash v k = es.foldl (Scan.read k) v := by
      obtain ⟨hne, hok, tail, ht, hstop⟩ := hs0
      unfold step
      rw [ht] at hl0 ⊢
      rw [List.length_append] at hl0
      have hsk : (es.foldl (Scan.read k) v).skip = es.foldl (Scan.read k) v := by unfold Scan.skip; rw [if_neg (by omega)]
      rw [scanSector_eq, scan_entries k tail es v hok, scan_stop _ _ _ hstop (by omega), hsk, ite_self, fix_id (by rw [s3, ha]; decide)]
    obtain ⟨w, w0, w2, w3, w6, w7⟩ := phase_one hlen L (k + 1) (step flash v k)
      (fun i x hx => by rw [show k + 1 + i = k + (i + 1) by omega]; exact hs (i + 1) x hx) (by omega) (by rw [hst]; exact s1) (by rw [hst]; exact s5)
      (by rw [hst, s3]; exact ha)
    rw [hst] at w0 w2 w6 w7
    refine ⟨w, ?_, by rw [w2]; exact s2, w3, ?_, ?_⟩
    · rw [List.length_cons, List.range'_succ, List.foldl_cons, hst]; exact w0
    · intro i x hx
      cases i with
      | zero =>
        cases hx
        rw [w7 _ (.inl (by omega))]; exact s6
      | succ i =>
        rw [show k + (i + 1) = k + 1 + i by omega, w6 i x hx, s7 _ (by omega)]
    · intro j hj
      rw [List.length_cons] at hj
      rw [w7 j (by omega)]
      exact s7 j (by omega)

/-- **C91, restart.** When the first sector is empty and the others are full of entries, the log reads
as empty after a restart, although its size is that of all the entries. -/
theorem first_sector_empty {flash : Nat → Bytes} {L : List (List Entry)} (hlen : ∀ i, i < 16 → (flash i).length = 4096) (h0 : flash 0 = blank)
    (hL : L.length = 15) (hs : ∀ i es, L[i]? = some es → Sector (flash (1 + i)) es) :
    (∀ o n, readContents (init flash) o n = some []) ∧ getSize (init flash) = (bytes L.flatten).length := by
  have h1 : step flash {} 0 = { found := 1 } := by
    unfold step; rw [h0]; exact sector_blank (.inr ⟨rfl, rfl⟩) (by decide)
  obtain ⟨w, w0, w1, w2, w3, w4⟩ := phase_one hlen L 1 { found := 1 } hs (by omega) rfl rfl rfl
  have e : scanAll flash = w := by
    rw [scanAll_eq, show (16 : Nat) = 15 + 1 from rfl, List.range'_succ, List.foldl_cons, h1, ← hL]; exact w0
  have hst : (init flash).start = 0 := by show (scanAll flash).start = 0; rw [e, w1]
  have hu : (init flash).used = w.used := by show (scanAll flash).used = _; rw [e]
  have hu0 : w.used 0 = 0 := w4 0 (.inl (by decide))
  have htm : (init flash).terminated = false := rfl
  have hb : (init flash).buf = [] := rfl
  constructor
  · intro o n
    unfold readContents
    rw [if_neg (by rw [htm]; simp)]
    have : readSectors (init flash) sectors (init flash).start = [] := by
      show readSectors (init flash) (15 + 1) _ = _
      unfold readSectors
      rw [hst, hu, if_pos hu0]
    rw [this, hb, copyAll_eq]
    simp
  · unfold getSize
    rw [hb, htm, hu]
    have hr : List.range sectors = 0 :: List.range' 1 15 := by decide
    rw [hr, List.map_cons, List.sum_cons, hu0, bytes_flatten]
    have hm : (List.range' 1 15).map w.used = L.map (fun es => (bytes es).length) := by
      apply List.ext_getElem?
      intro i
      rw [List.getElem?_map, List.getElem?_map]
      by_cases hi : i < 15
      · rw [List.getElem?_range' hi, List.getElem?_eq_getElem (by omega)]
        have := w3 i L[i] (List.getElem?_eq_getElem (by omega))
        simp only [Option.map_some, Nat.one_mul]
        rw [this]; simp
      · rw [List.getElem?_eq_none (by simp; omega), List.getElem?_eq_none (by omega)]; rfl
    rw [hm, List.length_flatten, List.map_map]
    simp [Function.comp_def]

/-- Sixteen sectors, each filled by one entry. -/
def fullFlash (i : Nat) : Bytes := bytes [⟨i, List.replicate 4089 0⟩]
def fullOld : List (List Entry) := (List.range 16).map fun i => [⟨i, List.replicate 4089 0⟩]

theorem full_length (i : Nat) : (fullFlash i).length = 4096 := by
  unfold fullFlash; rw [bytes_cons, List.length_append, entry_length, bytes_nil, List.length_replicate, List.length_nil]

theorem fullOld_get {i : Nat} {es : List Entry} (h : fullOld[i]? = some es) : i < 16 ∧ es = [⟨i, List.replicate 4089 0⟩] := by
  unfold fullOld at h
  rw [List.getElem?_map] at h
  by_cases hi : i < 16
  · rw [List.getElem?_range hi] at h
    cases h; exact ⟨hi, rfl⟩
  · rw [List.getElem?_eq_none (by simp; omega)] at h; cases h

theorem full_sector (i : Nat) (h : i < 16) : Sector (fullFlash i) [⟨i, List.replicate 4089 0⟩] :=
  ⟨nofun, by rintro e (_ | ⟨_, ⟨⟩⟩); exact ⟨by rw [List.length_replicate]; decide, by rw [List.length_replicate]; decide, by show i < _; omega⟩, [], by rw [fullFlash, List.append_nil], .inl (by decide)⟩

theorem full_medium : Medium fullFlash 0 fullOld [] := by
  refine ⟨fun i _ => full_length i, by decide, by decide, .inl rfl, ?_, fun i h h' => ?_, fun h => ?_, fun _ => rfl, nofun, ?_, by simp⟩
  · intro i es h
    obtain ⟨hi, rfl⟩ := fullOld_get h
    rw [Nat.zero_add, Nat.mod_eq_of_lt hi]
    exact full_sector i hi
  · have : fullOld.length = 16 := rfl
    omega
  · have : fullOld.length = 16 := rfl
    omega
  · refine ⟨0, ?_, by decide⟩
    rw [List.append_nil]
    have hfl : fullOld.flatten = (List.range 16).map fun i => (⟨i, List.replicate 4089 0⟩ : Entry) := rfl
    rw [hfl]
    intro k e h
    rw [List.getElem?_map] at h
    by_cases hk : k < 16
    · rw [List.getElem?_range hk] at h
      cases h; simp
    · rw [List.getElem?_eq_none (by simp; omega)] at h; cases h

/-- **C91, restart.** The log is full, an entry is created, and power is lost when the oldest sector
has been erased to make room for it: the other fifteen sectors are not read any more. -/
theorem erased_first_sector : Shows (init fullFlash) fullOld.flatten ∧
    (∀ o n, readContents (init (flush (create (init fullFlash) [7] (works 0)).2 (torn 0)).2.flash) o n = some []) := by
  obtain ⟨hi, hb, ht, hst⟩ := init_inv full_medium
  refine ⟨?_, ?_⟩
  · have := shows hi (by rw [ht]; nofun)
    rwa [List.append_nil] at this
  · have ha : (init fullFlash).addr = 0 := by
      have h1 := hi.pos
      rw [hst] at h1
      have h2 := hi.remain
      have h3 := hi.room
      have h4 : fullOld.length = 16 := rfl
      by_cases h : 0 < (init fullFlash).addr % 4096
      · have := h3 h; omega
      · omega
    have hr : (init fullFlash).remain = 4096 := by
      have := hi.remain
      rw [hb, ha] at this; simpa using this
    have hc : create (init fullFlash) [7] (works 0) = (.ok (), append (init fullFlash) [7]) := by
      unfold create
      rw [if_neg (by decide), if_neg (by rw [ht, hr]; decide)]
    rw [hc]
    have hf : (flush (append (init fullFlash) [7]) (torn 0)).2.flash = set fullFlash 0 blank := by
      have hb' : (append (init fullFlash) [7]).buf = header 1 (init fullFlash).nextId ++ [7] := by
        show (init fullFlash).buf ++ _ ++ _ = _
        rw [hb]; rfl
      have ha' : (append (init fullFlash) [7]).addr = 0 := ha
      have hfl : (append (init fullFlash) [7]).flash = fullFlash := rfl
      generalize append (init fullFlash) [7] = t at *
      unfold flush save
      rw [if_neg (by rw [hb']; simp)]
      have hp : (prepare t (torn 0)).1 = true ∧ (prepare t (torn 0)).2.flash = set fullFlash 0 blank ∧ (prepare t (torn 0)).2.addr = 0 := by
        unfold prepare
        rw [if_pos (by rw [ha']; decide), if_pos (show (torn 0).erase = true from rfl), ha', hfl]
        exact ⟨rfl, rfl, rfl⟩
      obtain ⟨p1, p2, p3⟩ := hp
      have hpe : prepare t (torn 0) = (true, (prepare t (torn 0)).2) := by rw [← p1]
      rw [hpe]
      dsimp only
      show set (prepare t (torn 0)).2.flash _ _ = _
      rw [p2, p3, ha']
      funext i
      by_cases h : i = 0
      · subst h
        rw [set_same]
        simp [program, torn, set_same]
      · rw [set_ne _ _ (by simp only [secLen]; omega)]
    rw [hf]
    refine (first_sector_empty (L := fullOld.tail) ?_ (set_same _ _ _) rfl ?_).1
    · intro i h
      by_cases h0 : i = 0
      · subst h0; rw [set_same]; exact blank_length
      · rw [set_ne _ _ h0]; exact full_length i
    · intro i es h
      rw [List.getElem?_tail] at h
      obtain ⟨hi', rfl⟩ := fullOld_get h
      rw [set_ne _ _ (by omega), show 1 + i = i + 1 by omega]
      exact full_sector (i + 1) hi'

/-! ### Examples -/

/-- The second entry is written in part. -/
def cut1 : St := (flush (create torn1 [5, 6] (works 0)).2 (torn 8)).2

set_option maxRecDepth 100000 in
theorem cut1_sector : cut1.flash 0 = bytes [⟨0, [1]⟩, ⟨1, [5, 0xFF]⟩] ++ List.replicate 4079 0xFF := by decide_cbv

set_option maxRecDepth 100000 in
/-- The events of a history, with a flash that fails and a loss of power, meet the conditions. -/
example : Fair start {} (.create [1] (works 0)) ∧ Fair (create start [1] (works 0)).2 ⟨[⟨0, [1]⟩], 1, 1⟩ (.flush (works 8)) ∧
    Fair torn1 ⟨[⟨0, [1]⟩], 1, 0⟩ .restart ∧ Fair cut1 ⟨[⟨0, [1]⟩, ⟨1, [5, 6]⟩], 2, 1⟩ .restart := by
  refine ⟨?_, ?_, ⟨.inl (by decide_cbv), by decide⟩, .inr ⟨?_, ?_⟩, by decide⟩
  · rintro n ⟨⟩; exact ⟨Nat.le_refl _, Nat.zero_le _⟩
  · rintro n ⟨⟩; exact ⟨Nat.le_refl _, by decide⟩
  · intro i _
    by_cases h : i = 0
    · subst h
      rw [cut1_sector]
      exact not_torn _ _ (by decide) (by rintro e (_ | ⟨_, (_ | ⟨_, ⟨⟩⟩)⟩) <;> exact ⟨by decide, by decide, by decide⟩)
    · have : cut1.flash i = bytes [] ++ List.replicate 4096 0xFF := by
        have e : cut1.flash = set (set (set (fun _ => blank) 0 blank) 0 (program blank 0 [0xCB, 8, 0, 0, 0, 0, 0, 1])) 0
          (program (program blank 0 [0xCB, 8, 0, 0, 0, 0, 0, 1]) 8 [0xCB, 9, 0, 1, 0, 0, 0, 5]) := by rfl
        rw [e, set_ne _ _ h, set_ne _ _ h, set_ne _ _ h]; rfl
      rw [this]
      exact not_torn [] 4096 nofun nofun
  · intro h
    rw [cut1_sector] at h
    have := congrArg List.head? h
    rw [show List.head? (List.replicate 4096 (0xFF : UInt8)) = some 0xFF from rfl, List.head?_append, show (bytes [⟨0, [1]⟩, ⟨1, [5, 0xFF]⟩]).head? = some 0xCB from rfl] at this
    simp at this

/-- What is left of the second entry. -/
example : Survives [⟨0, [1]⟩, ⟨1, [5, 6]⟩] 1 [⟨0, [1]⟩, ⟨1, [5, 0xFF]⟩] :=
  ⟨[⟨0, [1]⟩], [⟨1, [5, 6]⟩], [⟨1, [5, 0xFF]⟩], rfl, by decide, rfl, .some [] ⟨1, [5, 6]⟩ [] 1 (by decide)⟩

example : Works (works 8) (create start [1] (works 0)).2 := ⟨rfl, rfl, rfl⟩

end Verif.LoggingFlash
