import Verif.LoggingMemory.Lemmas
/-! C22-C23: the log in memory. -/
namespace Verif.LoggingMemory
open Res

/-- `N` entries of `len` bytes fit a buffer. -/
theorem init_inv (buf : Bytes) (len : Nat) (h0 : 0 < len) (hb : len + 7 ≤ buf.length) (hblank : Blank (len + 7) buf) :
    ∃ cfg, init buf len = .ok (cfg, { buf := buf }) ∧ Inv cfg len (buf.length / (len + 7)) { buf := buf } 0 [] := by
  have hdm := Nat.div_add_mod buf.length (len + 7)
  rw [Nat.mul_comm] at hdm
  have hpos : 0 < buf.length / (len + 7) := Nat.div_pos hb (by omega)
  have hge : 1 * (len + 7) ≤ buf.length / (len + 7) * (len + 7) := Nat.mul_le_mul_right _ hpos
  unfold init
  rw [if_neg (by omega), if_neg (by rw [hdrLen]; omega)]
  refine ⟨_, rfl, ?_⟩
  refine ⟨by rw [hdrLen]; simp only; omega, rfl, hpos, h0, by simp, rfl, by simp, .inl ⟨hpos, rfl, rfl, by simp, buf, by simp [encodeAll], hblank⟩⟩

theorem run_inv (cfg : Cfg) (len N : Nat) (ops : List Op) : ∀ (l : Log) (id : Nat) (ds : List Bytes), Inv cfg len N l id ds →
    ∃ l', run cfg l ops = .ok l' ∧ Inv cfg len N l' (history len ops (id, ds)).1 (history len ops (id, ds)).2 := by
  induction ops with
  | nil => intro l id ds i; exact ⟨l, rfl, i⟩
  | cons op ops ih =>
    intro l id ds i
    cases op with
    | create d =>
      by_cases hd : d.length = len
      · obtain ⟨l1, h1, i1⟩ := create_step cfg len N l id ds d i hd
        obtain ⟨l2, h2, i2⟩ := ih l1 id (ds ++ [d]) i1
        refine ⟨l2, by rw [run, h1]; exact h2, ?_⟩
        rw [history, if_pos hd]; exact i2
      · obtain ⟨l2, h2, i2⟩ := ih l id ds i
        refine ⟨l2, by rw [run, create_refused cfg len N l id ds d i hd]; exact h2, ?_⟩
        rw [history, if_neg hd]; exact i2
    | clear =>
      obtain ⟨l1, h1, i1⟩ := clear_step cfg len N l id ds i
      obtain ⟨l2, h2, i2⟩ := ih l1 _ [] i1
      exact ⟨l2, by rw [run, h1]; exact h2, i2⟩

/-- C22: after any sequence of creates and clears, the log holds the newest entries since the last clear, as many as fit the buffer, oldest
first and with consecutive ids; every read returns the requested window of these bytes, and the reported size is their number. -/
theorem log_keeps_newest (buf : Bytes) (len : Nat) (h0 : 0 < len) (hb : len + 7 ≤ buf.length) (hblank : Blank (len + 7) buf)
    (ops : List Op) :
    ∃ cfg l0 l, init buf len = .ok (cfg, l0) ∧ run cfg l0 ops = .ok l ∧
      let h := history len ops (0, [])
      let log := (newest (buf.length / (len + 7)) (encodeAll h.1 h.2)).flatten
      (∀ offset length, readContents cfg l offset length = .ok ((log.drop offset).take length)) ∧ getSize cfg l = log.length := by
  obtain ⟨cfg, h1, i1⟩ := init_inv buf len h0 hb hblank
  obtain ⟨l, h2, i2⟩ := run_inv cfg len _ ops _ _ _ i1
  exact ⟨cfg, _, l, h1, h2, contents cfg len _ l _ _ i2⟩

/-- A log of two entries of two bytes after three entries and one refused entry. -/
example : ∃ cfg l, init (List.replicate 20 0) 2 = .ok (cfg, { buf := List.replicate 20 0 }) ∧
    run cfg { buf := List.replicate 20 0 } [.create [1, 2], .create [3, 4], .create [9], .create [5, 6]] = .ok l ∧
    readContents cfg l 0 100 = .ok [0xCB, 9, 0, 1, 0, 0, 0, 3, 4, 0xCB, 9, 0, 2, 0, 0, 0, 5, 6] := by
  exact ⟨_, _, rfl, rfl, by decide +kernel⟩

theorem blank_zeros (n es : Nat) : Blank es (List.replicate n 0) := by
  intro j b hb
  rw [List.getElem?_replicate] at hb
  split at hb
  · cases hb; rfl
  · cases hb

/-- C22: reading in pieces gives the same bytes as reading at once. -/
theorem read_in_pieces (cfg : Cfg) (len N : Nat) (l : Log) (id : Nat) (ds : List Bytes) (i : Inv cfg len N l id ds) (off n m : Nat)
    (a b : Bytes) (ha : readContents cfg l off n = .ok a) (hb : readContents cfg l (off + n) m = .ok b) :
    readContents cfg l off (n + m) = .ok (a ++ b) := by
  have h := (contents cfg len N l id ds i).1
  rw [h] at ha hb ⊢
  cases ha; cases hb
  rw [window_concat]

theorem encode_start (id : Nat) (d rest : Bytes) : (encode id d ++ rest)[0]? = some 0xCB := rfl

theorem encode_id (id : Nat) (d rest : Bytes) : ((encode id d ++ rest).drop 3).take 4 = toLE 4 id := by
  unfold encode
  rw [show [0xCB] ++ toLE 2 (7 + d.length) ++ toLE 4 id ++ d ++ rest = ([0xCB] ++ toLE 2 (7 + d.length)) ++ (toLE 4 id ++ (d ++ rest)) by simp,
    List.drop_left' (by simp), List.take_left' (by simp)]

theorem encode_len (id : Nat) (d rest : Bytes) : ((encode id d ++ rest).drop 1).take 2 = toLE 2 (7 + d.length) := by
  unfold encode
  rw [show [0xCB] ++ toLE 2 (7 + d.length) ++ toLE 4 id ++ d ++ rest = [0xCB] ++ (toLE 2 (7 + d.length) ++ (toLE 4 id ++ d ++ rest)) by simp,
    List.drop_left' (by simp), List.take_left' (by simp)]

theorem encode_data (id : Nat) (d rest : Bytes) : ((encode id d ++ rest).drop 7).take d.length = d := by
  unfold encode
  rw [show [0xCB] ++ toLE 2 (7 + d.length) ++ toLE 4 id ++ d ++ rest = ([0xCB] ++ toLE 2 (7 + d.length) ++ toLE 4 id) ++ (d ++ rest) by simp,
    List.drop_left' (by simp), List.take_left' (by simp)]

/-- One entry is skipped by the search for the end. -/
theorem find_one (cfg : Cfg) (len : Nat) (hes : cfg.entrySize = len + 7) (buf pre rest d : Bytes) (id next : Nat) (prev : Bool)
    (hb : buf = pre ++ (encode id d ++ rest)) (hd : d.length = len) (hs : pre.length + (len + 7) ≤ cfg.size)
    (hn : prev = true → next = id % 2 ^ 32) :
    findLoop cfg buf pre.length next prev = findLoop cfg buf (pre.length + (len + 7)) ((id + 1) % 2 ^ 32) true := by
  have hel := encode_length id d
  have hbl : pre.length + (len + 7) ≤ buf.length := by rw [hb]; simp only [List.length_append, hel]; omega
  have hid : (rdN buf (pre.length + 3) 4 : R Bytes) = .ok (toLE 4 id) := by
    rw [rdN_ok (by omega), hb, ← List.drop_drop, List.drop_left' rfl, encode_id]
  have hm : (rd buf pre.length : R UInt8) = .ok 0xCB := by
    rw [rd_eq_ok, hb, List.getElem?_append_right (Nat.le_refl _), Nat.sub_self, encode_start]
  rw [findLoop, dif_neg (by omega), dif_neg (by omega), hm, ok_bind, if_pos (by decide), hid, ok_bind]
  have hle : leNat (toLE 4 id) = id % 2 ^ 32 := by rw [leNat_toLE]
  rw [if_neg, hes, hle]
  · congr 1; omega
  · intro ⟨h1, h2⟩
    rw [hle] at h2
    exact h2 (hn h1).symm

theorem find_entries (cfg : Cfg) (len : Nat) (hes : cfg.entrySize = len + 7) (buf rest : Bytes) (ds : List Bytes) :
    ∀ (pre : Bytes) (id next : Nat) (prev : Bool), buf = pre ++ ((encodeAll id ds).flatten ++ rest) → (∀ d ∈ ds, d.length = len) →
      pre.length + ds.length * (len + 7) ≤ cfg.size → (prev = true → next = id % 2 ^ 32) →
      findLoop cfg buf pre.length next prev =
        findLoop cfg buf (pre.length + ds.length * (len + 7)) (if ds = [] then next else (id + ds.length) % 2 ^ 32)
          (prev || !ds.isEmpty) := by
  induction ds with
  | nil => intro pre id next prev _ _ _ _; simp
  | cons d ds ih =>
    intro pre id next prev hb hl hs hn
    rw [List.length_cons, Nat.succ_mul] at hs
    have hd := hl d (List.mem_cons_self ..)
    have hb' : buf = pre ++ (encode id d ++ ((encodeAll (id + 1) ds).flatten ++ rest)) := by rw [hb]; simp [encodeAll]
    rw [find_one cfg len hes buf pre _ d id next prev hb' hd (by omega) hn]
    have := ih (pre ++ encode id d) (id + 1) ((id + 1) % 2 ^ 32) true (by rw [hb']; simp) (fun x hx => hl x (List.mem_cons_of_mem _ hx))
      (by simp only [List.length_append, encode_length]; omega) (fun _ => rfl)
    have hpl : (pre ++ encode id d).length = pre.length + (len + 7) := by simp only [List.length_append, encode_length]; omega
    rw [hpl] at this
    rw [this]
    have e1 : pre.length + (len + 7) + ds.length * (len + 7) = pre.length + (d :: ds).length * (len + 7) := by
      rw [List.length_cons, Nat.succ_mul]; omega
    have e2 : (if ds = [] then (id + 1) % 2 ^ 32 else (id + 1 + ds.length) % 2 ^ 32) = (id + (ds.length + 1)) % 2 ^ 32 := by
      split
      · rename_i h; subst h; rfl
      · congr 1; omega
    rw [e1, e2]
    simp

/-- C23: attaching to the buffer of a log recovers its entries, order and, unless the log is empty, the next id. The capacity must not be a
multiple of 2^32. -/
theorem restart_recovers_partial (cfg : Cfg) (len N : Nat) (l : Log) (id : Nat) (ds : List Bytes) (i : Inv cfg len N l id ds)
    (hN : N < 2 ^ 32) : findLast cfg l.buf = .ok { l with next := if ds = [] then 0 else l.next } := by
  have hbl := i.blen
  unfold findLast
  rcases i.shape with ⟨hlt, hfull, hstart, hend, rest, hbuf, hblank⟩ | ⟨hfull, hse, ds0, ds1, ds2, rest, hds, hn, hne, hend, hbuf, hblank⟩
  · have hle : ds.length * (len + 7) + (len + 7) ≤ cfg.size := by
      have := Nat.mul_le_mul_right (len + 7) hlt
      rw [Nat.succ_mul] at this
      rw [i.size]; omega
    have hfl := encodeAll_flatten_length len ds id i.lens
    have h := find_entries cfg len i.es l.buf rest ds [] id 0 false (by simpa using hbuf) i.lens (by simp; omega) (by simp)
    simp only [List.length_nil, Nat.zero_add] at h
    rw [h]
    have hlast : ∀ n p, findLoop cfg l.buf (ds.length * (len + 7)) n p = .ok (ds.length * (len + 7), n, false) := by
      intro n p
      rw [findLoop, dif_neg (by omega), dif_neg (by have := i.es; omega), rd_ok (by omega), ok_bind]
      have : isEntryStart l.buf[ds.length * (len + 7)] = false := by
        apply hblank 0
        rw [Nat.zero_mul, ← List.getElem?_eq_getElem, hbuf, List.getElem?_append_right (by omega), hfl, Nat.sub_self]
      rw [this, if_neg (by simp)]
    rw [hlast, ok_bind]
    simp only
    rw [if_neg (by omega), pure_eq]
    congr 1
    cases l
    simp only at *
    simp only [hfull, hstart, hend, Log.mk.injEq, Bool.false_eq_true, if_false, true_and, and_true]
    split
    · rfl
    · exact i.next.symm
  · have h1 := encodeAll_flatten_length len ds1 (id + ds0.length) fun x hx => i.lens x (by rw [hds]; simp [hx])
    have h2 := encodeAll_flatten_length len ds2 (id + ds0.length + ds1.length) fun x hx => i.lens x (by rw [hds]; simp [hx])
    have hsz : cfg.size = ds2.length * (len + 7) + ds1.length * (len + 7) := by
      rw [← Nat.add_mul, i.size]; congr 1; omega
    have hpos : 0 < ds1.length := List.length_pos_iff.mpr hne
    have hpos1 : 1 * (len + 7) ≤ ds1.length * (len + 7) := Nat.mul_le_mul_right _ hpos
    have hdsne : ds ≠ [] := by rw [hds]; simp [hne]
    have hdl : ds.length = ds0.length + (ds1.length + ds2.length) := by rw [hds]; simp
    rw [if_neg hdsne]
    by_cases hz : ds2 = []
    · subst hz
      simp only [List.length_nil, Nat.zero_mul, Nat.zero_add, encodeAll, List.flatten_nil, List.nil_append] at *
      have h := find_entries cfg len i.es l.buf rest ds1 [] (id + ds0.length) 0 false (by simpa using hbuf)
        (fun x hx => i.lens x (by rw [hds]; simp [hx])) (by simp; omega) (by simp)
      simp only [List.length_nil, Nat.zero_add] at h
      rw [h, if_neg hne, findLoop, dif_pos hsz.symm, ok_bind]
      simp only
      rw [if_pos hsz.symm, pure_eq]
      congr 1
      have hnx := i.next
      cases l
      simp only [Log.mk.injEq] at *
      refine ⟨trivial, ?_, hend.symm, ?_, hfull.symm⟩
      · simp; omega
      · rw [hnx]; congr 1; omega
    · have h := find_entries cfg len i.es l.buf ((encodeAll (id + ds0.length) ds1).flatten ++ rest) ds2 [] (id + ds0.length + ds1.length) 0
        false (by simpa using hbuf) (fun x hx => i.lens x (by rw [hds]; simp [hx])) (by simp; omega) (by simp)
      simp only [List.length_nil, Nat.zero_add] at h
      obtain ⟨o, os, rfl⟩ := List.exists_cons_of_ne_nil hne
      rw [h, if_neg hz]
      have hpr : (false || !ds2.isEmpty) = true := by simp [hz]
      rw [hpr]
      have hb' : l.buf = (encodeAll (id + ds0.length + (o :: os).length) ds2).flatten ++ (encode (id + ds0.length) o ++
          ((encodeAll (id + ds0.length + 1) os).flatten ++ rest)) := by rw [hbuf]; simp [encodeAll]
      have hid : (rdN l.buf (ds2.length * (len + 7) + 3) 4 : R Bytes) = .ok (toLE 4 (id + ds0.length)) := by
        rw [rdN_ok (by omega), hb', ← List.drop_drop, List.drop_left' h2, encode_id]
      have hm : (rd l.buf (ds2.length * (len + 7)) : R UInt8) = .ok 0xCB := by
        rw [rd_eq_ok, hb', List.getElem?_append_right (by omega), h2, Nat.sub_self, encode_start]
      rw [findLoop, dif_neg (by omega), dif_neg (by have := i.es; omega), hm, ok_bind, if_pos (by decide), hid, ok_bind]
      have hle : leNat (toLE 4 (id + ds0.length)) = (id + ds0.length) % 2 ^ 32 := by rw [leNat_toLE]
      rw [hle, if_pos ⟨rfl, by omega⟩, ok_bind]
      simp only
      rw [if_neg (by omega), pure_eq]
      congr 1
      have hnx := i.next
      cases l
      simp only [Log.mk.injEq] at *
      refine ⟨trivial, ?_, hend.symm, ?_, hfull.symm⟩
      · simp; omega
      · rw [hnx]; congr 1; omega

/-- The hypotheses of `restart_recovers_partial` hold of every log made from a blank buffer. -/
example : ∃ cfg l ds, Inv cfg 2 2 l 0 ds ∧ ds.length = 3 := by
  obtain ⟨cfg, _, i⟩ := init_inv (List.replicate 20 0) 2 (by omega) (by simp) (blank_zeros _ _)
  obtain ⟨l, _, i2⟩ := run_inv cfg 2 _ [.create [1, 2], .create [3, 4], .create [5, 6]] _ _ _ i
  exact ⟨cfg, l, _, i2, rfl⟩

/-- C23 fails for the next id of an emptied log: after a clear and a restart, ids are used again. -/
theorem restart_reuses_ids : ∃ (cfg : Cfg) (l l' : Log),
    run cfg { buf := List.replicate 18 0 } [.create [1, 2], .clear] = .ok l ∧ findLast cfg l.buf = .ok l' ∧ l.next = 1 ∧ l'.next = 0 := by
  have h : ∃ l, run ⟨18, 9⟩ { buf := List.replicate 18 0 } [.create [1, 2], .clear] = .ok l ∧ l.next = 1 ∧
      l.buf = List.replicate 18 0 := ⟨_, rfl, rfl, by decide +kernel⟩
  obtain ⟨l, h1, h2, h3⟩ := h
  refine ⟨⟨18, 9⟩, l, { buf := List.replicate 18 0 }, h1, ?_, h2, rfl⟩
  rw [h3]
  unfold findLast
  rw [findLoop]
  rfl

/-- Copying a run of entries. -/
theorem copy_entries (cfg : Cfg) (len : Nat) (l : Log) (accept : Bytes → Bool) (h0 : 0 < len) (hlen : len + 7 < 65536) (rest : Bytes)
    (ds : List Bytes) : ∀ (pre : Bytes) (id fuel : Nat) (sent : List Bytes), ds ≠ [] →
      l.buf = pre ++ ((encodeAll id ds).flatten ++ rest) → (∀ d ∈ ds, d.length = len ∧ accept d = true) →
      pre.length + ds.length * (len + 7) ≤ cfg.size → (l.end_ ≤ pre.length ∨ pre.length + ds.length * (len + 7) ≤ l.end_) →
      (l.end_ = 0 → pre.length + ds.length * (len + 7) ≤ cfg.size) →
      copyLoop cfg l accept (fuel + ds.length) pre.length sent =
        let p := if pre.length + ds.length * (len + 7) ≥ cfg.size then 0 else pre.length + ds.length * (len + 7)
        if p = l.end_ then some (.ok (sent ++ ds)) else copyLoop cfg l accept fuel p (sent ++ ds) := by
  induction ds with
  | nil => intro pre id fuel sent h; exact absurd rfl h
  | cons d ds ih =>
    intro pre id fuel sent _ hb hl hs he he0
    obtain ⟨hd, hacc⟩ := hl d (List.mem_cons_self ..)
    have hb' : l.buf = pre ++ (encode id d ++ ((encodeAll (id + 1) ds).flatten ++ rest)) := by rw [hb]; simp [encodeAll]
    have hel := encode_length id d
    have hbl : pre.length + (len + 7) ≤ l.buf.length := by rw [hb']; simp only [List.length_append, hel]; omega
    have hr1 : (rdN l.buf (pre.length + 1) 2 : R Bytes) = .ok (toLE 2 (7 + len)) := by
      rw [rdN_ok (by omega), hb', ← List.drop_drop, List.drop_left' rfl, encode_len, hd]
    have hv : leNat (toLE 2 (7 + len)) = len + 7 := by rw [leNat_toLE]; omega
    have hr2 : (rdN l.buf (pre.length + hdrLen) (len + 7 - hdrLen) : R Bytes) = .ok d := by
      rw [hdrLen, rdN_ok (by omega), hb', ← List.drop_drop, List.drop_left' rfl, Nat.add_sub_cancel, ← hd, encode_data]
    rw [List.length_cons, ← Nat.add_assoc, copyLoop, hr1]
    simp only [hv, hr2, hacc, if_true]
    rw [List.length_cons, Nat.succ_mul] at hs he
    by_cases hz : ds = []
    · subst hz
      simp
    · have hpos : 0 < ds.length := List.length_pos_iff.mpr hz
      have hpos1 : 1 * (len + 7) ≤ ds.length * (len + 7) := Nat.mul_le_mul_right _ hpos
      have hnw : ¬ pre.length + (len + 7) ≥ cfg.size := by omega
      rw [if_neg hnw, if_neg (by omega)]
      have hpl : (pre ++ encode id d).length = pre.length + (len + 7) := by simp only [List.length_append, encode_length]; omega
      have := ih (pre ++ encode id d) (id + 1) fuel (sent ++ [d]) hz (by rw [hb']; simp) (fun x hx => hl x (List.mem_cons_of_mem _ hx))
        (by omega) (by omega) (by omega)
      rw [hpl] at this
      rw [this]
      have e1 : pre.length + (len + 7) + ds.length * (len + 7) = pre.length + (d :: ds).length * (len + 7) := by
        rw [List.length_cons, Nat.succ_mul]; omega
      rw [e1]
      simp

/-- C22: copying the log to another log that accepts the entries passes exactly the data of the entries kept, in order. -/
theorem copy_passes_entries (cfg : Cfg) (len N : Nat) (l : Log) (id : Nat) (ds : List Bytes) (i : Inv cfg len N l id ds)
    (hlen : len + 7 < 65536) (accept : Bytes → Bool) (hacc : ∀ d ∈ ds, accept d = true) (fuel : Nat) :
    copyEntries cfg l accept (fuel + N) = some (.ok (newest N ds)) := by
  unfold copyEntries
  rcases i.shape with ⟨hlt, hfull, hstart, hend, rest, hbuf, hblank⟩ | ⟨hfull, hse, ds0, ds1, ds2, rest, hds, hn, hne, hend, hbuf, hblank⟩
  · rw [newest_all N _ (by omega)]
    by_cases hz : ds = []
    · subst hz
      rw [if_neg (by simp [hstart, hend, hfull])]
    · have hpos : 0 < ds.length := List.length_pos_iff.mpr hz
      have hpos' : 1 * (len + 7) ≤ ds.length * (len + 7) := Nat.mul_le_mul_right _ hpos
      have hlt' : (ds.length + 1) * (len + 7) ≤ N * (len + 7) := Nat.mul_le_mul_right _ hlt
      rw [Nat.succ_mul, ← i.size] at hlt'
      rw [if_pos (.inl (by omega)), hstart]
      have := copy_entries cfg len l accept i.lenPos hlen rest ds [] id (fuel + (N - ds.length)) [] hz (by simpa using hbuf)
        (fun d hd => ⟨i.lens d hd, hacc d hd⟩) (by simp; omega) (by simp; omega) (by simp; omega)
      rw [show fuel + N = fuel + (N - ds.length) + ds.length by omega]
      simp only [List.length_nil, Nat.zero_add, List.nil_append] at this
      rw [this, if_neg (c := _ ≥ _) (by omega), if_pos hend.symm]
  · have h1 := encodeAll_flatten_length len ds1 (id + ds0.length) fun x hx => i.lens x (by rw [hds]; simp [hx])
    have h2 := encodeAll_flatten_length len ds2 (id + ds0.length + ds1.length) fun x hx => i.lens x (by rw [hds]; simp [hx])
    have hsz : cfg.size = ds2.length * (len + 7) + ds1.length * (len + 7) := by
      rw [← Nat.add_mul, i.size]; congr 1; omega
    have hpos : 0 < ds1.length := List.length_pos_iff.mpr hne
    have hpos1 : 1 * (len + 7) ≤ ds1.length * (len + 7) := Nat.mul_le_mul_right _ hpos
    have hnew : newest N ds = ds1 ++ ds2 := by
      unfold newest
      rw [hds, List.length_append, List.length_append, hn, Nat.add_sub_cancel, List.drop_left' rfl]
    rw [hnew, if_pos (.inr hfull), hse, hend]
    have := copy_entries cfg len l accept i.lenPos hlen rest ds1 (encodeAll (id + ds0.length + ds1.length) ds2).flatten
      (id + ds0.length) (fuel + ds2.length) [] hne hbuf
      (fun d hd => ⟨i.lens d (by rw [hds]; simp [hd]), hacc d (by rw [hds]; simp [hd])⟩) (by omega) (by omega) (by omega)
    rw [show fuel + N = fuel + ds2.length + ds1.length by omega]
    rw [h2] at this
    rw [this]
    simp only [List.nil_append]
    rw [if_pos (c := _ ≥ _) (by omega)]
    by_cases hz : ds2 = []
    · subst hz
      rw [if_pos (by simpa using hend.symm)]; simp
    · have hpos2 : 0 < ds2.length := List.length_pos_iff.mpr hz
      have hpos2' : 1 * (len + 7) ≤ ds2.length * (len + 7) := Nat.mul_le_mul_right _ hpos2
      rw [if_neg (by omega)]
      have := copy_entries cfg len l accept i.lenPos hlen ((encodeAll (id + ds0.length) ds1).flatten ++ rest) ds2 []
        (id + ds0.length + ds1.length) fuel ds1 hz (by simpa using hbuf)
        (fun d hd => ⟨i.lens d (by rw [hds]; simp [hd]), hacc d (by rw [hds]; simp [hd])⟩) (by simp; omega) (by simp; omega) (by simp; omega)
      simp only [List.length_nil, Nat.zero_add] at this
      rw [this, if_neg (c := _ ≥ _) (by omega), if_pos hend.symm]

end Verif.LoggingMemory
