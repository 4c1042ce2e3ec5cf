import Verif.LoggingFlash.Crash
/-! Properties of the log in flash. -/
namespace Verif.LoggingFlash
open Spec

variable {s : St} {old : List (List Entry)} {cur : List Entry}

theorem good (hi : Inv s old cur) (p : Nat) : Good s ⟨old.flatten ++ cur, s.nextId, p⟩ := by
  refine ⟨⟨?_, hi.addr⟩, hi.ids, fun h => shows hi ?_⟩
  · have := hi.remain; omega
  · intro ht
    have : ¬ s.buf.length < 7 := fun hb => h ⟨ht, hb⟩
    omega

theorem tail_kept (hi : Inv s old cur) (h : old.length = 16) : ∃ d, old.flatten ++ cur = d ++ (old.tail.flatten ++ cur) ∧ 15 ≤ (old.tail.flatten ++ cur).length := by
  obtain ⟨a, l, rfl⟩ := List.exists_cons_of_length_pos (show 0 < old.length by omega)
  refine ⟨a, by simp, ?_⟩
  rw [List.length_append]
  have hne : ∀ es ∈ l, 1 ≤ es.length := by
    intro es hes
    obtain ⟨i, hi', he⟩ := List.getElem_of_mem hes
    have hsec := (hi.sec (i + 1) es (by rw [List.getElem?_cons_succ, List.getElem?_eq_getElem hi', he])).1
    exact List.length_pos_iff.2 hsec.ne
  have hl : l.length ≤ l.flatten.length := by
    clear h hi
    induction l with
    | nil => simp
    | cons x l ih =>
      have h1 := hne x (by simp)
      have h2 := ih (fun es he => hne es (by simp [he]))
      rw [List.flatten_cons, List.length_append, List.length_cons]; omega
  simp at h
  show 15 ≤ l.flatten.length + cur.length
  omega

theorem nextId_prepare (s : St) (io : Io) : (prepare s io).2.nextId = s.nextId := by
  unfold prepare
  split
  · split <;> rfl
  · rfl

theorem nextId_save (s : St) (io : Io) : (save s io).2.nextId = s.nextId := by
  have hp := nextId_prepare s io
  unfold save
  split
  · rfl
  · dsimp only
    split
    · rename_i h; rw [h] at hp; exact hp
    · rename_i h
      rw [h] at hp
      cases io.write with
      | none => exact hp
      | some n => dsimp only; split <;> exact hp

theorem nextId_create (s : St) (d : Bytes) (io : Io) :
    (create s d io).2.nextId = if succeeds (create s d io).1 then (s.nextId + 1) % 2 ^ 32 else s.nextId := by
  have ht : (terminate s).nextId = s.nextId := by unfold terminate; split <;> rfl
  have hs := nextId_save (terminate s) io
  rw [ht] at hs
  unfold create
  split
  · rfl
  · split
    · split
      · rename_i h; rw [h] at hs; exact hs
      · rename_i h; rw [h] at hs
        show (_ + 1) % 2 ^ 32 = _
        rw [show _ = s.nextId from hs]; rfl
    · rfl

theorem follows : ∀ (evs : List Event) (s : St) (old : List (List Entry)) (cur : List Entry) (p : Nat), Inv s old cur → Dur s cur p →
    Follows s ⟨old.flatten ++ cur, s.nextId, p⟩ evs
  | [], s, old, cur, p, hi, _ => good hi p
  | ev :: evs, s, old, cur, p, hi, hd => by
    refine ⟨good hi p, fun hf => ?_⟩
    cases ev with
    | create d io =>
      obtain ⟨old', cur', i', hc, hdur⟩ := create_inv (entry := d) hi hf
      have hf := follows evs _ old' cur' _ i' (hdur p hd)
      refine ⟨_, ?_, hf⟩
      show ∃ dropped kept, old.flatten ++ cur = dropped ++ kept ∧ _
      rw [nextId_create]
      rcases hc with ⟨hok, he⟩ | ⟨hok, -, h16, -, he⟩ | ⟨hok, he⟩ | ⟨hok, -, h16, -, he⟩
      · refine ⟨[], old.flatten ++ cur, rfl, fun h => (h rfl).elim, ?_⟩
        show _ = if succeeds (create s d io).1 = true then _ else _
        rw [hok, he]; rfl
      · obtain ⟨dr, h1, h2⟩ := tail_kept hi h16
        refine ⟨dr, _, h1, fun _ => h2, ?_⟩
        show _ = if succeeds (create s d io).1 = true then _ else _
        rw [hok, he]; rfl
      · refine ⟨[], old.flatten ++ cur, rfl, fun h => (h rfl).elim, ?_⟩
        show _ = if succeeds (create s d io).1 = true then _ else _
        cases hr : (create s d io).1 with
        | ok u => exact (hok hr).elim
        | error x => rw [he]; rfl
      · obtain ⟨dr, h1, h2⟩ := tail_kept hi h16
        refine ⟨dr, _, h1, fun _ => h2, ?_⟩
        show _ = if succeeds (create s d io).1 = true then _ else _
        cases hr : (create s d io).1 with
        | ok u => exact (hok hr).elim
        | error x => rw [he]; rfl
    | flush io =>
      obtain ⟨old', cur', i', he, hok, her⟩ := save_inv hi hf
      have hdur : Dur (save s io).2 cur' (if succeeds (save s io).1 then 0 else p) := by
        cases hr : (save s io).1 with
        | ok u => exact dur_zero i' (hok hr).1 0
        | error x =>
          obtain ⟨F, P, h1, h2, h3⟩ := hd
          obtain ⟨e1, e2⟩ := her (by rw [hr]; nofun)
          exact ⟨F, P, by rw [e1, h1], h2, Nat.le_trans h3 e2⟩
      have hf := follows evs _ old' cur' _ i' hdur
      refine ⟨_, ?_, hf⟩
      show ∃ dropped kept, old.flatten ++ cur = dropped ++ kept ∧ _
      rw [nextId_save, he]
      have hk : (s.kept io old = old.tail ∧ old.length = 16) ∨ s.kept io old = old := by
        unfold St.kept trim
        split
        · split
          · exact .inl ⟨rfl, by assumption⟩
          · exact .inr rfl
        · exact .inr rfl
      rcases hk with ⟨h1, h16⟩ | h1
      · obtain ⟨dr, h2, h3⟩ := tail_kept hi h16
        exact ⟨dr, _, h2, fun _ => h3, by rw [h1]; rfl⟩
      · exact ⟨[], _, rfl, fun h => (h rfl).elim, by rw [h1]; rfl⟩
    | clear io =>
      by_cases he : io.erase = true
      · obtain ⟨h1, h2⟩ := clear_inv hi he
        refine ⟨_, ?_, follows evs _ [] [] 0 h2 (dur_zero h2 (by unfold clear; rw [if_pos he]) 0)⟩
        show _ = if succeeds (clear s io).1 = true then _ else _
        have hn : (apply s (.clear io)).2.nextId = s.nextId := by
          show (clear s io).2.nextId = _
          unfold clear; rw [if_pos he]
        rw [h1, hn]; rfl
      · have h1 := clear_fails (s := s) he
        have h2 : (apply s (.clear io)) = (false, s) := by
          show (succeeds (clear s io).1, (clear s io).2) = _
          rw [h1]; rfl
        rw [h2]
        exact ⟨_, rfl, follows evs s old cur p hi hd⟩
    | restart =>
      obtain ⟨hres, hmax⟩ := hf
      have key : ∃ old' Q', Medium s.flash s.start old' Q' ∧ Survives (old.flatten ++ cur) p (old'.flatten ++ Q') := by
        rcases hres with hb | hr
        · obtain ⟨hl7, htm⟩ := hi.live hb
          have hids := ids_from hi.ids hmax
          have hdata := hi.data
          rw [hb, List.append_nil, St.mark, htm] at hdata
          have hdata : (s.flash (s.addr / 4096)).take (s.addr % 4096) = bytes cur := by simpa using hdata
          refine ⟨old, cur, ⟨hi.flashLen, hi.start, hi.count, hi.wrap, fun i es h => (hi.sec i es h).1, fun i h h' => (hi.free i h h').2, ?_, ?_, hi.ok, hids, hi.whole hb⟩,
            old.flatten ++ cur, [], [], by simp, Nat.zero_le _, by simp, .none _⟩
          · intro hlt
            obtain ⟨m, hm, hfl⟩ := hi.ready hlt
            have hm0 : m = 0 := by rw [hb] at hm; simpa using hm
            subst hm0
            rw [hdata, List.take_zero, List.nil_append] at hfl
            refine ⟨4096 - s.addr % 4096 - 0, ?_, by rw [← hi.pos]; exact hfl⟩
            have := hi.remain
            rw [hb] at this; simp at this; omega
          · intro h16
            have : s.addr % 4096 = 0 := by
              by_cases h : 0 < s.addr % 4096
              · have := hi.room h; omega
              · omega
            rw [this, List.take_zero] at hdata
            cases hcur : cur with
            | nil => rfl
            | cons e l =>
              have := bytes_pos (es := cur) (by rw [hcur]; nofun)
              rw [← hdata] at this; simp at this
        · exact crash hi hd hr hmax
      obtain ⟨old', Q', hM, hS⟩ := key
      obtain ⟨hi', hb', -, -⟩ := init_inv hM
      exact ⟨_, ⟨hS, rfl⟩, follows evs _ old' Q' 0 hi' (dur_zero hi' hb' 0)⟩

theorem empty_medium : Medium (fun _ => blank) 0 [] [] :=
  ⟨fun _ _ => blank_length, by decide, by decide, .inl rfl, nofun, fun _ _ _ => rfl, fun _ => ⟨4096, by decide, rfl⟩, fun _ => rfl, nofun,
    ⟨0, nofun, by decide⟩, by simp⟩

/-- **C91.** From an empty log on, whatever is created, flushed and cleared, however the flash fails
and whenever power is lost (between two headers), the log reads as the entries that were created, in order, with
consecutive identifiers; only the oldest ones are dropped, and only while fifteen or more are kept; a
flushed entry survives a loss of power; and the buffer stays within its bounds.  Missing: losses of
power in the middle of a header or between erasing and writing the first sector, the last
identifier, and a log read while half of the end mark of a sector is written. -/
theorem log_history_partial (evs : List Event) : Follows (init fun _ => blank) {} evs := by
  obtain ⟨hi, hb, -, -⟩ := init_inv empty_medium
  have h := follows evs _ [] [] 0 hi (dur_zero hi hb 0)
  have e : (init fun _ => blank).nextId = 0 := by
    show (scanAll fun _ => blank).id = 0
    rcases (found_linear empty_medium).id with ⟨-, h⟩ | ⟨b, -, -, h⟩
    · exact h
    · obtain ⟨w, w0, -, -, w3, -⟩ := phase_blank (flash := fun _ => blank) 16 0 {} (fun _ _ => rfl) (.inr ⟨rfl, rfl⟩) (by decide)
      rw [scanAll_eq, w0, w3]
  rw [e] at h
  exact h

/-- **C91, success.** With a flash that works, an entry of 1 to 4089 bytes is always accepted and
flushing always succeeds. -/
theorem save_works {io : Io} (h : Works io s) : (save s io).1 = .ok () := by
  obtain ⟨he, hw, -⟩ := h
  unfold save
  by_cases hb : s.buf = []
  · rw [if_pos hb]
  · rw [if_neg hb]
    have hp : ∃ u, prepare s io = (true, u) ∧ u.buf = s.buf := by
      unfold prepare
      by_cases h0 : s.addr % secLen = 0
      · rw [if_pos h0, if_pos he]; exact ⟨_, rfl, rfl⟩
      · rw [if_neg h0]; exact ⟨_, rfl, rfl⟩
    obtain ⟨u, hu, hub⟩ := hp
    rw [hu]
    dsimp only
    rw [hw]
    dsimp only
    rw [hub, if_pos rfl]

theorem create_works {io : Io} {d : Bytes} (h1 : 1 ≤ d.length) (h2 : d.length ≤ 4089) (h : Works io (terminate s)) : (create s d io).1 = .ok () := by
  unfold create
  rw [if_neg (by simp only [hdrLen, secLen]; omega)]
  by_cases hs : s.terminated = true ∨ s.remain < hdrLen + d.length
  · rw [if_pos hs]
    have := save_works h
    revert this
    cases save (terminate s) io with
    | mk r t =>
      rintro h
      have h : r = .ok () := h
      subst h
      rfl
  · rw [if_neg hs]

/-! ### Flash from which the log can be restored -/

/-- A sector with complete entries of which no identifier is near the last one is not one with part of a
header. -/
theorem not_torn : ∀ (es : List Entry) (n : Nat), (∀ e ∈ es, e.id < 0xFF000000) → (∀ e ∈ es, e.Ok) →
    ¬ TornHeader (bytes es ++ List.replicate n 0xFF)
  | [], n, _, _ => by
    rintro ⟨es, e, j, m, -, -, h0, h7, h⟩
    rw [bytes_nil, List.nil_append] at h
    have hh : ∀ l : Bytes, List.replicate n 0xFF ≠ 0xCB :: l := by
      intro l hl
      have : (0xCB : UInt8) ∈ List.replicate n (0xFF : UInt8) := by rw [hl]; simp
      exact absurd (List.eq_of_mem_replicate this) (by decide)
    cases es with
    | nil =>
      obtain ⟨j, rfl⟩ : ∃ k, j = k + 1 := ⟨j - 1, by omega⟩
      exact hh _ h
    | cons x es => exact hh _ h
  | x :: es, n, hid, hok => by
    rintro ⟨es', e, j, m, ho', he, h0, h7, h⟩
    have hx := hok x (by simp)
    have hform : ∀ (y : Entry) (r : Bytes), y.bytes ++ r = [0xCB] ++ (toLE 2 (7 + y.data.length) ++ (toLE 4 y.id ++ (y.data ++ r))) := by
      intro y r; unfold Entry.bytes; simp only [List.append_assoc]
    rw [bytes_cons, List.append_assoc] at h
    cases es' with
    | nil =>
      -- the last byte of the identifier
      rw [bytes_nil, List.nil_append] at h
      have hl := congrArg (fun l : Bytes => l[6]?) h
      have h6 : (x.bytes ++ (bytes es ++ List.replicate n 0xFF))[6]? = some (UInt8.ofNat (x.id / 256 / 256 / 256)) := by rw [hform]; rfl
      have hjl : (e.bytes.take j).length = j := by rw [List.length_take, entry_length]; omega
      have h6' : (e.bytes.take j ++ List.replicate m (0xFF : UInt8))[6]? = some 0xFF := by
        rw [List.getElem?_append_right (by omega), hjl]
        have hm : 6 - j < m := by
          have := congrArg List.length h
          simp only [List.length_append, entry_length, hjl, List.length_replicate] at this
          omega
        rw [List.getElem?_replicate, if_pos hm]
      rw [h6, h6'] at hl
      have := hid x (by simp)
      have hb := congrArg UInt8.toNat (Option.some.inj hl)
      rw [UInt8.toNat_ofNat'] at hb
      have h255 : (0xFF : UInt8).toNat = 255 := rfl
      rw [h255] at hb
      omega
    | cons y es' =>
      rw [bytes_cons, List.append_assoc, hform, hform] at h
      have h := List.append_cancel_left h
      obtain ⟨h1, h2⟩ := List.append_inj h (by simp)
      obtain ⟨h3, h4⟩ := List.append_inj h2 (by simp)
      have hy := ho' y (by simp)
      have hlen : x.data.length = y.data.length := by
        have := congrArg leNat h1
        rw [leNat_toLE, leNat_toLE, Nat.mod_eq_of_lt (by have := hx.2.1; omega), Nat.mod_eq_of_lt (by have := hy.2.1; omega)] at this
        omega
      obtain ⟨-, h6⟩ := List.append_inj h4 hlen
      exact not_torn es n (fun e he => hid e (by simp [he])) (fun e he => hok e (by simp [he]))
        ⟨es', e, j, m, fun z hz => ho' z (by simp [hz]), he, h0, h7, h6⟩

/-! ### What goes wrong -/

theorem blank_two {v : Scan} (hf : v.found = 2) (ha : v.addr % 4096 ≤ 4089) (sec : Nat) : scanSector v sec blank = v := by
  rw [scanSector_eq, blank_eq, scan_blank _ _ _ (by decide)]
  have : v.noEntry (List.replicate 4096 0xFF) = v := by unfold Scan.noEntry; rw [if_neg (by omega)]
  rw [this, fix_id ha]

/-- An entry with the last identifier: the scan takes it for an old one. -/
theorem stuck {flash : Nat → Bytes} {a b : Entry} {n : Nat} (h0 : flash 0 = bytes [a, b] ++ List.replicate n 0xFF) (hn : 7 ≤ n)
    (hrest : ∀ i, 0 < i → i < 16 → flash i = blank) (ha : a.Ok) (hb : b.Ok) (hid : a.id < 2 ^ 32 - 1) (hbid : b.id = 2 ^ 32 - 1) (hs : a.bytes.length ≤ 4089) :
    (init flash).addr = a.bytes.length ∧ (init flash).start = 0 ∧ (init flash).used 0 = (bytes [a, b]).length ∧ (init flash).nextId = a.id + 1 ∧
    ∀ i, 0 < i → (init flash).used i = 0 := by
  have hm : (a.id + 1) % 2 ^ 32 = a.id + 1 := Nat.mod_eq_of_lt (by omega)
  have h1 : Scan.read 0 {} a = { addr := 0 + (7 + a.data.length), id := a.id + 1, prev := a.id + 1, used := set (fun _ => 0) 0 (0 + (7 + a.data.length)) } := by
    unfold Scan.read Scan.entry
    dsimp only
    rw [if_pos (by decide), hm, if_neg (by omega), if_pos rfl]
  have h2 : Scan.read 0 (Scan.read 0 {} a) b =
      { addr := 0 + (7 + a.data.length), id := a.id + 1, prev := a.id + 1, found := 2, start := 0
        used := set (set (fun _ => 0) 0 (0 + (7 + a.data.length))) 0 ((set (fun _ => 0) 0 (0 + (7 + a.data.length))) 0 + (7 + b.data.length)) } := by
    rw [h1]
    unfold Scan.read Scan.entry
    dsimp only
    rw [if_pos (by decide), hbid, show (2 ^ 32 - 1 + 1) % 2 ^ 32 = 0 by decide, if_pos (by omega)]
  rw [entry_length] at hs
  have hscan : scanAll flash = Scan.read 0 (Scan.read 0 {} a) b := by
    have e0 : step flash {} 0 = Scan.read 0 (Scan.read 0 {} a) b := by
      unfold step
      rw [h0, scanSector_eq, scan_entries 0 _ [a, b] {} (by simp [ha, hb]), scan_blank _ _ _ hn]
      show ((Scan.read 0 (Scan.read 0 {} a) b).noEntry _).fix = _
      have : (Scan.read 0 (Scan.read 0 {} a) b).noEntry (List.replicate n 0xFF) = Scan.read 0 (Scan.read 0 {} a) b := by
        unfold Scan.noEntry; rw [if_neg (by rw [h2]; simp)]
      rw [this, fix_id (by rw [h2]; dsimp only; omega)]
    have hrec : ∀ k m, 0 < k → k + m ≤ 16 → (List.range' k m).foldl (step flash) (Scan.read 0 (Scan.read 0 {} a) b) = Scan.read 0 (Scan.read 0 {} a) b := by
      intro k m
      induction m generalizing k with
      | zero => intros; rfl
      | succ m ih =>
        intro hk hkm
        rw [List.range'_succ, List.foldl_cons]
        have : step flash (Scan.read 0 (Scan.read 0 {} a) b) k = Scan.read 0 (Scan.read 0 {} a) b := by
          unfold step
          rw [hrest k hk (by omega)]
          exact blank_two (by rw [h2]) (by rw [h2]; dsimp only; omega) k
        rw [this]
        exact ih (k + 1) (by omega) (by omega)
    rw [scanAll_eq, show (16 : Nat) = 15 + 1 from rfl, List.range'_succ, List.foldl_cons, e0]
    exact hrec 1 15 (by decide) (by decide)
  refine ⟨?_, ?_, ?_, ?_, ?_⟩
  · show (if (scanAll flash).addr ≥ 16 * 4096 then 0 else (scanAll flash).addr) = _
    rw [hscan, h2, if_neg (by dsimp only; omega), entry_length]
    simp
  · show (scanAll flash).start = _
    rw [hscan, h2]
  · show (scanAll flash).used 0 = _
    rw [hscan, h2]
    dsimp only
    rw [set_same, set_same, bytes_cons, bytes_cons, List.length_append, List.length_append, entry_length, entry_length, bytes_nil]; simp
  · show (scanAll flash).id = _
    rw [hscan, h2]
  · intro i hi
    show (scanAll flash).used i = _
    rw [hscan, h2]
    dsimp only
    rw [set_ne _ _ (by omega), set_ne _ _ (by omega)]

end Verif.LoggingFlash
