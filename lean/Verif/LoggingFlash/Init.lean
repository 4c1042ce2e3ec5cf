import Verif.LoggingFlash.Scan
/-! The log after a restart. -/
namespace Verif.LoggingFlash
open Spec

/-- One sector of the scan. -/
def step (flash : Nat → Bytes) (v : Scan) (i : Nat) : Scan := scanSector v i (flash i)

variable {flash : Nat → Bytes}

theorem flatten_pos {L : List (List Entry)} (h : ∀ (i : Nat) es, L[i]? = some es → es ≠ []) (hne : L ≠ []) : 0 < L.flatten.length := by
  cases L with
  | nil => exact (hne rfl).elim
  | cons es L =>
    have := List.length_pos_iff.2 (h 0 es rfl)
    rw [List.flatten_cons, List.length_append]; omega

theorem phase_newer (hlen : ∀ i, i < 16 → (flash i).length = 4096) : ∀ (L : List (List Entry)) (k b : Nat) (v : Scan),
    (∀ i es, L[i]? = some es → Sector (flash (k + i)) es) → k + L.length ≤ 16 → From b L.flatten → b + L.flatten.length < 2 ^ 32 →
    v.found = 0 → v.prev ≤ b + 1 → v.addr = k * 4096 →
    ∃ w, (List.range' k L.length).foldl (step flash) v = w ∧ w.found = 0 ∧ w.start = v.start ∧ w.addr = (k + L.length) * 4096 ∧
      w.prev = (if L = [] then v.prev else b + L.flatten.length) ∧ w.id = (if L = [] then v.id else b + L.flatten.length) ∧
      (∀ i es, L[i]? = some es → w.used (k + i) = v.used (k + i) + (bytes es).length) ∧
      (∀ j, j < k ∨ k + L.length ≤ j → w.used j = v.used j)
  | [], k, b, v, _, _, _, _, hf, _, ha => ⟨v, rfl, hf, rfl, ha, rfl, rfl, nofun, fun _ _ => rfl⟩
  | es :: L, k, b, v, hs, hk, hfrom, hb, hf, hp, ha => by
    rw [List.length_cons] at hk
    rw [List.flatten_cons] at hfrom hb
    rw [List.length_append] at hb
    have hs0 : Sector (flash k) es := hs 0 es rfl
    have hpos := List.length_pos_iff.2 hs0.ne
    obtain ⟨f1, f2⟩ := hfrom.append
    obtain ⟨s1, s2, s3, s4, s5, s6, s7⟩ := sector_newer hs0 (hlen k (by omega)) f1 (by omega) hf hp ha
    obtain ⟨w, w0, w1, w2, w3, w4, w5, w6, w7⟩ := phase_newer hlen L (k + 1) (b + es.length) (step flash v k)
      (fun i x hx => by rw [show k + 1 + i = k + (i + 1) by omega]; exact hs (i + 1) x hx) (by omega) f2 (by omega) s1
      (by unfold step; rw [s4]; omega) s3
    refine ⟨w, ?_, w1, by rw [w2]; exact s2, by rw [w3, List.length_cons]; omega, ?_, ?_, ?_, ?_⟩
    · rw [List.length_cons, List.range'_succ, List.foldl_cons]; exact w0
    · rw [w4, if_neg (c := es :: L = []) nofun, List.flatten_cons, List.length_append]
      by_cases hL : L = []
      · subst hL; rw [if_pos rfl]; exact s4
      · rw [if_neg hL]; omega
    · rw [w5, if_neg (c := es :: L = []) nofun, List.flatten_cons, List.length_append]
      by_cases hL : L = []
      · subst hL; rw [if_pos rfl]; exact s5
      · rw [if_neg hL]; omega
    · intro i x hx
      cases i with
      | zero =>
        cases hx
        rw [w7 _ (.inl (by omega))]; exact s6
      | succ i =>
        rw [show k + (i + 1) = k + 1 + i by omega, w6 i x hx]
        unfold step
        rw [s7 _ (by omega)]
    · intro j hj
      rw [List.length_cons] at hj
      rw [w7 j (by omega)]
      exact s7 j (by omega)

theorem phase_blank : ∀ (n k : Nat) (v : Scan), (∀ i, i < n → flash (k + i) = blank) → (v.found = 1 ∨ (v.found = 0 ∧ v.addr % 4096 = 0)) →
    v.addr % 4096 ≤ 4089 →
    ∃ w, (List.range' k n).foldl (step flash) v = w ∧ w.start = v.start ∧ w.addr = v.addr ∧ w.id = v.id ∧ w.used = v.used
  | 0, k, v, _, _, _ => ⟨v, rfl, rfl, rfl, rfl, rfl⟩
  | n + 1, k, v, h, hf, ha => by
    have e : step flash v k = { v with found := 1 } := by
      unfold step
      rw [show flash k = blank from h 0 (by omega)]
      exact sector_blank hf ha
    obtain ⟨w, w0, w1, w2, w3, w4⟩ := phase_blank n (k + 1) { v with found := 1 }
      (fun i hi => by rw [show k + 1 + i = k + (i + 1) by omega]; exact h (i + 1) (by omega)) (.inl rfl) ha
    refine ⟨w, ?_, w1, w2, w3, w4⟩
    rw [List.range'_succ, List.foldl_cons, e]; exact w0

theorem phase_two (hlen : ∀ i, i < 16 → (flash i).length = 4096) : ∀ (L : List (List Entry)) (k : Nat) (v : Scan),
    (∀ i es, L[i]? = some es → Sector (flash (k + i)) es) → k + L.length ≤ 16 → v.found = 2 → v.addr % 4096 ≤ 4089 →
    ∃ w, (List.range' k L.length).foldl (step flash) v = w ∧ w.start = v.start ∧ w.addr = v.addr ∧ w.id = v.id ∧
      (∀ i es, L[i]? = some es → w.used (k + i) = v.used (k + i) + (bytes es).length) ∧
      (∀ j, j < k ∨ k + L.length ≤ j → w.used j = v.used j)
  | [], k, v, _, _, _, _ => ⟨v, rfl, rfl, rfl, rfl, nofun, fun _ _ => rfl⟩
  | es :: L, k, v, hs, hk, hf, ha => by
    rw [List.length_cons] at hk
    have hs0 : Sector (flash k) es := hs 0 es rfl
    obtain ⟨s1, s2, s3, s5, s6, s7⟩ := sector_two (sec := k) hs0 (hlen k (by omega)) hf ha
    obtain ⟨w, w0, w2, w3, w5, w6, w7⟩ := phase_two hlen L (k + 1) (step flash v k)
      (fun i x hx => by rw [show k + 1 + i = k + (i + 1) by omega]; exact hs (i + 1) x hx) (by omega) s1 (by unfold step; rw [s3]; exact ha)
    refine ⟨w, ?_, by rw [w2]; exact s2, by rw [w3]; exact s3, by rw [w5]; exact s5, ?_, ?_⟩
    · rw [List.length_cons, List.range'_succ, List.foldl_cons]; exact w0
    · intro i x hx
      cases i with
      | zero =>
        cases hx
        rw [w7 _ (.inl (by omega))]; exact s6
      | succ i =>
        rw [show k + (i + 1) = k + 1 + i by omega, w6 i x hx]
        unfold step
        rw [s7 _ (by omega)]
    · intro j hj
      rw [List.length_cons] at hj
      rw [w7 j (by omega)]
      exact s7 j (by omega)

theorem phase_older (hlen : ∀ i, i < 16 → (flash i).length = 4096) {L : List (List Entry)} {k b : Nat} {v : Scan}
    (hs : ∀ i es, L[i]? = some es → Sector (flash (k + i)) es) (hk : k + L.length ≤ 16) (hne : L ≠ []) (hfrom : From b L.flatten)
    (hb : b + 1 < 2 ^ 32) (hf : v.found < 2) (hp : b + 1 < v.prev) (ha : v.addr % 4096 ≤ 4089) :
    ∃ w, (List.range' k L.length).foldl (step flash) v = w ∧ w.start = k ∧ w.addr = v.addr ∧ w.id = v.prev ∧
      (∀ i es, L[i]? = some es → w.used (k + i) = v.used (k + i) + (bytes es).length) ∧
      (∀ j, j < k ∨ k + L.length ≤ j → w.used j = v.used j) := by
  cases L with
  | nil => exact (hne rfl).elim
  | cons es L =>
    rw [List.length_cons] at hk
    rw [List.flatten_cons] at hfrom
    have hs0 : Sector (flash k) es := hs 0 es rfl
    obtain ⟨s1, s2, s3, s5, s6, s7⟩ := sector_older (sec := k) hs0 (hlen k (by omega)) hfrom.append.1 hb hf hp ha
    obtain ⟨w, w0, w2, w3, w5, w6, w7⟩ := phase_two hlen L (k + 1) (step flash v k)
      (fun i x hx => by rw [show k + 1 + i = k + (i + 1) by omega]; exact hs (i + 1) x hx) (by omega) s1 (by unfold step; rw [s3]; exact ha)
    refine ⟨w, ?_, by rw [w2]; exact s2, by rw [w3]; exact s3, by rw [w5]; exact s5, ?_, ?_⟩
    · rw [List.length_cons, List.range'_succ, List.foldl_cons]; exact w0
    · intro i x hx
      cases i with
      | zero =>
        cases hx
        rw [w7 _ (.inl (by omega))]; exact s6
      | succ i =>
        rw [show k + (i + 1) = k + 1 + i by omega, w6 i x hx]
        unfold step
        rw [s7 _ (by omega)]
    · intro j hj
      rw [List.length_cons] at hj
      rw [w7 j (by omega)]
      exact s7 j (by omega)

/-- Flash that holds complete sectors `old` from sector `r` on, followed by one with `Q`. -/
structure Medium (flash : Nat → Bytes) (r : Nat) (old : List (List Entry)) (Q : List Entry) : Prop where
  len : ∀ i, i < 16 → (flash i).length = 4096
  start : r < 16
  count : old.length ≤ 16
  wrap : r = 0 ∨ 15 ≤ old.length
  sec : ∀ i es, old[i]? = some es → Sector (flash ((r + i) % 16)) es
  free : ∀ i, old.length < i → i < 16 → flash ((r + i) % 16) = blank
  part : old.length < 16 → ∃ n, 7 ≤ n ∧ flash ((r + old.length) % 16) = bytes Q ++ List.replicate n 0xFF
  full : old.length = 16 → Q = []
  ok : ∀ e ∈ Q, e.Ok
  ids : ∃ b, From b (old.flatten ++ Q) ∧ b + (old.flatten ++ Q).length < 2 ^ 32
  found : ¬ (r = 1 ∧ old.length = 15 ∧ Q = [])

/-- What the scan finds. -/
structure Found (w : Scan) (r : Nat) (old : List (List Entry)) (Q : List Entry) : Prop where
  start : w.start = r
  addr : w.addr = (if r = 0 then old.length else (r + old.length) % 16) * 4096 + (bytes Q).length
  id : (old.flatten ++ Q = [] ∧ w.id = 0) ∨ ∃ b, From b (old.flatten ++ Q) ∧ b + (old.flatten ++ Q).length < 2 ^ 32 ∧ w.id = b + (old.flatten ++ Q).length
  used : ∀ i es, old[i]? = some es → w.used ((r + i) % 16) = (bytes es).length
  part : old.length < 16 → w.used ((r + old.length) % 16) = (bytes Q).length
  free : ∀ i, old.length < i → i < 16 → w.used ((r + i) % 16) = 0

theorem scanAll_eq (flash : Nat → Bytes) : scanAll flash = (List.range' 0 16).foldl (step flash) {} := by
  unfold scanAll
  rw [List.range_eq_range']; rfl

theorem found_linear {old : List (List Entry)} {Q : List Entry} (m : Medium flash 0 old Q) : Found (scanAll flash) 0 old Q := by
  obtain ⟨b, hfrom, hb⟩ := m.ids
  rw [List.length_append] at hb
  have hfa := hfrom.append
  have hc := m.count
  have hsec : ∀ i es, old[i]? = some es → Sector (flash (0 + i)) es := by
    intro i es h
    have hil := (List.getElem?_eq_some_iff.1 h).1
    have := m.sec i es h
    rwa [Nat.mod_eq_of_lt (by omega)] at this
  obtain ⟨w, w0, w1, w2, w3, w4, w5, w6, w7⟩ := phase_newer m.len old 0 b {} hsec (by omega) hfa.1 (by omega) rfl (by show 0 ≤ _; omega) rfl
  by_cases h16 : old.length = 16
  · have hQ := m.full h16
    subst hQ
    have e : scanAll flash = w := by rw [scanAll_eq, ← w0, h16]
    rw [e]
    have hne : old ≠ [] := by rintro rfl; simp at h16
    refine ⟨w2, by rw [w3, if_pos rfl]; simp [bytes_nil], .inr ⟨b, hfrom, by simpa using hb, ?_⟩, ?_, fun h => by omega, fun i h h' => by omega⟩
    · rw [w5, if_neg hne, List.append_nil]
    · intro i es h
      have hil := (List.getElem?_eq_some_iff.1 h).1
      have := w6 i es h
      rw [Nat.mod_eq_of_lt (by omega), this]; simp
  · obtain ⟨n, hn, hcur⟩ := m.part (by omega)
    have hcur' := hcur
    rw [Nat.zero_add, Nat.mod_eq_of_lt (by omega)] at hcur
    have hl := m.len old.length (by omega)
    rw [hcur, List.length_append, List.length_replicate] at hl
    have hwp : w.prev ≤ b + old.flatten.length + 1 := by
      rw [w4]; split
      · show 0 ≤ _; omega
      · omega
    obtain ⟨c1, c2, c3, c4, c5, c6, c7⟩ := sector_current (sec := old.length) (v := w) m.ok hn hl hfa.2 (by omega) w1 hwp (by rw [w3]; omega)
    rw [← hcur] at c1 c2 c3 c4 c5 c6 c7
    obtain ⟨x, x0, x1, x2, x3, x4⟩ := phase_blank (flash := flash) (15 - old.length) (old.length + 1) (scanSector w old.length (flash old.length))
      (fun i hi => by
        have := m.free (old.length + 1 + i) (by omega) (by omega)
        rwa [Nat.zero_add, Nat.mod_eq_of_lt (by omega)] at this) (.inl c1) (by rw [c3]; omega)
    have e : scanAll flash = x := by
      have hr : List.range' 0 16 = List.range' 0 old.length ++ (old.length :: List.range' (old.length + 1) (15 - old.length)) := by
        rw [← List.range'_succ]
        have := List.range'_append_1 (s := 0) (m := old.length) (n := 15 - old.length + 1)
        rw [Nat.zero_add] at this
        rw [this]; congr 1; omega
      rw [scanAll_eq, hr, List.foldl_append, w0, List.foldl_cons]
      exact x0
    rw [e]
    refine ⟨by rw [x1, c2, w2], by rw [x2, c3, if_pos rfl], ?_, ?_, ?_, ?_⟩
    · rw [x3, c5]
      by_cases hQ : Q = []
      · subst hQ
        rw [if_pos rfl, w5]
        by_cases ho : old = []
        · subst ho; exact .inl ⟨rfl, by rw [if_pos rfl]⟩
        · rw [if_neg ho]; exact .inr ⟨b, hfrom, by simpa using hb, by simp⟩
      · rw [if_neg hQ]; exact .inr ⟨b, hfrom, by rw [List.length_append]; exact hb, by rw [List.length_append]; omega⟩
    · intro i es h
      have hil := (List.getElem?_eq_some_iff.1 h).1
      rw [x4, Nat.zero_add, Nat.mod_eq_of_lt (by omega), c7 i (by omega)]
      have := w6 i es h
      rw [Nat.zero_add] at this
      rw [this]; simp
    · intro _
      rw [x4, Nat.zero_add, Nat.mod_eq_of_lt (by omega), c6, w7 _ (.inr (by omega))]; simp
    · intro i h h'
      rw [x4, Nat.zero_add, Nat.mod_eq_of_lt (by omega), c7 i (by omega), w7 _ (.inr (by omega))]

theorem found_wrapped {r : Nat} {old : List (List Entry)} {Q : List Entry} (m : Medium flash r old Q) (hr : 0 < r) : Found (scanAll flash) r old Q := by
  obtain ⟨b, hfrom, hb⟩ := m.ids
  have hc := m.count
  have hr16 := m.start
  have hN : 15 ≤ old.length := by have := m.wrap; omega
  have htd : old = old.take (16 - r) ++ old.drop (16 - r) := (List.take_append_drop _ _).symm
  have htl : (old.take (16 - r)).length = 16 - r := by rw [List.length_take]; omega
  have hdl : (old.drop (16 - r)).length = old.length - (16 - r) := List.length_drop
  have hsplit : old.flatten = (old.take (16 - r)).flatten ++ (old.drop (16 - r)).flatten := by rw [← List.flatten_append, ← htd]
  have hnew : ∀ i es, (old.drop (16 - r))[i]? = some es → Sector (flash (0 + i)) es := by
    intro i es h
    have hil := (List.getElem?_eq_some_iff.1 h).1
    rw [List.getElem?_drop] at h
    have := m.sec _ es h
    rwa [show (r + (16 - r + i)) % 16 = 0 + i by omega] at this
  have hold : ∀ i es, (old.take (16 - r))[i]? = some es → Sector (flash (r + i)) es := by
    intro i es h
    have hil := (List.getElem?_eq_some_iff.1 h).1
    rw [List.getElem?_take_of_lt (by omega)] at h
    have := m.sec _ es h
    rwa [show (r + i) % 16 = r + i by omega] at this
  have hfrom' := hfrom
  rw [hsplit, List.append_assoc] at hfrom'
  have hfo := hfrom'.append
  have hfn := hfo.2.append
  have hb' : b + (old.take (16 - r)).flatten.length + (old.drop (16 - r)).flatten.length + Q.length < 2 ^ 32 := by
    rw [hsplit, List.length_append, List.length_append] at hb; omega
  have hop : 0 < (old.take (16 - r)).flatten.length :=
    flatten_pos (fun i es h => (hold i es h).ne) (by intro h; rw [h] at htl; simp at htl; omega)
  have hnp : old.drop (16 - r) ≠ [] → 0 < (old.drop (16 - r)).flatten.length := flatten_pos (fun i es h => (hnew i es h).ne)
  obtain ⟨w, w0, w1, w2, w3, w4, w5, w6, w7⟩ := phase_newer m.len (old.drop (16 - r)) 0 _ {} hnew (by omega) hfn.1 (by omega) rfl (by show 0 ≤ _; omega) rfl
  -- the sector that is being filled
  have hmid : ∃ x, (List.range' 0 r).foldl (step flash) {} = x ∧ x.found < 2 ∧ x.addr = ((r + old.length) % 16) * 4096 + (bytes Q).length ∧ (bytes Q).length ≤ 4089 ∧
      x.prev = b + (old.flatten ++ Q).length ∧
      (∀ i es, (old.drop (16 - r))[i]? = some es → x.used (0 + i) = (bytes es).length) ∧
      (old.length < 16 → x.used (r - 1) = (bytes Q).length) ∧ (∀ j, r ≤ j → x.used j = 0) := by
    have hprev : (old.flatten ++ Q).length = (old.take (16 - r)).flatten.length + (old.drop (16 - r)).flatten.length + Q.length := by
      rw [hsplit, List.length_append, List.length_append]
    by_cases h16 : old.length = 16
    · have hQ := m.full h16
      have hne : old.drop (16 - r) ≠ [] := by intro h; rw [h] at hdl; simp at hdl; omega
      rw [hdl, h16, show 16 - (16 - r) = r by omega] at w0
      refine ⟨w, w0, by omega, by rw [w3, hQ, bytes_nil, List.length_nil]; omega, by rw [hQ]; decide, ?_, ?_, fun h => by omega, ?_⟩
      · rw [w4, if_neg hne, hprev, hQ, List.length_nil]; omega
      · intro i es h; rw [w6 i es h]; simp
      · intro j hj; exact w7 j (.inr (by omega))
    · have h15 : old.length = 15 := by omega
      obtain ⟨n, hn, hcur⟩ := m.part (by omega)
      have hpos : (r + old.length) % 16 = r - 1 := by omega
      rw [hpos] at hcur ⊢
      have hl := m.len (r - 1) (by omega)
      rw [hcur, List.length_append, List.length_replicate] at hl
      have hwp : w.prev ≤ b + (old.take (16 - r)).flatten.length + (old.drop (16 - r)).flatten.length + 1 := by
        rw [w4]; split
        · show 0 ≤ _; omega
        · omega
      obtain ⟨c1, c2, c3, c4, c5, c6, c7⟩ := sector_current (sec := r - 1) (v := w) m.ok hn hl hfn.2 (by omega) w1 hwp (by rw [w3]; omega)
      rw [← hcur] at c1 c2 c3 c4 c5 c6 c7
      refine ⟨scanSector w (r - 1) (flash (r - 1)), ?_, by omega, c3, by omega, ?_, ?_, ?_, ?_⟩
      · have he : List.range' 0 r = List.range' 0 (old.drop (16 - r)).length ++ [r - 1] := by
          rw [show [r - 1] = List.range' (0 + (old.drop (16 - r)).length) 1 by rw [hdl]; simp; omega, List.range'_append_1]
          congr 1; omega
        rw [he, List.foldl_append, w0]; rfl
      · rw [c4, hprev]
        by_cases hQ : Q = []
        · have hne : old.drop (16 - r) ≠ [] := by
            intro h; rw [h] at hdl; simp at hdl
            exact m.found ⟨by omega, h15, hQ⟩
          rw [if_pos hQ, w4, if_neg hne, hQ, List.length_nil]; omega
        · rw [if_neg hQ]; omega
      · intro i es h
        have hil := (List.getElem?_eq_some_iff.1 h).1
        rw [c7 _ (by omega), w6 i es h]; simp
      · intro _; rw [c6, w7 _ (.inr (by omega))]; simp
      · intro j hj; rw [c7 _ (by omega), w7 _ (.inr (by omega))]
  obtain ⟨x, x0, x1, x2, x3, x4, x5, x6, x7⟩ := hmid
  have hnq : old.drop (16 - r) ≠ [] ∨ Q ≠ [] := by
    by_cases hQ : Q = []
    · left
      intro h; rw [h] at hdl; simp at hdl
      exact m.found ⟨by omega, by omega, hQ⟩
    · exact .inr hQ
  have hp2 : b + 1 < x.prev := by
    rw [x4, hsplit, List.length_append, List.length_append]
    rcases hnq with h | h
    · have := hnp h; omega
    · have := List.length_pos_iff.2 h; omega
  obtain ⟨y, y0, y1, y2, y3, y4, y5⟩ := phase_older m.len hold (by omega) (by intro h; rw [h] at htl; simp at htl; omega) hfo.1 (by omega) x1 hp2
    (by rw [x2]; omega)
  have e : scanAll flash = y := by
    have he : List.range' 0 16 = List.range' 0 r ++ List.range' r (old.take (16 - r)).length := by
      rw [htl]
      have := List.range'_append_1 (s := 0) (m := r) (n := 16 - r)
      rw [Nat.zero_add] at this
      rw [this]; congr 1; omega
    rw [scanAll_eq, he, List.foldl_append, x0, y0]
  rw [e]
  refine ⟨y1, by rw [y2, x2, if_neg (by omega)], .inr ⟨b, hfrom, hb, by rw [y3, x4]⟩, ?_, ?_, ?_⟩
  · intro i es h
    have hil := (List.getElem?_eq_some_iff.1 h).1
    by_cases hlt : i < 16 - r
    · rw [show (r + i) % 16 = r + i by omega, y4 i es (by rw [List.getElem?_take_of_lt hlt]; exact h), x7 _ (by omega)]; simp
    · rw [show (r + i) % 16 = 0 + (i - (16 - r)) by omega, y5 _ (.inl (by omega))]
      exact x5 _ es (by rw [List.getElem?_drop, show 16 - r + (i - (16 - r)) = i by omega]; exact h)
  · intro h
    rw [show (r + old.length) % 16 = r - 1 by omega, y5 _ (.inl (by omega))]
    exact x6 h
  · intro i h h'; omega

/-- After a restart the log holds what is in the flash. -/
theorem init_inv {r : Nat} {old : List (List Entry)} {Q : List Entry} (m : Medium flash r old Q) :
    Inv (init flash) old Q ∧ (init flash).buf = [] ∧ (init flash).terminated = false ∧ (init flash).start = r := by
  have f : Found (scanAll flash) r old Q := by
    by_cases hr : r = 0
    · subst hr; exact found_linear m
    · exact found_wrapped m (by omega)
  have hc := m.count
  have hr := m.start
  have hwrap := m.wrap
  have hQ : (bytes Q).length ≤ 4089 := by
    by_cases h : old.length = 16
    · rw [m.full h]; decide
    · obtain ⟨n, hn, hcur⟩ := m.part (by omega)
      have := m.len ((r + old.length) % 16) (by omega)
      rw [hcur, List.length_append, List.length_replicate] at this
      omega
  have haddr : (init flash).addr = (r + old.length) % 16 * 4096 + (bytes Q).length := by
    show (if (scanAll flash).addr ≥ 16 * 4096 then 0 else (scanAll flash).addr) = _
    rw [f.addr]
    by_cases h0 : r = 0
    · rw [if_pos h0]
      by_cases h16 : old.length = 16
      · rw [if_pos (by omega), m.full h16, bytes_nil, List.length_nil]; omega
      · rw [if_neg (by omega)]; omega
    · rw [if_neg h0, if_neg (by omega)]
  have hdiv : (init flash).addr / 4096 = (r + old.length) % 16 := by omega
  have hmod : (init flash).addr % 4096 = (bytes Q).length := by omega
  have hst : (init flash).start = r := f.start
  have hrem : (init flash).remain = 4096 - (bytes Q).length := by
    show 4096 - (init flash).addr % 4096 = _
    rw [hmod]
  have hcur : (flash ((r + old.length) % 16)).take (bytes Q).length = bytes Q := by
    by_cases h : old.length = 16
    · rw [m.full h]; rfl
    · obtain ⟨n, hn, hcur⟩ := m.part (by omega)
      rw [hcur]; exact List.take_left' rfl
  refine ⟨⟨m.len, by rw [hst]; exact hr, hc, ?_, by rw [hst]; exact hwrap, by rw [haddr]; omega, by rw [hdiv, hst], ?_, ?_, ?_, ?_, ?_, m.ok, ?_, nofun, ?_, fun _ => by rw [hst]; exact m.found, ?_⟩,
    rfl, rfl, hst⟩
  · intro h
    by_cases h16 : old.length = 16
    · rw [hmod, m.full h16, bytes_nil] at h; simp at h
    · omega
  · intro i es h
    rw [hst]
    exact ⟨m.sec i es h, f.used i es h⟩
  · intro i h h'
    rw [hst]
    exact ⟨f.free i h h', m.free i h h'⟩
  · intro h
    rw [hdiv, hmod]; exact f.part h
  · rw [hdiv, hmod]
    show (flash _).take _ ++ [] = bytes Q ++ []
    rw [hcur]
  · intro h
    obtain ⟨n, hn, hfl⟩ := m.part h
    refine ⟨0, Nat.zero_le _, ?_⟩
    rw [hdiv, hmod]
    show flash _ = (flash _).take _ ++ ([] ++ _)
    rw [hcur, List.nil_append, hfl]
    have := m.len ((r + old.length) % 16) (by omega)
    rw [hfl, List.length_append, List.length_replicate] at this
    congr 2; omega
  · rw [hrem, hmod]
    show _ + 0 + _ = _
    omega
  · intro _
    exact ⟨by rw [hrem]; omega, rfl⟩
  · show Consecutive _ (scanAll flash).id
    rcases f.id with ⟨h1, h2⟩ | ⟨b, h1, h2, h3⟩
    · rw [h1, h2]; exact ⟨0, nofun, rfl⟩
    · refine ⟨b, ?_, by rw [h3, Nat.mod_eq_of_lt h2]⟩
      intro k e hk
      have := (List.getElem?_eq_some_iff.1 hk).1
      rw [h1 k e hk, Nat.mod_eq_of_lt (by omega)]

end Verif.LoggingFlash
