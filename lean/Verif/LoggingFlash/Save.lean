import Verif.LoggingFlash.Run
/-! Saving the buffer and creating entries. -/
namespace Verif.LoggingFlash
open Spec

variable {s : St} {old : List (List Entry)} {cur : List Entry}

theorem blank_length : blank.length = 4096 := List.length_replicate ..

theorem cur_pos (hi : Inv s old cur) : s.addr / 4096 < 16 := by have := hi.addr; omega

theorem take_add {A B : Bytes} {k : Nat} (h : A.length = k) (n : Nat) : (A ++ B).take (k + n) = A ++ B.take n := by
  subst h; rw [List.take_length_add_append]

theorem nextAddr_eq (a r : Nat) (t : Bool) : nextAddr a r t =
    if (if a % 4096 ≠ 0 ∧ (r < 7 ∨ t = true) then a / 4096 * 4096 + 4096 else a) ≥ 65536 then 0
    else if a % 4096 ≠ 0 ∧ (r < 7 ∨ t = true) then a / 4096 * 4096 + 4096 else a := rfl

theorem blank_eq : blank = List.replicate 4096 0xFF := rfl

/-- Sectors that are erased to make room. -/
def trim (old : List (List Entry)) : List (List Entry) := if old.length = 16 then old.tail else old

theorem trim_length (old : List (List Entry)) (h : old.length ≤ 16) : (trim old).length < 16 := by
  unfold trim; split
  · rw [List.length_tail]; omega
  · omega

theorem Consecutive.tail {a b : List Entry} {n : Nat} (h : Consecutive (a ++ b) n) : Consecutive b n := by
  obtain ⟨base, h1, h2⟩ := h
  refine ⟨base + a.length, fun k e hk => ?_, ?_⟩
  · rw [Nat.add_assoc]
    exact h1 (a.length + k) e (by rw [List.getElem?_append_right (by omega), Nat.add_sub_cancel_left]; exact hk)
  · rw [h2, List.length_append]; congr 1; omega

theorem erase_inv (hi : Inv s old cur) (hb : s.buf ≠ []) (h0 : s.addr % 4096 = 0) {io : Io} (he : io.erase = true) :
    (prepare s io).1 = true ∧ Inv (prepare s io).2 (trim old) cur ∧
    (prepare s io).2.buf = s.buf ∧ (prepare s io).2.addr = s.addr ∧ (prepare s io).2.remain = s.remain ∧ (prepare s io).2.terminated = s.terminated := by
  have hst := hi.start
  have hc := hi.count
  have hpos := hi.pos
  have hcp := cur_pos hi
  have hstart : (prepare s io).2.start = if old.length = 16 then (s.start + 1) % 16 else s.start := by
    unfold prepare
    rw [if_pos (show s.addr % secLen = 0 from h0), if_pos he]
    show (if s.start = s.addr / 4096 ∧ set s.used (s.addr / 4096) 0 ((s.start + 1) % 16) ≠ 0 then _ else _) = _
    by_cases hl : old.length = 16
    · rw [if_pos hl, if_pos]
      · rfl
      · refine ⟨by omega, ?_⟩
        rw [set_ne _ _ (by omega)]
        exact used_pos hi (i := 1) (by unfold count; omega)
    · rw [if_neg hl, if_neg]
      rintro ⟨h1, h2⟩
      rw [set_ne _ _ (by omega)] at h2
      exact h2 (hi.free 1 (by omega) (by omega)).1
  have hf : (prepare s io).2.flash = set s.flash (s.addr / 4096) blank := by
    unfold prepare; rw [if_pos (show s.addr % secLen = 0 from h0), if_pos he]; rfl
  have hu : (prepare s io).2.used = set s.used (s.addr / 4096) 0 := by
    unfold prepare; rw [if_pos (show s.addr % secLen = 0 from h0), if_pos he]; rfl
  have hrest : (prepare s io).1 = true ∧ (prepare s io).2.buf = s.buf ∧ (prepare s io).2.addr = s.addr ∧ (prepare s io).2.remain = s.remain ∧
      (prepare s io).2.terminated = s.terminated ∧ (prepare s io).2.nextId = s.nextId := by
    unfold prepare; rw [if_pos (show s.addr % secLen = 0 from h0), if_pos he]
    exact ⟨rfl, rfl, rfl, rfl, rfl, rfl⟩
  obtain ⟨r0, r1, r2, r3, r4, r5⟩ := hrest
  refine ⟨r0, ?_, r1, r2, r3, r4⟩
  -- positions in the old and in the new order
  have hrot : ∀ i, i < 16 → ((prepare s io).2.start + i) % 16 = if old.length = 16 then (s.start + (i + 1)) % 16 else (s.start + i) % 16 := by
    intro i hi; rw [hstart]; split <;> omega
  have htl : (trim old).length = if old.length = 16 then 15 else old.length := by
    unfold trim; split
    · rw [List.length_tail]; omega
    · rfl
  have hget : ∀ i, (trim old)[i]? = if old.length = 16 then old[i + 1]? else old[i]? := by
    intro i; unfold trim; split <;> simp
  refine ⟨?_, by rw [hstart]; split <;> omega, by rw [htl]; split <;> omega, by rw [r2]; omega, ?_, by rw [r2]; exact hi.addr, ?_, ?_, ?_, ?_, ?_, ?_,
    hi.ok, by rw [r1, r2, r3]; exact hi.remain, by rw [r4]; exact hi.marked, by rw [r1, r3, r4]; exact hi.live, by rw [r1]; exact fun h => (hb h).elim, ?_⟩
  · intro i h
    rw [hf]; unfold set; split
    · exact blank_length
    · exact hi.flashLen i h
  · rw [htl, hstart]
    have := hi.wrap
    split <;> omega
  · rw [r2, htl, hstart]; split <;> omega
  · intro i es h
    have hil : i < (trim old).length := (List.getElem?_eq_some_iff.1 h).1
    rw [hget] at h
    rw [hrot i (by rw [htl] at hil; split at hil <;> omega), hf, hu]
    by_cases hl : old.length = 16
    · rw [if_pos hl] at h ⊢
      rw [htl, if_pos hl] at hil
      rw [set_ne _ _ (by omega), set_ne _ _ (by omega)]
      exact hi.sec (i + 1) es h
    · rw [if_neg hl] at h ⊢
      rw [htl, if_neg hl] at hil
      rw [set_ne _ _ (by omega), set_ne _ _ (by omega)]
      exact hi.sec i es h
  · intro i h h16
    rw [hrot i h16, hf, hu]
    rw [htl] at h
    by_cases hl : old.length = 16
    · rw [if_pos hl] at h; omega
    · rw [if_neg hl] at h ⊢
      rw [set_ne _ _ (by omega), set_ne _ _ (by omega)]
      exact hi.free i h h16
  · intro _
    rw [hu, r2, set_same, h0]
  · rw [r1, r2, h0]
    have := hi.data
    rw [h0] at this
    rw [show (prepare s io).2.mark = s.mark by unfold St.mark; rw [r4]]
    simpa using this
  · intro _
    refine ⟨0, by omega, ?_⟩
    rw [r2, h0, hf, set_same, blank_eq, List.take_zero, List.take_zero, List.nil_append, List.nil_append]
  · rw [r5]
    have := hi.ids
    unfold trim; split
    · rename_i hl
      obtain ⟨a, l, rfl⟩ := List.exists_cons_of_length_pos (show 0 < old.length by omega)
      rw [List.flatten_cons, List.append_assoc] at this
      exact Consecutive.tail this
    · exact this

/-- The flash with part of the buffer programmed. -/
def St.prog (s : St) (p : Nat) : St :=
  { s with flash := set s.flash (s.addr / 4096) (program (s.flash (s.addr / 4096)) (s.addr % 4096) (s.buf.take p)) }

theorem prog_flash (hi : Inv s old cur) (hl : old.length < 16) (p : Nat) : ∃ m, m ≤ s.buf.length ∧ min p s.buf.length ≤ m ∧
    (s.prog p).flash (s.addr / 4096) = (s.flash (s.addr / 4096)).take (s.addr % 4096) ++
      (s.buf.take m ++ List.replicate (4096 - s.addr % 4096 - m) 0xFF) := by
  obtain ⟨m, hm, hf⟩ := hi.ready hl
  have hfl := hi.flashLen _ (cur_pos hi)
  have hr := hi.remain
  have hA : ((s.flash (s.addr / 4096)).take (s.addr % 4096)).length = s.addr % 4096 := by rw [List.length_take]; omega
  refine ⟨max m (min p s.buf.length), by omega, by omega, ?_⟩
  show set s.flash (s.addr / 4096) _ (s.addr / 4096) = _
  rw [set_same]
  have htk : s.buf.take p = s.buf.take (min p s.buf.length) := by
    rw [← List.take_take, List.take_of_length_le (i := s.buf.length) (Nat.le_refl _)]
  have hpp := program_prefix (A := (s.flash (s.addr / 4096)).take (s.addr % 4096)) (d := s.buf) (m := m) (p := min p s.buf.length)
    (k := 4096 - s.addr % 4096 - m) hm (by omega) (by omega)
  rw [hA, ← hf] at hpp
  rw [htk, hpp]
  congr 3
  omega

theorem prog_inv (hi : Inv s old cur) (hl : old.length < 16) (p : Nat) : Inv (s.prog p) old cur := by
  obtain ⟨m, hm, hm', hf⟩ := prog_flash hi hl p
  have hfl := hi.flashLen _ (cur_pos hi)
  have hr := hi.remain
  have hpos := hi.pos
  have hA : ((s.flash (s.addr / 4096)).take (s.addr % 4096)).length = s.addr % 4096 := by rw [List.length_take]; omega
  have hne : ∀ i, i < 16 → i ≠ old.length → (s.prog p).flash ((s.start + i) % 16) = s.flash ((s.start + i) % 16) := by
    intro i h h'
    exact set_ne _ _ (by rw [hpos]; exact pos_ne h hl h')
  have htake : ((s.prog p).flash (s.addr / 4096)).take (s.addr % 4096) = (s.flash (s.addr / 4096)).take (s.addr % 4096) := by
    rw [hf]; exact List.take_left' hA
  refine ⟨?_, hi.start, hi.count, hi.room, hi.wrap, hi.addr, hi.pos, ?_, ?_, hi.used, ?_, ?_, hi.ok, hi.remain, hi.marked, hi.live, hi.whole, hi.ids⟩
  · intro i h
    by_cases hc : i = s.addr / 4096
    · rw [hc, hf, List.length_append, hA, List.length_append, List.length_take, List.length_replicate]; omega
    · show (set s.flash _ _ i).length = _
      rw [set_ne _ _ hc]; exact hi.flashLen i h
  · intro i es h
    have hil := (List.getElem?_eq_some_iff.1 h).1
    have := hi.sec i es h
    show Sector ((s.prog p).flash ((s.start + i) % 16)) es ∧ _
    rw [hne i (by omega) (by omega)]; exact this
  · intro i h h16
    have := hi.free i h h16
    show _ ∧ (s.prog p).flash ((s.start + i) % 16) = blank
    rw [hne i h16 (by omega)]; exact this
  · show ((s.prog p).flash (s.addr / 4096)).take (s.addr % 4096) ++ s.buf = _
    rw [htake]; exact hi.data
  · intro _
    refine ⟨m, hm, ?_⟩
    show (s.prog p).flash (s.addr / 4096) = ((s.prog p).flash (s.addr / 4096)).take (s.addr % 4096) ++ _
    rw [htake]; exact hf

/-- A write that is not complete. -/
theorem partial_inv (hi : Inv s old cur) (hl : old.length < 16) {p n : Nat} (hp : n ≤ p) (hn : n < s.buf.length) :
    Inv { s.prog p with addr := s.addr + n, used := set s.used (s.addr / 4096) (s.used (s.addr / 4096) + n), buf := s.buf.drop n } old cur := by
  obtain ⟨m, hm, hm', hf⟩ := prog_flash hi hl p
  have hip := prog_inv hi hl p
  have hr := hi.remain
  have hpos := hi.pos
  have hcp := cur_pos hi
  have hA : ((s.flash (s.addr / 4096)).take (s.addr % 4096)).length = s.addr % 4096 := by
    rw [List.length_take, hi.flashLen _ hcp]; omega
  have hdiv : (s.addr + n) / 4096 = s.addr / 4096 := by omega
  have hmod : (s.addr + n) % 4096 = s.addr % 4096 + n := by omega
  have hu := hi.used hl
  have htake : ((s.prog p).flash (s.addr / 4096)).take (s.addr % 4096 + n) = (s.flash (s.addr / 4096)).take (s.addr % 4096) ++ s.buf.take n := by
    rw [hf, take_add hA, List.take_append_of_le_length (by rw [List.length_take]; omega), List.take_take,
      Nat.min_eq_left (by omega)]
  refine ⟨hip.flashLen, hi.start, hi.count, fun _ => by omega, hi.wrap, by show s.addr + n < _; omega, by rw [← hdiv] at hpos; exact hpos,
    ?_, ?_, ?_, ?_, ?_, hi.ok, ?_, hi.marked, ?_, ?_, hi.ids⟩
  · intro i es h
    have hil := (List.getElem?_eq_some_iff.1 h).1
    refine ⟨(hip.sec i es h).1, ?_⟩
    show set s.used (s.addr / 4096) _ ((s.start + i) % 16) = _
    rw [set_ne _ _ (by rw [hpos]; exact pos_ne (by omega) hl (by omega))]
    exact (hi.sec i es h).2
  · intro i h h16
    refine ⟨?_, (hip.free i h h16).2⟩
    show set s.used (s.addr / 4096) _ ((s.start + i) % 16) = _
    rw [set_ne _ _ (by rw [hpos]; exact pos_ne h16 hl (by omega))]
    exact (hi.free i h h16).1
  · intro _
    show set s.used (s.addr / 4096) _ ((s.addr + n) / 4096) = (s.addr + n) % 4096
    rw [hdiv, set_same, hmod, hu]
  · show ((s.prog p).flash ((s.addr + n) / 4096)).take ((s.addr + n) % 4096) ++ s.buf.drop n = bytes cur ++ s.mark
    rw [hdiv, hmod, htake, List.append_assoc, List.take_append_drop]
    exact hi.data
  · intro _
    refine ⟨m - n, by show _ ≤ (s.buf.drop n).length; rw [List.length_drop]; omega, ?_⟩
    show (s.prog p).flash ((s.addr + n) / 4096) = ((s.prog p).flash ((s.addr + n) / 4096)).take ((s.addr + n) % 4096) ++
      ((s.buf.drop n).take (m - n) ++ List.replicate (4096 - (s.addr + n) % 4096 - (m - n)) 0xFF)
    rw [hdiv, hmod, htake, hf, List.append_assoc, ← List.append_assoc (s.buf.take n)]
    congr 2
    · rw [show s.buf.take m = s.buf.take (n + (m - n)) by congr 1; omega, List.take_add]
    · congr 1; omega
  · show s.remain + (s.buf.drop n).length + (s.addr + n) % 4096 = 4096
    rw [List.length_drop]; omega
  all_goals
    intro h
    have h : s.buf.drop n = [] := h
    have := congrArg List.length h
    rw [List.length_drop] at this
    simp at this; omega

/-- State after a complete write. -/
def St.saved (s : St) (p : Nat) : St :=
  { s.prog p with
    addr := nextAddr (s.addr + s.buf.length) s.remain s.terminated
    used := set s.used (s.addr / 4096) (s.used (s.addr / 4096) + s.buf.length - if s.terminated then hdrLen else 0)
    buf := []
    remain := secLen - nextAddr (s.addr + s.buf.length) s.remain s.terminated % secLen
    terminated := false }

/-- A complete write within the sector. -/
theorem saved_inv_stay (hi : Inv s old cur) (hl : old.length < 16) (hb : s.buf ≠ []) {p : Nat} (hp : s.buf.length ≤ p)
    (hr7 : 7 ≤ s.remain) (ht : s.terminated = false) : Inv (s.saved p) old cur ∧ (s.saved p).addr = s.addr + s.buf.length := by
  obtain ⟨m, hm, hm', hf⟩ := prog_flash hi hl p
  have hip := prog_inv hi hl p
  have hr := hi.remain
  have hpos := hi.pos
  have hcp := cur_pos hi
  have hu := hi.used hl
  have hm2 : m = s.buf.length := by omega
  subst hm2
  have ha : nextAddr (s.addr + s.buf.length) s.remain s.terminated = s.addr + s.buf.length := by
    have hno : ¬((s.addr + s.buf.length) % 4096 ≠ 0 ∧ (s.remain < 7 ∨ s.terminated = true)) := by
      rw [ht]; rintro ⟨-, h | h⟩
      · omega
      · exact absurd h (by decide)
    rw [nextAddr_eq, if_neg hno, if_neg (by omega)]
  have hA : ((s.flash (s.addr / 4096)).take (s.addr % 4096)).length = s.addr % 4096 := by
    rw [List.length_take, hi.flashLen _ hcp]; omega
  have hdiv : (s.addr + s.buf.length) / 4096 = s.addr / 4096 := by omega
  have hmod : (s.addr + s.buf.length) % 4096 = s.addr % 4096 + s.buf.length := by omega
  have htake : ((s.prog p).flash (s.addr / 4096)).take (s.addr % 4096 + s.buf.length) = (s.flash (s.addr / 4096)).take (s.addr % 4096) ++ s.buf := by
    rw [hf, take_add hA, List.take_append_of_le_length (by rw [List.length_take]; omega), List.take_take,
      Nat.min_eq_left (by omega), List.take_of_length_le (Nat.le_refl _)]
  have hsa : (s.saved p).addr = s.addr + s.buf.length := ha
  refine ⟨⟨hip.flashLen, hi.start, hi.count, fun _ => by omega, hi.wrap, by rw [hsa]; omega, by rw [hsa]; exact hdiv ▸ hpos,
    ?_, ?_, ?_, ?_, ?_, hi.ok, ?_, nofun, ?_, ?_, hi.ids⟩, hsa⟩
  · intro i es h
    have hil := (List.getElem?_eq_some_iff.1 h).1
    refine ⟨(hip.sec i es h).1, ?_⟩
    show set s.used (s.addr / 4096) _ ((s.start + i) % 16) = _
    rw [set_ne _ _ (by rw [hpos]; exact pos_ne (by omega) hl (by omega))]
    exact (hi.sec i es h).2
  · intro i h h16
    refine ⟨?_, (hip.free i h h16).2⟩
    show set s.used (s.addr / 4096) _ ((s.start + i) % 16) = _
    rw [set_ne _ _ (by rw [hpos]; exact pos_ne h16 hl (by omega))]
    exact (hi.free i h h16).1
  · intro _
    rw [hsa]
    show set s.used (s.addr / 4096) _ ((s.addr + s.buf.length) / 4096) = (s.addr + s.buf.length) % 4096
    rw [hdiv, set_same, hmod, hu, ht]; rfl
  · rw [hsa]
    show ((s.prog p).flash ((s.addr + s.buf.length) / 4096)).take ((s.addr + s.buf.length) % 4096) ++ [] = bytes cur ++ []
    rw [hdiv, hmod, htake, List.append_nil, hi.data]
    unfold St.mark; rw [ht]; rfl
  · intro _
    refine ⟨0, Nat.zero_le _, ?_⟩
    rw [hsa]
    show (s.prog p).flash ((s.addr + s.buf.length) / 4096) = ((s.prog p).flash ((s.addr + s.buf.length) / 4096)).take ((s.addr + s.buf.length) % 4096) ++
      ([] ++ List.replicate (4096 - (s.addr + s.buf.length) % 4096 - 0) 0xFF)
    rw [hdiv, hmod, htake, hf, List.append_assoc, List.take_of_length_le (Nat.le_refl _)]
    congr 2
    simp; omega
  · show secLen - (s.saved p).addr % secLen + 0 + (s.saved p).addr % 4096 = 4096
    rw [hsa]; simp only [secLen]; omega
  · intro _
    refine ⟨?_, rfl⟩
    show 7 ≤ secLen - (s.saved p).addr % secLen
    rw [hsa]; simp only [secLen]; omega
  · rintro - ⟨-, -, rfl⟩
    have := congrArg List.length hi.data
    have hbl := List.length_pos_iff.2 hb
    rw [List.length_append, hA] at this
    unfold St.mark at this
    rw [ht] at this
    simp [bytes_nil] at this
    exact hb this.2

/-- A complete write that completes the sector. -/
theorem saved_inv_done (hi : Inv s old cur) (hl : old.length < 16) (hb : s.buf ≠ []) {p : Nat} (hp : s.buf.length ≤ p)
    (hd : s.remain < 7 ∨ s.terminated = true) : Inv (s.saved p) (old ++ [cur]) [] ∧ (s.saved p).addr % 4096 = 0 := by
  obtain ⟨m, hm, hm', hf⟩ := prog_flash hi hl p
  have hip := prog_inv hi hl p
  have hr := hi.remain
  have hpos := hi.pos
  have hcp := cur_pos hi
  have hu := hi.used hl
  have hst := hi.start
  have hbl : 0 < s.buf.length := List.length_pos_iff.2 hb
  have hm2 : m = s.buf.length := by omega
  subst hm2
  have ha : (s.saved p).addr = if s.addr / 4096 = 15 then 0 else s.addr / 4096 * 4096 + 4096 := by
    show nextAddr (s.addr + s.buf.length) s.remain s.terminated = _
    rw [nextAddr_eq]
    by_cases h0 : (s.addr + s.buf.length) % 4096 = 0
    · have hno : ¬((s.addr + s.buf.length) % 4096 ≠ 0 ∧ (s.remain < 7 ∨ s.terminated = true)) := fun h => h.1 h0
      rw [if_neg hno]
      split <;> split <;> omega
    · have hyes : (s.addr + s.buf.length) % 4096 ≠ 0 ∧ (s.remain < 7 ∨ s.terminated = true) := ⟨h0, hd⟩
      rw [if_pos hyes]
      split <;> split <;> omega
  have hA : ((s.flash (s.addr / 4096)).take (s.addr % 4096)).length = s.addr % 4096 := by
    rw [List.length_take, hi.flashLen _ hcp]; omega
  have hml := mark_length s
  have hlen : (bytes cur).length + s.mark.length = s.addr % 4096 + s.buf.length := by
    have := congrArg List.length hi.data
    rw [List.length_append, List.length_append, hA] at this
    omega
  have ha0 : (s.saved p).addr % 4096 = 0 := by rw [ha]; split <;> omega
  have had : (s.saved p).addr / 4096 = (s.start + (old.length + 1)) % 16 := by rw [ha]; split <;> omega
  have hcur : cur ≠ [] := by
    by_cases ht : s.terminated = true
    · exact hi.marked ht
    · rintro rfl
      rw [hml, if_neg ht] at hlen
      simp [bytes_nil] at hlen; omega
  have hsec : Sector ((s.prog p).flash (s.addr / 4096)) cur := by
    refine ⟨hcur, hi.ok, s.mark ++ List.replicate (4096 - s.addr % 4096 - s.buf.length) 0xFF, ?_, ?_⟩
    · rw [hf, List.take_of_length_le (Nat.le_refl _), ← List.append_assoc, hi.data, List.append_assoc]
    · unfold St.mark
      by_cases ht : s.terminated = true
      · rw [if_pos ht]
        exact .inr ⟨7, _, by decide, by decide, by rw [List.take_of_length_le (by rw [term_length]; decide)]⟩
      · left
        rw [if_neg ht, List.nil_append, List.length_replicate]
        rcases hd with hd | hd
        · omega
        · exact (ht hd).elim
  refine ⟨⟨hip.flashLen, hst, by simp; omega, by rw [ha0]; omega, ?_, by rw [ha]; split <;> omega, by rw [had, List.length_append]; rfl, ?_, ?_, ?_, ?_, ?_,
    by simp, ?_, nofun, ?_, ?_, ?_⟩, ha0⟩
  · have := hi.wrap
    show s.start = 0 ∨ _
    simp; omega
  · intro i es h
    have hil := (List.getElem?_eq_some_iff.1 h).1
    simp at hil
    show Sector ((s.prog p).flash ((s.start + i) % 16)) es ∧ set s.used (s.addr / 4096) _ ((s.start + i) % 16) = _
    by_cases hlast : i = old.length
    · subst hlast
      rw [List.getElem?_append_right (Nat.le_refl _), Nat.sub_self] at h
      cases h
      rw [← hpos]
      refine ⟨hsec, ?_⟩
      rw [set_same, hu]
      simp only [hdrLen]
      split at hml <;> simp_all <;> omega
    · rw [List.getElem?_append_left (by omega)] at h
      refine ⟨(hip.sec i es h).1, ?_⟩
      rw [set_ne _ _ (by rw [hpos]; exact pos_ne (by omega) hl (by omega))]
      exact (hi.sec i es h).2
  · intro i h h16
    simp at h
    refine ⟨?_, (hip.free i (by omega) h16).2⟩
    show set s.used (s.addr / 4096) _ ((s.start + i) % 16) = _
    rw [set_ne _ _ (by rw [hpos]; exact pos_ne h16 hl (by omega))]
    exact (hi.free i (by omega) h16).1
  · intro h16
    simp at h16
    rw [had, ha0]
    show set s.used (s.addr / 4096) _ _ = _
    rw [set_ne _ _ (by rw [hpos]; exact pos_ne (by omega) hl (by omega))]
    exact (hi.free (old.length + 1) (by omega) (by omega)).1
  · rw [ha0]; rfl
  · intro h16
    simp at h16
    refine ⟨0, Nat.zero_le _, ?_⟩
    rw [ha0, had]
    show (s.prog p).flash _ = _
    have := (hip.free (old.length + 1) (by omega) (by omega)).2
    have e : (s.prog p).flash ((s.start + (old.length + 1)) % 16) = blank := this
    rw [e, blank_eq, List.take_zero, List.take_zero, List.nil_append, List.nil_append]
  · show secLen - (s.saved p).addr % secLen + 0 + (s.saved p).addr % 4096 = 4096
    simp only [secLen]; omega
  · intro _
    refine ⟨?_, rfl⟩
    show 7 ≤ secLen - (s.saved p).addr % secLen
    simp only [secLen]; omega
  · rintro - ⟨h1, h2, -⟩
    have h1 : s.start = 1 := h1
    have := hi.wrap
    simp at h2
    omega
  · have := hi.ids
    show Consecutive _ s.nextId
    simpa using this

/-- Sectors erased by saving. -/
def St.kept (s : St) (io : Io) (old : List (List Entry)) : List (List Entry) :=
  if s.buf ≠ [] ∧ s.addr % 4096 = 0 ∧ io.erase = true then trim old else old

/-- Saving the buffer, whatever the flash does. -/
theorem save_inv (hi : Inv s old cur) {io : Io} (hh : Honest io s) : ∃ old' cur', Inv (save s io).2 old' cur' ∧
    old'.flatten ++ cur' = (s.kept io old).flatten ++ cur ∧
    ((save s io).1 = .ok () → (save s io).2.buf = [] ∧ (save s io).2.terminated = false ∧ 7 ≤ (save s io).2.remain ∧
      (s.remain < 7 ∨ s.terminated = true → (save s io).2.remain = 4096)) ∧
    ((save s io).1 ≠ .ok () → cur' = cur ∧ s.addr % 4096 ≤ (save s io).2.addr % 4096) := by
  by_cases hb : s.buf = []
  · have hl := hi.live hb
    have e : save s io = (.ok (), s) := by unfold save; rw [if_pos hb]
    rw [e]
    refine ⟨old, cur, hi, ?_, fun _ => ⟨hb, hl.2, hl.1, ?_⟩, fun h => (h rfl).elim⟩
    · unfold St.kept; rw [if_neg (by rintro ⟨h, -⟩; exact h hb)]
    · rintro (h | h)
      · omega
      · rw [hl.2] at h; exact absurd h (by decide)
  -- the sector that is written is ready
  have key : (prepare s io).1 = true → Inv (prepare s io).2 (s.kept io old) cur ∧ (s.kept io old).length < 16 ∧
      (prepare s io).2.buf = s.buf ∧ (prepare s io).2.addr = s.addr ∧ (prepare s io).2.remain = s.remain ∧ (prepare s io).2.terminated = s.terminated := by
    intro hp
    by_cases h0 : s.addr % 4096 = 0
    · by_cases he : io.erase = true
      · have := erase_inv hi hb h0 he
        unfold St.kept
        rw [if_pos ⟨hb, h0, he⟩]
        exact ⟨this.2.1, trim_length _ hi.count, this.2.2⟩
      · unfold prepare at hp
        rw [if_pos (show s.addr % secLen = 0 from h0), if_neg he] at hp
        exact absurd hp (by simp)
    · have e : prepare s io = (true, s) := by unfold prepare; rw [if_neg (show ¬ s.addr % secLen = 0 from h0)]
      unfold St.kept
      rw [if_neg (by rintro ⟨-, h, -⟩; exact h0 h), e]
      have := hi.room (by omega)
      exact ⟨hi, by omega, rfl, rfl, rfl, rfl⟩
  by_cases hp : (prepare s io).1 = true
  · obtain ⟨k1, k2, k3, k4, k5, k6⟩ := key hp
    rw [← k5, ← k6]
    have hb' : (prepare s io).2.buf ≠ [] := by rw [k3]; exact hb
    have hh' : ∀ n, io.write = some n → n ≤ io.programmed ∧ n ≤ (prepare s io).2.buf.length := by rw [k3]; exact hh
    have e : save s io = match io.write with
        | none => (.error .flash, (prepare s io).2.prog io.programmed)
        | some n => if n = (prepare s io).2.buf.length then (.ok (), (prepare s io).2.saved io.programmed)
          else (.error .incomplete, { (prepare s io).2.prog io.programmed with
            addr := (prepare s io).2.addr + n
            used := set (prepare s io).2.used ((prepare s io).2.addr / 4096) ((prepare s io).2.used ((prepare s io).2.addr / 4096) + n)
            buf := (prepare s io).2.buf.drop n }) := by
      have hpe : prepare s io = (true, (prepare s io).2) := by rw [← hp]
      unfold save
      rw [if_neg hb]
      rw [hpe]
      dsimp only
      rw [← k4]
      cases io.write with
      | none => rfl
      | some n =>
        dsimp only
        by_cases hn : n = (prepare s io).2.buf.length
        · subst hn
          rw [if_pos rfl, if_pos rfl]; rfl
        · rw [if_neg hn, if_neg hn]; rfl
    rw [e]
    generalize (prepare s io).2 = t at *
    cases hw : io.write with
    | none => exact ⟨_, _, prog_inv k1 k2 _, rfl, nofun, fun _ => ⟨rfl, by show _ ≤ t.addr % 4096; rw [k4]; exact Nat.le_refl _⟩⟩
    | some n =>
      obtain ⟨h1, h2⟩ := hh' n hw
      dsimp only
      by_cases hn : n = t.buf.length
      · rw [if_pos hn]
        by_cases hd : t.remain < 7 ∨ t.terminated = true
        · have := saved_inv_done k1 k2 hb' (p := io.programmed) (by omega) hd
          refine ⟨_, _, this.1, by simp, fun _ => ⟨rfl, rfl, ?_, fun _ => ?_⟩, fun h => (h rfl).elim⟩
          · exact (this.1.live rfl).1
          · have h3 := this.1.remain
            have h4 : (t.saved io.programmed).buf.length = 0 := rfl
            show (t.saved io.programmed).remain = _
            omega
        · have h7 : 7 ≤ t.remain := by have : ¬ t.remain < 7 := fun h => hd (.inl h); omega
          have ht : t.terminated = false := by
            cases h : t.terminated
            · rfl
            · exact (hd (.inr h)).elim
          have := saved_inv_stay k1 k2 hb' (p := io.programmed) (by omega) h7 ht
          exact ⟨_, _, this.1, rfl, fun _ => ⟨rfl, rfl, (this.1.live rfl).1, fun h => (hd h).elim⟩, fun h => (h rfl).elim⟩
      · rw [if_neg hn]
        refine ⟨_, _, partial_inv k1 k2 h1 (by omega), rfl, nofun, fun _ => ⟨rfl, ?_⟩⟩
        show s.addr % 4096 ≤ (t.addr + n) % 4096
        have := k1.remain
        rw [k4] at this ⊢
        omega
  · have e : save s io = (.error .flash, s) := by
      have hpe : prepare s io = (false, s) := by
        unfold prepare at hp ⊢
        by_cases h0 : s.addr % secLen = 0
        · rw [if_pos h0] at hp ⊢
          by_cases he : io.erase = true
          · rw [if_pos he] at hp; exact (hp rfl).elim
          · rw [if_neg he]
        · rw [if_neg h0] at hp; exact (hp rfl).elim
      unfold save
      rw [if_neg hb, hpe]
    rw [e]
    refine ⟨old, cur, hi, ?_, nofun, fun _ => ⟨rfl, Nat.le_refl _⟩⟩
    unfold St.kept
    rw [if_neg]
    rintro ⟨-, h0, he⟩
    unfold prepare at hp
    rw [if_pos (show s.addr % secLen = 0 from h0), if_pos he] at hp
    exact hp rfl

/-! ### Creating entries -/

/-- All but `p` entries are in the flash. -/
def Dur (s : St) (cur : List Entry) (p : Nat) : Prop := ∃ F P, cur = F ++ P ∧ P.length ≤ p ∧ (bytes F).length ≤ s.addr % 4096

theorem dur_zero (hi : Inv s old cur) (hb : s.buf = []) (p : Nat) : Dur s cur p := by
  refine ⟨cur, [], by simp, Nat.zero_le _, ?_⟩
  have := congrArg List.length hi.data
  rw [hb, List.append_nil, List.length_take, List.length_append] at this
  omega

theorem ids_lt (hi : Inv s old cur) : s.nextId < 2 ^ 32 := by
  obtain ⟨b, -, h⟩ := hi.ids
  rw [h]; exact Nat.mod_lt _ (by decide)

theorem terminate_inv (hi : Inv s old cur) (hr : s.remain < 4096) : Inv (terminate s) old cur ∧
    ((terminate s).remain < 7 ∨ (terminate s).terminated = true) ∧ (terminate s).buf ≠ [] ∧ (terminate s).addr = s.addr := by
  have hr' := hi.remain
  unfold terminate
  by_cases h : (!s.terminated) = true ∧ s.remain ≥ hdrLen
  · rw [if_pos h]
    obtain ⟨h1, h2⟩ := h
    have h1 : s.terminated = false := by simpa using h1
    have h2 : 7 ≤ s.remain := h2
    have hm : s.mark = [] := by unfold St.mark; rw [h1]; rfl
    have hc : cur ≠ [] := by
      rintro rfl
      have := congrArg List.length hi.data
      rw [hm, bytes_nil, List.append_nil, List.length_append, List.length_take, hi.flashLen _ (cur_pos hi), List.length_nil] at this
      omega
    refine ⟨⟨hi.flashLen, hi.start, hi.count, hi.room, hi.wrap, hi.addr, hi.pos, hi.sec, hi.free, hi.used, ?_, ?_, hi.ok, ?_, fun _ => hc, ?_, ?_, hi.ids⟩,
      .inr rfl, by simp [header], rfl⟩
    · show (s.flash (s.addr / 4096)).take (s.addr % 4096) ++ (s.buf ++ term) = bytes cur ++ term
      rw [← List.append_assoc, hi.data, hm, List.append_nil]
    · intro hl
      obtain ⟨m, hm, hf⟩ := hi.ready hl
      refine ⟨m, by show _ ≤ (s.buf ++ term).length; rw [List.length_append]; omega, ?_⟩
      show _ = (s.flash (s.addr / 4096)).take (s.addr % 4096) ++ ((s.buf ++ term).take m ++ _)
      rw [List.take_append_of_le_length hm]; exact hf
    · show s.remain - 7 + (s.buf ++ term).length + s.addr % 4096 = 4096
      rw [List.length_append, term_length]; omega
    all_goals
      intro h
      simp [header] at h
  · rw [if_neg h]
    have hd : s.remain < 7 ∨ s.terminated = true := by
      cases ht : s.terminated with
      | true => exact .inr rfl
      | false =>
        left
        have : ¬ (7 ≤ s.remain) := fun h' => h ⟨by rw [ht]; rfl, h'⟩
        omega
    refine ⟨hi, hd, ?_, rfl⟩
    intro hb
    have := hi.live hb
    rcases hd with hd | hd
    · omega
    · rw [this.2] at hd; exact absurd hd (by decide)

theorem append_inv (hi : Inv s old cur) (ht : s.terminated = false) {entry : Bytes} (h0 : entry.length ≠ 0) (hr : 7 + entry.length ≤ s.remain) :
    Inv (append s entry) old (cur ++ [⟨s.nextId, entry⟩]) := by
  have hr' := hi.remain
  have hm : s.mark = [] := by unfold St.mark; rw [ht]; rfl
  have he : header entry.length s.nextId ++ entry = Entry.bytes ⟨s.nextId, entry⟩ := (entry_bytes ⟨s.nextId, entry⟩).symm
  have hb : (append s entry).buf = s.buf ++ Entry.bytes ⟨s.nextId, entry⟩ := by
    show s.buf ++ header _ _ ++ entry = _
    rw [List.append_assoc, he]
  have hbl : (Entry.bytes ⟨s.nextId, entry⟩).length = 7 + entry.length := entry_length _
  refine ⟨hi.flashLen, hi.start, hi.count, hi.room, hi.wrap, hi.addr, hi.pos, hi.sec, hi.free, hi.used, ?_, ?_, ?_, ?_, fun _ => by simp, ?_, fun _ h => by simp at h, ?_⟩
  · show (s.flash (s.addr / 4096)).take (s.addr % 4096) ++ (append s entry).buf = _ ++ s.mark
    rw [hb, ← List.append_assoc, hi.data, hm, List.append_nil, List.append_nil, bytes_append]
    simp [bytes]
  · intro hl
    obtain ⟨m, hm, hf⟩ := hi.ready hl
    refine ⟨m, by rw [hb, List.length_append]; omega, ?_⟩
    show _ = (s.flash (s.addr / 4096)).take (s.addr % 4096) ++ ((append s entry).buf.take m ++ _)
    rw [hb, List.take_append_of_le_length hm]; exact hf
  · intro e h
    rcases List.mem_append.1 h with h | h
    · exact hi.ok e h
    · rw [List.mem_singleton] at h
      subst h
      exact ⟨by show 0 < entry.length; omega, by show 7 + entry.length ≤ _; omega, ids_lt hi⟩
  · show s.remain - 7 - entry.length + (append s entry).buf.length + s.addr % 4096 = 4096
    rw [hb, List.length_append, hbl]; omega
  · intro h
    rw [hb] at h
    have := congrArg List.length h
    rw [List.length_append, hbl] at this
    simp at this
  · obtain ⟨base, h1, h2⟩ := hi.ids
    refine ⟨base, ?_, ?_⟩
    · intro k e hk
      rw [← List.append_assoc] at hk
      by_cases hlt : k < (old.flatten ++ cur).length
      · rw [List.getElem?_append_left hlt] at hk
        exact h1 k e hk
      · rw [List.getElem?_append_right (by omega)] at hk
        have hk0 : k - (old.flatten ++ cur).length = 0 := by
          have := (List.getElem?_eq_some_iff.1 hk).1
          rw [List.length_singleton] at this; omega
        rw [hk0] at hk
        cases hk
        show s.nextId = _
        rw [h2]; congr 2; omega
    · show (s.nextId + 1) % 2 ^ 32 = _
      rw [h2, ← List.append_assoc, List.length_append (as := old.flatten ++ cur)]
      simp; omega

/-- Creating an entry. -/
theorem create_inv (hi : Inv s old cur) {io : Io} {entry : Bytes} (hh : Honest io (terminate s)) : ∃ old' cur', Inv (create s entry io).2 old' cur' ∧
    (((create s entry io).1 = .ok () ∧ old'.flatten ++ cur' = old.flatten ++ cur ++ [⟨s.nextId, entry⟩]) ∨
     ((create s entry io).1 = .ok () ∧ s.addr % 4096 = 0 ∧ old.length = 16 ∧ io.erase = true ∧
        old'.flatten ++ cur' = old.tail.flatten ++ cur ++ [⟨s.nextId, entry⟩]) ∨
     ((create s entry io).1 ≠ .ok () ∧ old'.flatten ++ cur' = old.flatten ++ cur) ∨
     ((create s entry io).1 ≠ .ok () ∧ s.addr % 4096 = 0 ∧ old.length = 16 ∧ io.erase = true ∧
        old'.flatten ++ cur' = old.tail.flatten ++ cur)) ∧
    (∀ p, Dur s cur p → Dur (create s entry io).2 cur' (if succeeds (create s entry io).1 then p + 1 else p)) := by
  unfold create
  by_cases hl : entry.length = 0 ∨ entry.length + hdrLen > secLen
  · rw [if_pos hl]
    exact ⟨old, cur, hi, .inr (.inr (.inl ⟨nofun, rfl⟩)), fun p h => h⟩
  rw [if_neg hl]
  have hl0 : entry.length ≠ 0 := fun h => hl (.inl h)
  have hl1 : ¬ (entry.length + 7 > 4096) := fun h => hl (.inr h)
  by_cases hs : s.terminated = true ∨ s.remain < hdrLen + entry.length
  · rw [if_pos hs]
    have hr4 : s.remain < 4096 := by
      rcases hs with h | h
      · have := hi.remain
        have hne : s.buf ≠ [] := fun hb => by have := (hi.live hb).2; rw [this] at h; exact absurd h (by decide)
        have := List.length_pos_iff.2 hne
        omega
      · have h : s.remain < 7 + entry.length := h
        omega
    obtain ⟨ti, td, tb, ta⟩ := terminate_inv hi hr4
    obtain ⟨old', cur', i', e', ok', er'⟩ := save_inv ti hh
    have hk : (s.addr % 4096 = 0 ∧ old.length = 16 ∧ io.erase = true ∧ (terminate s).kept io old = old.tail) ∨ (terminate s).kept io old = old := by
      unfold St.kept trim
      by_cases h : (terminate s).buf ≠ [] ∧ (terminate s).addr % 4096 = 0 ∧ io.erase = true
      · rw [if_pos h]
        by_cases h16 : old.length = 16
        · rw [if_pos h16]; exact .inl ⟨by rw [← ta]; exact h.2.1, h16, h.2.2, rfl⟩
        · rw [if_neg h16]; exact .inr rfl
      · rw [if_neg h]; exact .inr rfl
    revert i' ok' er'
    cases hsv : save (terminate s) io with
    | mk r t =>
      cases r with
      | error x =>
        intro i' ok' er'
        refine ⟨old', cur', i', ?_, ?_⟩
        rotate_left
        · rintro p ⟨F, P, h1, h2, h3⟩
          obtain ⟨e1, e2⟩ := er' nofun
          rw [ta] at e2
          exact ⟨F, P, by rw [e1, h1], h2, Nat.le_trans h3 e2⟩
        rw [e']
        rcases hk with ⟨h1, h2, h3, h4⟩ | h4
        · rw [h4]; exact .inr (.inr (.inr ⟨nofun, h1, h2, h3, rfl⟩))
        · rw [h4]; exact .inr (.inr (.inl ⟨nofun, rfl⟩))
      | ok u =>
        intro i' ok' er'
        obtain ⟨o1, o2, o3, o4⟩ := ok' rfl
        have o4 : t.remain = 4096 := o4 td
        have hid : t.nextId = s.nextId := by
          have h1 : (save (terminate s) io).2.nextId = (terminate s).nextId := by
            unfold save
            split
            · rfl
            · have : ∀ b u, prepare (terminate s) io = (b, u) → u.nextId = (terminate s).nextId := by
                intro b u h
                unfold prepare at h
                split at h
                · split at h <;> (cases h; rfl)
                · cases h; rfl
              split
              · rename_i h; exact this _ _ h
              · rename_i h
                have := this _ _ h
                cases io.write with
                | none => exact this
                | some n =>
                  dsimp only
                  split <;> exact this
          rw [hsv] at h1
          rw [show t.nextId = (terminate s).nextId from h1]
          unfold terminate; split <;> rfl
        refine ⟨_, _, append_inv i' o2 hl0 (by show 7 + entry.length ≤ t.remain; omega), ?_, ?_⟩
        rotate_left
        · intro p _
          obtain ⟨F, P, h1, h2, h3⟩ := dur_zero i' o1 p
          exact ⟨F, P ++ [⟨t.nextId, entry⟩], by rw [h1, List.append_assoc], by rw [show succeeds (Except.ok ()) = true from rfl, if_pos rfl, List.length_append]; exact Nat.succ_le_succ h2, h3⟩
        dsimp only
        rw [hid, ← List.append_assoc, e']
        rcases hk with ⟨h1, h2, h3, h4⟩ | h4
        · rw [h4]; exact .inr (.inl ⟨rfl, h1, h2, h3, rfl⟩)
        · rw [h4]; exact .inl ⟨rfl, rfl⟩
  · rw [if_neg hs]
    have ht : s.terminated = false := by
      cases h : s.terminated
      · rfl
      · exact (hs (.inl h)).elim
    have hr : ¬ s.remain < 7 + entry.length := fun h => hs (.inr h)
    refine ⟨_, _, append_inv hi ht hl0 (by omega), .inl ⟨rfl, by rw [List.append_assoc]⟩, ?_⟩
    rintro p ⟨F, P, h1, h2, h3⟩
    exact ⟨F, P ++ [⟨s.nextId, entry⟩], by rw [h1, List.append_assoc], by rw [show succeeds (Except.ok ()) = true from rfl, if_pos rfl, List.length_append]; exact Nat.succ_le_succ h2, h3⟩

theorem clear_inv (hi : Inv s old cur) {io : Io} (he : io.erase = true) : (clear s io).1 = .ok () ∧ Inv (clear s io).2 [] [] := by
  unfold clear
  rw [if_pos he]
  refine ⟨rfl, fun _ _ => blank_length, by show 0 < 16; decide, by decide, fun _ => by decide, .inl rfl, by show 0 < 65536; decide, by show 0 / 4096 = (0 + 0) % 16; decide, nofun,
    fun _ _ _ => ⟨rfl, rfl⟩, fun _ => rfl, rfl, fun _ => ⟨0, Nat.le_refl _, rfl⟩, nofun, rfl, nofun, fun _ => ⟨by show 7 ≤ 4096; decide, rfl⟩, nofun, s.nextId, nofun, ?_⟩
  have := ids_lt hi
  show s.nextId = _
  simp; omega

theorem clear_fails {io : Io} (he : ¬ io.erase = true) : clear s io = (.error .flash, s) := by
  unfold clear; rw [if_neg he]

end Verif.LoggingFlash
