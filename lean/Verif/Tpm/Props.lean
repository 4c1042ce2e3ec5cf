import Verif.Tpm.Model
/-! Clearing and counting. -/
namespace Verif.Tpm

/-! ### Specification -/

/-- A clear was scheduled. -/
def Pending (s : Store) : Prop := ∃ h, s.head = some h ∧ h.magic = 0xACFE ∧ h.clear = 1

/-- Every segment is erased. -/
def Blank (s : Store) : Prop := ∀ i, i < s.segs.length → s.segs[i]? = some (some (List.replicate s.size 0xff))

/-- Writes succeed unless the power is lost. -/
def Gentle (f : Faults) : Prop := ∀ n, f.write n = .ok ∨ ∃ torn, f.write n = .crash torn

/-- No write leaves a block without valid data. -/
def Atomic (f : Faults) : Prop := ∀ n, f.write n ≠ .crash true ∧ ∀ e, f.write n ≠ .spoil e

/-! ### The erasure -/

theorem write_status {f : Faults} {s : Store} {t : Target} (h : (write f s t).1 = 0) : (write f s t).2 = put { s with writes := s.writes + 1 } t ∧ s.up = true := by
  unfold write at h ⊢
  cases hu : s.up with
  | false => rw [hu] at h; simp at h
  | true =>
    simp only [hu, if_true] at h ⊢
    cases hw : f.write s.writes <;> simp [hw] at h ⊢

/-- Segments from `n` on are erased. -/
def BlankFrom (n : Nat) (s : Store) : Prop := ∀ i, n ≤ i → i < s.segs.length → s.segs[i]? = some (some (List.replicate s.size 0xff))

theorem write_seg (f : Faults) (s : Store) (i : Nat) (d : Bytes) :
    (write f s (.seg i d)).2.head = s.head ∧ (write f s (.seg i d)).2.size = s.size ∧ (write f s (.seg i d)).2.segs.length = s.segs.length ∧
    ∀ j, j ≠ i → (write f s (.seg i d)).2.segs[j]? = s.segs[j]? := by
  unfold write
  by_cases hu : s.up = true
  · rw [if_pos hu]
    cases hw : f.write s.writes with
    | ok => simp only [put, List.length_set, true_and]; intro j hj; exact List.getElem?_set_ne (by omega)
    | fail e => simp
    | spoil e => simp only [spoil, List.length_set, true_and]; intro j hj; exact List.getElem?_set_ne (by omega)
    | crash torn =>
      cases torn
      · simp
      · simp only [if_true, spoil, List.length_set, true_and]; intro j hj; exact List.getElem?_set_ne (by omega)
  · rw [if_neg hu]; simp

theorem write_size (f : Faults) (s : Store) (t : Target) : (write f s t).2.size = s.size ∧ (write f s t).2.segs.length = s.segs.length := by
  unfold write
  by_cases hu : s.up = true
  · rw [if_pos hu]
    cases hw : f.write s.writes with
    | ok => cases t <;> simp [put]
    | fail e => simp
    | spoil e => cases t <;> simp [spoil]
    | crash torn => cases torn <;> cases t <;> simp [spoil]
  · rw [if_neg hu]; simp

theorem eraseLoop_frame (f : Faults) : ∀ n st s, (eraseLoop f n st s).2.head = s.head ∧ (eraseLoop f n st s).2.size = s.size ∧ (eraseLoop f n st s).2.segs.length = s.segs.length := by
  intro n
  induction n with
  | zero => intro st s; simp [eraseLoop]
  | succ n ih =>
    intro st s
    simp only [eraseLoop]
    obtain ⟨a, b, c, -⟩ := write_seg f s n (List.replicate s.size 0xff)
    obtain ⟨a', b', c'⟩ := ih (if (write f s (.seg n (List.replicate s.size 0xff))).1 ≠ 0 then (write f s (.seg n (List.replicate s.size 0xff))).1 else st) (write f s (.seg n (List.replicate s.size 0xff))).2
    exact ⟨a'.trans a, b'.trans b, c'.trans c⟩

theorem eraseLoop_status (f : Faults) : ∀ n st s, n ≤ s.segs.length → BlankFrom n s → (eraseLoop f n st s).1 = 0 → st = 0 ∧ Blank (eraseLoop f n st s).2 := by
  intro n
  induction n with
  | zero => intro st s _ hb h; exact ⟨h, fun i hi => hb i (Nat.zero_le _) hi⟩
  | succ n ih =>
    intro st s hn hb h
    simp only [eraseLoop] at h ⊢
    generalize hw : write f s (.seg n (List.replicate s.size 0xff)) = w at h ⊢
    obtain ⟨r, s'⟩ := w
    simp only at h ⊢
    obtain ⟨a, b, c, d⟩ := write_seg f s n (List.replicate s.size 0xff)
    rw [hw] at a b c d
    by_cases hr : r = 0
    · subst hr
      simp only [ne_eq, not_true_eq_false, if_false] at h ⊢
      refine ih st s' (by simp only at c; omega) ?_ h
      intro i hi hl
      have := (write_status (f := f) (s := s) (t := .seg n (List.replicate s.size 0xff)) (by rw [hw])).1
      rw [hw] at this
      simp only at this b c d
      by_cases he : i = n
      · subst he
        rw [this]
        simp only [put]
        rw [List.getElem?_set_self (by omega)]
      · rw [d i he, b]; exact hb i (by omega) (by omega)
    · simp only [ne_eq, hr, not_false_eq_true, if_true] at h
      -- the status stays
      exfalso
      have key : ∀ n st s, st ≠ 0 → (eraseLoop f n st s).1 ≠ 0 := by
        intro n
        induction n with
        | zero => intro st s h; exact h
        | succ n ih =>
          intro st s h
          simp only [eraseLoop]
          apply ih
          split <;> assumption
      exact key n r s' hr h

theorem write_down (f : Faults) {s : Store} (t : Target) (h : s.up = false) : write f s t = (1, s) := by
  rw [write, if_neg (by simp [h])]

theorem eraseLoop_down (f : Faults) : ∀ n st s, s.up = false → (eraseLoop f n st s).2 = s := by
  intro n
  induction n with
  | zero => intro st s _; rfl
  | succ n ih => intro st s h; simp only [eraseLoop, write_down f _ h]; exact ih _ s h

/-- Without failing writes all is erased unless the power is lost. -/
theorem eraseLoop_gentle {f : Faults} (hf : Gentle f) : ∀ n st s, n ≤ s.segs.length → BlankFrom n s → (eraseLoop f n st s).2.up = false ∨ ((eraseLoop f n st s).1 = st ∧ Blank (eraseLoop f n st s).2) := by
  intro n
  induction n with
  | zero => intro st s _ hb; exact .inr ⟨rfl, fun i hi => hb i (Nat.zero_le _) hi⟩
  | succ n ih =>
    intro st s hn hb
    simp only [eraseLoop]
    obtain ⟨a, b, c, d⟩ := write_seg f s n (List.replicate s.size 0xff)
    by_cases hu : s.up = true
    · rcases hf s.writes with h | ⟨torn, h⟩
      · have hw : write f s (.seg n (List.replicate s.size 0xff)) = (0, put { s with writes := s.writes + 1 } (.seg n (List.replicate s.size 0xff))) := by rw [write, if_pos hu]; simp only [h]
        rw [hw] at b c d ⊢
        simp only [ne_eq, not_true_eq_false, if_false] at b c d ⊢
        refine ih st _ (by omega) ?_
        intro i hi hl
        by_cases he : i = n
        · subst he
          simp only [put]
          rw [List.getElem?_set_self (by omega)]
        · rw [d i he, b]; exact hb i (by omega) (by omega)
      · have hw : (write f s (.seg n (List.replicate s.size 0xff))).2.up = false := by rw [write, if_pos hu]; simp only [h]
        exact .inl (by rw [eraseLoop_down f _ _ _ hw]; exact hw)
    · have hu : s.up = false := by simpa using hu
      rw [write_down f _ hu]
      exact .inl (by rw [eraseLoop_down f _ _ _ hu]; exact hu)

theorem blank_nothing (s : Store) : BlankFrom s.segs.length s := fun i h1 h2 => by omega

theorem blank_write {f : Faults} {s : Store} {h : Header} (hb : Blank s) : Blank (write f s (.head h)).2 := by
  have key : (write f s (.head h)).2.segs = s.segs ∧ (write f s (.head h)).2.size = s.size := by
    unfold write
    by_cases hu : s.up = true
    · rw [if_pos hu]
      cases hw : f.write s.writes with
      | ok => simp [put]
      | fail e => simp
      | spoil e => simp [spoil]
      | crash torn => cases torn <;> simp [spoil]
    · rw [if_neg hu]; simp
  intro i hi
  rw [key.1] at hi ⊢
  rw [key.2]
  exact hb i hi

theorem start_pending (f : Faults) {s : Store} (hr : f.read = none) (hp : Pending s) : start f s = ((initHeader f s true true).1, (initHeader f s true true).2.2) := by
  obtain ⟨h, h1, h2, h3⟩ := hp
  unfold start readHeaderInit
  simp only [hr, h1, magic, h2, h3, ne_eq, not_true_eq_false, if_false, if_true]

/-- Once a clear was scheduled, a start that succeeds has erased every segment, whatever faults there were. -/
theorem clear_done (f : Faults) (s : Store) (hr : f.read = none) (hp : Pending s) (h : (step s (.start, f)).1 = 0) : Blank (step s (.start, f)).2 := by
  simp only [step] at h ⊢
  have hp' : Pending { s with writes := 0, up := true } := hp
  rw [start_pending f hr hp'] at h ⊢
  simp only [initHeader, if_true] at h ⊢
  cases hn : f.num with
  | some e => rw [hn] at h; simp at h
  | none =>
    rw [hn] at h
    simp only at h ⊢
    by_cases hw : (write f (eraseLoop f s.segs.length 0 { s with writes := 0, up := true }).2 (.head freshHeader)).1 = 0
    · rw [if_neg (by simpa using hw)] at h ⊢
      exact blank_write (eraseLoop_status f _ 0 { s with writes := 0, up := true } (Nat.le_refl _) (blank_nothing _) h).2
    · rw [if_pos hw] at h
      exact absurd h hw

/-- A scheduled clear survives every operation, every loss of power and every failure of the query, until a start has erased every segment, if reads and writes do not fail and no increment is torn. -/
theorem clear_persists_partial (f : Faults) (s : Store) (o : Op) (hp : Pending s) (hr : f.read = none) (h1 : o = .start → Gentle f) (h2 : o = .increment → Atomic f) :
    Pending (step s (o, f)).2 ∨ (o = .start ∧ Blank (step s (o, f)).2) := by
  have hp' : Pending { s with writes := 0, up := true } := hp
  simp only [step]
  cases o with
  | start =>
    simp only [start_pending f hr hp', initHeader, if_true]
    cases hn : f.num with
    | some e => exact .inl hp
    | none =>
      simp only
      obtain ⟨a, b, c⟩ := eraseLoop_frame f s.segs.length 0 { s with writes := 0, up := true }
      have e : ∀ (w : Nat × Store) (p : Nat), (if w.1 ≠ 0 then (w.1, some freshHeader, w.2) else (p, some freshHeader, w.2)).2.2 = w.2 := by
        intro w p; split <;> rfl
      rw [e]
      rcases eraseLoop_gentle (h1 rfl) s.segs.length 0 { s with writes := 0, up := true } (Nat.le_refl _) (blank_nothing _) with hd | ⟨-, hb⟩
      · rw [write_down f _ hd]
        obtain ⟨h, x, y⟩ := hp
        exact .inl ⟨h, a.trans x, y⟩
      · exact .inr ⟨trivial, blank_write hb⟩
  | scheduleClear =>
    obtain ⟨h, x, y, z⟩ := hp
    simp only [scheduleClear, readHeaderInit, hr, x, magic, y, z, ne_eq, not_true_eq_false, if_false]
    exact .inl ⟨h, rfl, y, z⟩
  | increment =>
    obtain ⟨h, x, y, z⟩ := hp
    simp only [increment, readHeaderInit, hr, x, magic, y, ne_eq, not_true_eq_false, if_false, write, if_true]
    obtain ⟨n1, n2⟩ := h2 rfl 0
    cases hw : f.write 0 with
    | ok => exact .inl ⟨_, rfl, rfl, z⟩
    | fail e => exact .inl ⟨h, rfl, y, z⟩
    | spoil e => exact absurd hw (n2 e)
    | crash torn =>
      cases torn with
      | true => exact absurd hw n1
      | false => exact .inl ⟨h, rfl, y, z⟩
  | setStorage i d =>
    obtain ⟨h, x, y⟩ := hp
    simp only [setStorage]
    split
    · exact .inl ⟨h, (write_seg f { s with writes := 0, up := true } i d).1.trans x, y⟩
    · exact .inl ⟨h, x, y⟩

/-! ### The counter -/

/-- A history: the results and the store. -/
def run : Store → List (Op × Faults) → List Nat × Store
  | s, [] => ([], s)
  | s, o :: os =>
    let (r, s) := step s o
    let (rs, s) := run s os
    (r :: rs, s)

/-- The number of increments that were reported as successful. -/
def successes : List (Op × Faults) → List Nat → Nat
  | (.increment, _) :: os, 0 :: rs => successes os rs + 1
  | _ :: os, _ :: rs => successes os rs
  | _, _ => 0

/-- The header is valid, no clear is scheduled and the counter has this value. -/
def CounterIs (s : Store) (n : Nat) : Prop := ∃ h, s.head = some h ∧ h.magic = 0xACFE ∧ h.clear ≠ 1 ∧ h.counter = n

theorem step_counter (f : Faults) (s : Store) (o : Op) (n : Nat) (hc : CounterIs s n) (ho : o ≠ .scheduleClear) (hr : f.read = none) (ha : Atomic f) :
    CounterIs (step s (o, f)).2 (if o = .increment ∧ (step s (o, f)).1 = 0 then (n + 1) % 2 ^ 64 else n) := by
  obtain ⟨h, x, y, z, w⟩ := hc
  cases o with
  | start =>
    rw [if_neg (by simp)]
    simp only [step, start, readHeaderInit, hr, x, magic, y, ne_eq, not_true_eq_false, if_false, z]
    exact ⟨h, rfl, y, z, w⟩
  | scheduleClear => exact absurd rfl ho
  | increment =>
    obtain ⟨n1, n2⟩ := ha 0
    simp only [step, increment, readHeaderInit, hr, x, magic, y, ne_eq, not_true_eq_false, if_false, write, if_true, true_and]
    cases hw : f.write 0 with
    | ok => simp only [if_true]; exact ⟨_, rfl, rfl, z, by simp only [w]⟩
    | fail e => simp only [Nat.add_one_ne_zero, if_false]; exact ⟨h, rfl, y, z, w⟩
    | spoil e => exact absurd hw (n2 e)
    | crash torn =>
      cases torn with
      | true => exact absurd hw n1
      | false => exact ⟨h, rfl, y, z, w⟩
  | setStorage i d =>
    rw [if_neg (by simp)]
    simp only [step, setStorage]
    split
    · exact ⟨h, (write_seg f { s with writes := 0, up := true } i d).1.trans x, y, z, w⟩
    · exact ⟨h, x, y, z, w⟩

theorem step_counter_cons (of : Op × Faults) (os : List (Op × Faults)) (r : Nat) (rs : List Nat) :
    successes (of :: os) (r :: rs) = (if of.1 = .increment ∧ r = 0 then 1 else 0) + successes os rs := by
  obtain ⟨o, f⟩ := of
  cases o <;> cases r <;> simp [successes]
  omega

/-- The counter has counted exactly the increments that were reported as successful, in every history without a clear in which no read fails and no write spoils a block. -/
theorem counter_exact_partial (h : List (Op × Faults)) : ∀ (s : Store) (n : Nat), CounterIs s n → (∀ of ∈ h, of.1 ≠ .scheduleClear ∧ of.2.read = none ∧ Atomic of.2) →
    ∃ c, CounterIs (run s h).2 c ∧ c % 2 ^ 64 = (n + successes h (run s h).1) % 2 ^ 64 := by
  induction h with
  | nil => intro s n hc _; exact ⟨n, hc, rfl⟩
  | cons of os ih =>
    intro s n hc hh
    obtain ⟨o, f⟩ := of
    obtain ⟨a, b, c⟩ := hh (o, f) (by simp)
    have hs := step_counter f s o n hc a b c
    obtain ⟨c', hc', e⟩ := ih (step s (o, f)).2 _ hs (fun x hx => hh x (by simp [hx]))
    refine ⟨c', hc', ?_⟩
    simp only [run, step_counter_cons]
    rw [e]
    split <;> omega

/-- What is stored in a segment is read back, and nothing else changes. -/
theorem storage_read_back (f f' : Faults) (s : Store) (i : Nat) (d : Bytes) (mask : Bool) (h : (step s (.setStorage i d, f)).1 = 0) (hr : f'.read = none) :
    getStorage f' (step s (.setStorage i d, f)).2 i d.length mask = some d ∧ (step s (.setStorage i d, f)).2.head = s.head ∧ ∀ j, j ≠ i → (step s (.setStorage i d, f)).2.segs[j]? = s.segs[j]? := by
  simp only [step, setStorage] at h ⊢
  by_cases hi : i < s.segs.length
  · rw [if_pos hi] at h ⊢
    have hw := (write_status h).1
    obtain ⟨a, b, c, e⟩ := write_seg f { s with writes := 0, up := true } i d
    refine ⟨?_, a, e⟩
    rw [hw]
    simp only [getStorage, hr, put, List.length_set, ne_eq, not_true_eq_false, hi, false_or, if_false, List.getElem?_set_self hi, Option.join_some, List.take_length]
  · rw [if_neg hi] at h; cases h

/-- A clear that was scheduled keeps the counter: nothing else of the header changes, and no segment. -/
theorem schedule_keeps_counter (f : Faults) (s : Store) (h : Header) (hh : s.head = some h) (hm : h.magic = 0xACFE) (hr : f.read = none) (h0 : (step s (.scheduleClear, f)).1 = 0) :
    (step s (.scheduleClear, f)).2.head = some { h with clear := 1 } ∧ (step s (.scheduleClear, f)).2.segs = s.segs := by
  have hm' : ¬ h.magic ≠ magic := fun hc => hc hm
  simp only [step, scheduleClear, readHeaderInit, hr, hh, if_neg hm', ne_eq, not_true_eq_false, if_false] at h0 ⊢
  by_cases hc : h.clear = 1
  · simp only [hc, not_true_eq_false, if_false]
    exact ⟨by rw [← hc], trivial⟩
  · simp only [hc, not_false_eq_true, if_true] at h0 ⊢
    rw [(write_status h0).1]
    exact ⟨rfl, rfl⟩

/-- A header that is missing or does not have the magic number is not used: a start replaces it by one with counter 0 and no clear, an increment counts from 0, and the
counter cannot be read. The segments stay. -/
theorem bad_header_replaced (f : Faults) (s : Store) (hr : f.read = none) (hh : ∀ h, s.head = some h → h.magic ≠ 0xACFE) :
    getCounter f s = none ∧
    ((step s (.start, f)).1 = 0 → (step s (.start, f)).2.head = some ⟨0xACFE, 0, 0⟩ ∧ (step s (.start, f)).2.segs = s.segs) ∧
    ((step s (.increment, f)).1 = 0 → (step s (.increment, f)).2.head = some ⟨0xACFE, 1, 0⟩ ∧ (step s (.increment, f)).2.segs = s.segs) := by
  have hri : ∀ w t, t.head = s.head → readHeaderInit f t w = ((initHeader f t false w).1, freshHeader, (initHeader f t false w).2.2) := by
    intro w t ht
    unfold readHeaderInit
    rw [ht, hr]
    cases hd : s.head with
    | none => rfl
    | some h => have hm : h.magic ≠ magic := hh h hd; simp only; rw [if_pos hm]
  refine ⟨?_, fun h0 => ?_, fun h0 => ?_⟩
  · unfold getCounter
    rw [hr]
    cases hd : s.head with
    | none => rfl
    | some h => have hm : h.magic ≠ magic := hh h hd; simp only; rw [if_pos hm]
  · simp only [step, start] at h0 ⊢
    rw [hri true { s with writes := 0, up := true } rfl] at h0 ⊢
    simp only [initHeader, Bool.false_eq_true, if_false, if_true] at h0 ⊢
    by_cases hw : (write f { s with writes := 0, up := true } (.head freshHeader)).1 = 0
    · have := (write_status hw).1
      have hc : ¬ freshHeader.clear = 1 := by decide
      simp only [hw, ne_eq, not_true_eq_false, if_false, hc, this]
      exact ⟨rfl, rfl⟩
    · simp only [ne_eq, hw, not_false_eq_true, if_true] at h0
  · simp only [step, increment] at h0 ⊢
    rw [hri false { s with writes := 0, up := true } rfl] at h0 ⊢
    simp only [initHeader, Bool.false_eq_true, if_false, ne_eq, not_true_eq_false] at h0 ⊢
    rw [(write_status h0).1]
    exact ⟨rfl, rfl⟩

/-- A segment without valid data is read as blank flash if errors are to be masked and is an error otherwise. -/
theorem blank_read (f : Faults) (s : Store) (i len : Nat) (hr : f.read = none) (hi : s.segs[i]? = some none) :
    getStorage f s i len true = some (List.replicate len 0xff) ∧ getStorage f s i len false = none := by
  have hl : i < s.segs.length := by
    rcases Nat.lt_or_ge i s.segs.length with h | h
    · exact h
    · rw [List.getElem?_eq_none h] at hi; cases hi
  simp only [getStorage, hr, hl, hi, ne_eq, not_true_eq_false, or_self, if_false, Option.join_some, if_true, Bool.false_eq_true, and_self]

/-! ### Where the full statements fail -/

namespace Example

def good : Faults := { read := none, num := none, write := fun _ => .ok }
def store : Store := { head := some { magic := magic, counter := 41, clear := 0 }, segs := [some [1, 2], some [3, 4]], size := 2, writes := 0, up := true }

/-- A clear is scheduled and carried out at the next start. -/
example : (run store [(.scheduleClear, good), (.increment, good), (.start, good)]) = ([0, 0, 0], { store with head := some freshHeader, segs := [some [255, 255], some [255, 255]], writes := 3 }) := by decide

/-- A read of the header that fails once sets the counter back. -/
theorem read_error_resets_counter : ((run store [(.increment, good), (.increment, { good with read := some 7 })]).1, getCounter good (run store [(.increment, good), (.increment, { good with read := some 7 })]).2) = ([0, 0], some 1) := by
  decide

/-- A read of the header that fails at a start drops a scheduled clear: the segments keep their data. -/
theorem read_error_drops_clear : ((run store [(.scheduleClear, good), (.start, { good with read := some 7 }), (.start, good)]).1, (run store [(.scheduleClear, good), (.start, { good with read := some 7 }), (.start, good)]).2.segs) =
    ([0, 0, 0], [some [1, 2], some [3, 4]]) := by decide

/-- The erasure of one segment fails: the start reports it, but the clear is no longer scheduled and the data is there for good. -/
theorem failed_erase_forgotten : ((run store [(.scheduleClear, good), (.start, { good with write := fun n => if n = 1 then .fail 4 else .ok }), (.start, good)]).1,
    (run store [(.scheduleClear, good), (.start, { good with write := fun n => if n = 1 then .fail 4 else .ok }), (.start, good)]).2.segs) = ([0, 5, 0], [some [1, 2], some [255, 255]]) := by decide

/-- The power is lost during an increment: counter and scheduled clear are gone. -/
theorem torn_increment : ((run store [(.scheduleClear, good), (.increment, { good with write := fun _ => .crash true }), (.start, good)]).2.head, (run store [(.scheduleClear, good), (.increment, { good with write := fun _ => .crash true }), (.start, good)]).2.segs) =
    (some freshHeader, [some [1, 2], some [3, 4]]) := by decide

example : Gentle good ∧ Atomic good := ⟨fun _ => .inl rfl, fun _ => ⟨(fun h => by cases h), (fun e h => by cases h)⟩⟩
example : (step store (.scheduleClear, good)).1 = 0 ∧ (step { store with head := none } (.start, good)).1 = 0 ∧ (step { store with head := some ⟨7, 9, 1⟩ } (.increment, good)).1 = 0 := by decide
example : CounterIs store 41 := ⟨_, rfl, rfl, by decide, rfl⟩

end Example

end Verif.Tpm
