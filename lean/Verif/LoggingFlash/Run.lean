import Verif.LoggingFlash.Inv
/-! Operations keep the invariant. -/
namespace Verif.LoggingFlash
open Spec

theorem set_same (f : Nat → α) (i : Nat) (v : α) : set f i v i = v := if_pos rfl
theorem set_ne (f : Nat → α) {i j : Nat} (v : α) (h : j ≠ i) : set f i v j = f j := if_neg h

/-- Sectors of different positions are different. -/
theorem pos_ne {s i j : Nat} (hi : i < 16) (hj : j < 16) (h : i ≠ j) : (s + i) % 16 ≠ (s + j) % 16 := by omega

theorem sum_rotate (f : Nat → Nat) (s : Nat) (hs : s < 16) :
    ((List.range 16).map f).sum = ((List.range 16).map fun i => f ((s + i) % 16)).sum := by
  have hp : ∀ s, s < 16 → List.isPerm (List.range 16) ((List.range 16).map fun i => (s + i) % 16) = true := by decide
  have h := ((List.isPerm_iff.1 (hp s hs)).map f).sum_nat
  rw [h, List.map_map]; rfl

variable {s : St} {old : List (List Entry)} {cur : List Entry}

/-- Number of sectors with data. -/
def count (s : St) (old : List (List Entry)) : Nat := old.length + if s.addr % 4096 = 0 then 0 else 1

theorem count_le (hi : Inv s old cur) : count s old ≤ 16 := by
  have := hi.count; have := hi.room
  unfold count; split <;> omega

theorem sec_at (hi : Inv s old cur) {i : Nat} (h : i < old.length) :
    Sector (s.flash ((s.start + i) % 16)) old[i] ∧ s.used ((s.start + i) % 16) = (bytes old[i]).length :=
  hi.sec i _ (List.getElem?_eq_getElem h)

theorem used_pos (hi : Inv s old cur) {i : Nat} (h : i < count s old) : s.used ((s.start + i) % 16) ≠ 0 := by
  by_cases hl : i < old.length
  · obtain ⟨h1, h2⟩ := sec_at hi hl
    have := bytes_pos h1.ne
    omega
  · unfold count at h
    split at h
    · omega
    · have hr := hi.room (by omega)
      have hu := hi.used (by omega)
      rw [hi.pos] at hu
      rw [show i = old.length by omega, hu]; assumption

theorem used_zero (hi : Inv s old cur) {i : Nat} (h : count s old ≤ i) (h16 : i < 16) : s.used ((s.start + i) % 16) = 0 := by
  by_cases hl : old.length < i
  · exact (hi.free i hl h16).1
  · unfold count at h
    split at h
    · have hu := hi.used (by omega)
      rw [hi.pos] at hu
      rw [show i = old.length by omega, hu]; assumption
    · omega

theorem readSectors_inv (hi : Inv s old cur) :
    readSectors s 16 s.start = (List.range (count s old)).map fun j => (s.start + j) % 16 :=
  readSectors_eq s _ 16 s.start (count_le hi) hi.start (fun _ h => used_pos hi h) (fun h => used_zero hi (Nat.le_refl _) h)

theorem map_range_get {α β : Type} (f : Nat → β) (g : α → β) : ∀ (l : List α) (_ : ∀ i (h : i < l.length), f i = g l[i]),
    (List.range l.length).map f = l.map g := by
  intro l h
  apply List.ext_getElem (by simp)
  intro i h1 h2
  simp at h1
  simp [h i h1]

/-- The data in the sectors, in the order of reading. -/
theorem sectors_data (hi : Inv s old cur) :
    ((readSectors s 16 s.start).map fun i => (s.flash i).take (s.used i)).flatten =
      bytes old.flatten ++ (s.flash (s.addr / 4096)).take (s.addr % 4096) := by
  rw [readSectors_inv hi, List.map_map]
  have hold : (List.range old.length).map ((fun i => (s.flash i).take (s.used i)) ∘ fun j => (s.start + j) % 16) = old.map bytes := by
    apply map_range_get
    intro i h
    obtain ⟨h1, h2⟩ := sec_at hi h
    obtain ⟨tail, h3, -⟩ := h1.content
    show (s.flash _).take (s.used _) = _
    rw [h2, h3, List.take_left' rfl]
  unfold count
  split
  · rename_i h
    rw [Nat.add_zero, hold, ← bytes_flatten, h, List.take_zero, List.append_nil]
  · rename_i h
    rw [List.range_succ, List.map_append, hold, List.flatten_append, ← bytes_flatten]
    congr 1
    have hu := hi.used (by have := hi.room (by omega); omega)
    simp [← hi.pos, hu]

theorem sum_used (hi : Inv s old cur) :
    ((List.range 16).map s.used).sum = (bytes old.flatten).length + s.addr % 4096 := by
  rw [sum_rotate s.used s.start hi.start]
  have hsplit : ∀ k, k ≤ 16 → count s old ≤ k →
      ((List.range k).map fun i => s.used ((s.start + i) % 16)).sum = ((List.range (count s old)).map fun i => s.used ((s.start + i) % 16)).sum := by
    intro k
    induction k with
    | zero => intro _ h; rw [show count s old = 0 by omega]
    | succ k ih =>
      intro hk h
      by_cases he : count s old = k + 1
      · rw [he]
      · rw [List.range_succ, List.map_append, List.sum_append, ih (by omega) (by omega)]
        simp [used_zero hi (show count s old ≤ k by omega) (by omega)]
  rw [hsplit 16 (Nat.le_refl _) (count_le hi)]
  have hold : (List.range old.length).map (fun i => s.used ((s.start + i) % 16)) = old.map fun es => (bytes es).length :=
    map_range_get _ _ _ fun i h => (sec_at hi h).2
  have hl : (bytes old.flatten).length = (old.map fun es => (bytes es).length).sum := by
    rw [bytes_flatten, List.length_flatten, List.map_map]; rfl
  unfold count
  split
  · rename_i h; rw [Nat.add_zero, hold, hl, h]; rfl
  · rename_i h
    rw [List.range_succ, List.map_append, List.sum_append, hold, hl]
    have hu := hi.used (by have := hi.room (by omega); omega)
    simp [← hi.pos, hu]

/-- The log shows its entries, unless part of a terminator is in flash and the rest in the buffer. -/
theorem shows (hi : Inv s old cur) (h : s.terminated = true → 7 ≤ s.buf.length) : Shows s (old.flatten ++ cur) := by
  have hml := mark_length s
  have hd := hi.data
  have hlen : (bytes cur).length + s.mark.length = s.addr % 4096 + s.buf.length := by
    have := congrArg List.length hd
    rw [List.length_append, List.length_append, List.length_take, hi.flashLen _ (by have := hi.addr; omega)] at this
    omega
  constructor
  · intro o n
    unfold readContents
    rw [if_neg (by rintro ⟨h1, h2⟩; have := h h1; simp [hdrLen] at h2; omega)]
    congr 1
    rw [copyAll_eq, List.flatten_append]
    show (((((readSectors s 16 s.start).map fun i => (s.flash i).take (s.used i)).flatten) ++ _).drop o).take n = _
    rw [sectors_data hi, bytes_append, List.append_assoc]
    congr 3
    rw [List.flatten_cons, List.flatten_nil, List.append_nil]
    have : (s.flash (s.addr / 4096)).take (s.addr % 4096) ++ s.buf.take (s.buf.length - if s.terminated = true then hdrLen else 0) =
        ((s.flash (s.addr / 4096)).take (s.addr % 4096) ++ s.buf).take (bytes cur).length := by
      have hfl := hi.flashLen (s.addr / 4096) (by have := hi.addr; omega)
      rw [List.take_append, List.length_take, hfl, Nat.min_eq_left (by omega)]
      congr 1
      · refine (List.take_of_length_le ?_).symm
        rw [List.length_take, hfl]
        split at hml
        · have := h ‹_›; omega
        · omega
      · congr 1
        simp only [hdrLen]
        split <;> simp_all <;> omega
    rw [this, hd, List.take_left' rfl]
  · unfold getSize
    show (((List.range 16).map s.used).sum : Int) + _ - _ = _
    rw [sum_used hi, bytes_append, List.length_append]
    simp only [hdrLen]
    split <;> simp_all <;> omega

end Verif.LoggingFlash
