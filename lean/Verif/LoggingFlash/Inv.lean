import Verif.LoggingFlash.Spec
/-! Invariant of the running log: `old` are the entries of complete sectors, oldest first, `cur` those of
the sector that is being filled, including buffered ones. -/
namespace Verif.LoggingFlash
open Spec

/-- Bytes of a terminator. -/
def term : Bytes := header 0x8000 0

/-- Rest of a sector behind its entries when the sector is complete: too short for a header, or a
(possibly incomplete) terminator. -/
def Stop (tail : Bytes) : Prop :=
  tail.length < 7 ∨ ∃ j n, 1 ≤ j ∧ j ≤ 7 ∧ tail = term.take j ++ List.replicate n 0xFF

/-- A complete sector with its entries. -/
structure Sector (b : Bytes) (es : List Entry) : Prop where
  ne : es ≠ []
  ok : ∀ e ∈ es, e.Ok
  content : ∃ tail, b = bytes es ++ tail ∧ Stop tail

/-- The terminator in the buffer, if any. -/
def St.mark (s : St) : Bytes := if s.terminated then term else []

structure Inv (s : St) (old : List (List Entry)) (cur : List Entry) : Prop where
  flashLen : ∀ i, i < 16 → (s.flash i).length = 4096
  start : s.start < 16
  count : old.length ≤ 16
  room : 0 < s.addr % 4096 → old.length ≤ 15
  wrap : s.start = 0 ∨ 15 ≤ old.length
  addr : s.addr < 65536
  pos : s.addr / 4096 = (s.start + old.length) % 16
  sec : ∀ i es, old[i]? = some es → Sector (s.flash ((s.start + i) % 16)) es ∧ s.used ((s.start + i) % 16) = (bytes es).length
  free : ∀ i, old.length < i → i < 16 → s.used ((s.start + i) % 16) = 0 ∧ s.flash ((s.start + i) % 16) = blank
  used : old.length < 16 → s.used (s.addr / 4096) = s.addr % 4096
  data : (s.flash (s.addr / 4096)).take (s.addr % 4096) ++ s.buf = bytes cur ++ s.mark
  ready : old.length < 16 → ∃ m, m ≤ s.buf.length ∧ s.flash (s.addr / 4096) =
    (s.flash (s.addr / 4096)).take (s.addr % 4096) ++ (s.buf.take m ++ List.replicate (4096 - s.addr % 4096 - m) 0xFF)
  ok : ∀ e ∈ cur, e.Ok
  remain : s.remain + s.buf.length + s.addr % 4096 = 4096
  marked : s.terminated = true → cur ≠ []
  live : s.buf = [] → 7 ≤ s.remain ∧ s.terminated = false
  whole : s.buf = [] → ¬ (s.start = 1 ∧ old.length = 15 ∧ cur = [])
  ids : Consecutive (old.flatten ++ cur) s.nextId

/-! ### Programming -/

theorem and_ff (a : UInt8) : 0xFF &&& a = a := by
  apply UInt8.toBitVec_inj.1
  rw [UInt8.toBitVec_and]
  show BitVec.allOnes 8 &&& _ = _
  exact BitVec.allOnes_and

theorem zip_ff (n : Nat) (d : Bytes) (h : d.length ≤ n) : List.zipWith (· &&& ·) (List.replicate n (0xFF : UInt8)) d = d := by
  induction d generalizing n with
  | nil => simp
  | cons b d ih =>
    obtain ⟨n, rfl⟩ : ∃ k, n = k + 1 := ⟨n - 1, by simp at h; omega⟩
    rw [List.replicate_succ, List.zipWith_cons_cons, ih n (by simpa using h)]
    congr 1
    exact and_ff b

theorem zip_same (d : Bytes) : List.zipWith (· &&& ·) d d = d := by
  induction d with
  | nil => rfl
  | cons b d ih => rw [List.zipWith_cons_cons, ih]; congr 1; exact UInt8.and_self

/-- Programming a prefix of data over an earlier prefix of the same data. -/
theorem zip_prefix : ∀ (d : Bytes) (m p k : Nat), m ≤ d.length → p ≤ d.length → p ≤ m + k →
    List.zipWith (· &&& ·) ((d.take m ++ List.replicate k (0xFF : UInt8)).take p) (d.take p) = d.take p
  | [], m, p, k, hm, hp, h => by simp
  | b :: d, 0, p, k, hm, hp, h => by
    simp only [List.take_zero, List.nil_append]
    rw [List.take_replicate]
    exact zip_ff _ _ (by rw [List.length_take]; omega)
  | b :: d, m + 1, 0, k, hm, hp, h => by simp
  | b :: d, m + 1, p + 1, k, hm, hp, h => by
    simp only [List.take_succ_cons, List.cons_append, List.zipWith_cons_cons]
    rw [zip_prefix d m p k (by simpa using hm) (by simpa using hp) (by omega)]
    congr 1; exact UInt8.and_self

theorem program_prefix {A d : Bytes} {m p k : Nat} (hm : m ≤ d.length) (hp : p ≤ d.length) (h : d.length ≤ m + k) :
    program (A ++ (d.take m ++ List.replicate k 0xFF)) A.length (d.take p) =
      A ++ (d.take (max m p) ++ List.replicate (k - (p - m)) 0xFF) := by
  have hpl : (d.take p).length = p := by rw [List.length_take]; omega
  have hml : (d.take m).length = m := by rw [List.length_take]; omega
  unfold program
  rw [List.take_left' rfl, List.drop_left' rfl, hpl, List.append_assoc, zip_prefix d m p k hm hp (by omega)]
  rw [List.drop_append, List.drop_of_length_le (l := A) (by omega), Nat.add_sub_cancel_left, List.nil_append, List.drop_append, hml]
  congr 1
  rw [← List.append_assoc, List.drop_replicate]
  congr 1
  · by_cases hle : m ≤ p
    · rw [List.drop_of_length_le (by omega), List.append_nil, Nat.max_eq_right hle]
    · rw [Nat.max_eq_left (by omega), List.drop_take]
      rw [show d.take m = d.take (p + (m - p)) by congr 1; omega, List.take_add]

/-! ### Bytes of entries -/

theorem header_length (n id : Nat) : (header n id).length = 7 := by simp [header]
theorem term_length : term.length = 7 := header_length _ _
theorem mark_length (s : St) : s.mark.length = if s.terminated then 7 else 0 := by
  unfold St.mark; split <;> simp [term_length]

theorem entry_bytes (e : Entry) : e.bytes = header e.data.length e.id ++ e.data := by
  unfold Entry.bytes header; rw [Nat.add_comm]; rfl

theorem entry_length (e : Entry) : e.bytes.length = 7 + e.data.length := by
  rw [entry_bytes, List.length_append, header_length]

theorem bytes_append (a b : List Entry) : bytes (a ++ b) = bytes a ++ bytes b := List.flatMap_append ..
theorem bytes_nil : bytes [] = [] := rfl
theorem bytes_cons (e : Entry) (l : List Entry) : bytes (e :: l) = e.bytes ++ bytes l := List.flatMap_cons ..
theorem bytes_flatten (l : List (List Entry)) : bytes l.flatten = (l.map bytes).flatten := by
  induction l with
  | nil => rfl
  | cons a l ih => rw [List.flatten_cons, bytes_append, ih]; rfl

theorem bytes_pos {es : List Entry} (h : es ≠ []) : 0 < (bytes es).length := by
  cases es with
  | nil => exact (h rfl).elim
  | cons e l => rw [bytes_cons, List.length_append, entry_length]; omega

/-! ### Reading -/

theorem copyAll_eq : ∀ (l : List Bytes) (o n : Nat), copyAll l o n = (l.flatten.drop o).take n
  | [], o, n => by simp [copyAll]
  | src :: l, o, n => by
    unfold copyAll
    rw [copyAll_eq l]
    simp only [copy, List.flatten_cons]
    rw [List.drop_append, List.take_append]
    by_cases h : o ≤ src.length
    · rw [Nat.min_eq_left h, Nat.sub_self, List.length_drop, show o - src.length = 0 by omega]
      congr 1
      · by_cases hn : n ≤ src.length - o
        · rw [Nat.min_eq_left hn]
        · rw [Nat.min_eq_right (by omega), List.take_of_length_le (by simp), List.take_of_length_le (by simp; omega)]
      · congr 1; omega
    · have hm : min o src.length = src.length := Nat.min_eq_right (by omega)
      rw [hm, List.drop_of_length_le (l := src) (i := o) (by omega)]
      simp

theorem readSectors_eq (s : St) : ∀ (n k i : Nat), n ≤ k → i < 16 → (∀ j, j < n → s.used ((i + j) % 16) ≠ 0) →
    (n < k → s.used ((i + n) % 16) = 0) → readSectors s k i = (List.range n).map fun j => (i + j) % 16
  | 0, 0, i, _, _, _, _ => rfl
  | 0, k + 1, i, _, hi, _, h => by
    unfold readSectors
    rw [if_pos (by have := h (by omega); rwa [Nat.add_zero, Nat.mod_eq_of_lt hi] at this)]; rfl
  | n + 1, 0, i, h, _, _, _ => by omega
  | n + 1, k + 1, i, h, hi, hu, hz => by
    unfold readSectors
    rw [if_neg (by have := hu 0 (by omega); rwa [Nat.add_zero, Nat.mod_eq_of_lt hi] at this)]
    have e : ∀ j, ((i + 1) % 16 + j) % 16 = (i + (j + 1)) % 16 := fun j => by omega
    show i :: readSectors s k ((i + 1) % 16) = _
    rw [readSectors_eq s n k ((i + 1) % 16) (by omega) (by omega) (fun j hj => by rw [e]; exact hu (j + 1) (by omega))
      (fun hn => by rw [e]; exact hz (by omega))]
    rw [List.range_succ_eq_map, List.map_cons, List.map_map, show (i + 0) % 16 = i by omega]
    congr 1
    apply List.map_congr_left
    intro j _
    exact e j

end Verif.LoggingFlash
