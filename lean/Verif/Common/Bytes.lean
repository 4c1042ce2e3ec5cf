/-!
Byte strings and the numbers they stand for. Shared vocabulary, not a model of any C code.
-/
namespace Verif

/-- A C buffer of `uint8_t`. -/
abbrev Bytes := List UInt8

/-- The number a big-endian byte string represents. -/
def beNat : Bytes → Nat
  | [] => 0
  | b :: bs => b.toNat * 256 ^ bs.length + beNat bs

/-- The number a little-endian byte string represents. -/
def leNat : Bytes → Nat
  | [] => 0
  | b :: bs => b.toNat + 256 * leNat bs

/-- The `len` byte big-endian representation of `n` (modulo `256^len`). -/
def toBE : Nat → Nat → Bytes
  | 0, _ => []
  | len + 1, n => toBE len (n / 256) ++ [UInt8.ofNat n]

/-- The `len` byte little-endian representation of `n` (modulo `256^len`). -/
def toLE : Nat → Nat → Bytes
  | 0, _ => []
  | len + 1, n => UInt8.ofNat n :: toLE len (n / 256)

/-- Overwrite `data.length` bytes of `buf` from `pos` on (a `memcpy` into a buffer). Bytes that
would fall outside the buffer are not written: callers state that this does not happen. -/
def writeAt (buf : Bytes) (pos : Nat) (data : Bytes) : Bytes :=
  buf.take pos ++ data.take (buf.length - pos) ++ buf.drop (pos + data.length)

/-- The bytes `[off, off+len)` of a byte string, clipped to its end. -/
def window {α : Type} (l : List α) (off len : Nat) : List α := (l.drop off).take len

theorem UInt8.forall_iff {P : UInt8 → Prop} : (∀ b, P b) ↔ ∀ n : Fin 256, P (UInt8.ofNat n.val) := by
  constructor
  · intro h n; exact h _
  · intro h b
    have := h ⟨b.toNat, b.toNat_lt⟩
    simpa using this

instance {P : UInt8 → Prop} [DecidablePred P] : Decidable (∀ b, P b) :=
  decidable_of_iff _ UInt8.forall_iff.symm

@[simp] theorem beNat_nil : beNat [] = 0 := rfl
theorem beNat_cons (b : UInt8) (bs) : beNat (b :: bs) = b.toNat * 256 ^ bs.length + beNat bs := rfl

theorem beNat_lt (l : Bytes) : beNat l < 256 ^ l.length := by
  induction l with
  | nil => simp
  | cons b bs ih =>
    have hb := b.toNat_lt
    simp only [beNat_cons, List.length_cons, Nat.pow_succ]
    have : b.toNat * 256 ^ bs.length ≤ 255 * 256 ^ bs.length := Nat.mul_le_mul_right _ (by omega)
    omega

theorem beNat_append (a b : Bytes) : beNat (a ++ b) = beNat a * 256 ^ b.length + beNat b := by
  induction a with
  | nil => simp
  | cons x xs ih =>
    simp only [List.cons_append, beNat_cons, ih, List.length_append, Nat.pow_add, Nat.add_mul]
    rw [Nat.mul_assoc, Nat.add_assoc]

theorem beNat_append_singleton (a : Bytes) (b : UInt8) : beNat (a ++ [b]) = beNat a * 256 + b.toNat := by
  simp [beNat_append, beNat_cons]

theorem beNat_replicate_zero (n : Nat) : beNat (List.replicate n 0) = 0 := by
  induction n with
  | zero => rfl
  | succ n ih => simp [List.replicate_succ, beNat_cons, ih]

theorem beNat_replicate_ff (n : Nat) : beNat (List.replicate n 0xff) + 1 = 256 ^ n := by
  induction n with
  | zero => rfl
  | succ n ih =>
    simp only [List.replicate_succ, beNat_cons, List.length_replicate, Nat.pow_succ]
    have : (0xff : UInt8).toNat = 255 := rfl
    rw [this]; omega

theorem beNat_inj {a b : Bytes} (hl : a.length = b.length) (h : beNat a = beNat b) : a = b := by
  induction a generalizing b with
  | nil => cases b with
    | nil => rfl
    | cons => simp at hl
  | cons x xs ih =>
    cases b with
    | nil => simp at hl
    | cons y ys =>
      simp only [List.length_cons, Nat.add_right_cancel_iff] at hl
      simp only [beNat_cons, hl] at h
      have h1 := beNat_lt xs
      have h2 := beNat_lt ys
      rw [hl] at h1
      have hp : 0 < 256 ^ ys.length := Nat.pow_pos (by decide)
      have e1 : (x.toNat * 256 ^ ys.length + beNat xs) / 256 ^ ys.length = x.toNat := by
        rw [Nat.mul_comm, Nat.mul_add_div hp, Nat.div_eq_of_lt h1, Nat.add_zero]
      have e2 : (y.toNat * 256 ^ ys.length + beNat ys) / 256 ^ ys.length = y.toNat := by
        rw [Nat.mul_comm, Nat.mul_add_div hp, Nat.div_eq_of_lt h2, Nat.add_zero]
      have exy : x.toNat = y.toNat := by rw [← e1, ← e2, h]
      have : x = y := UInt8.toNat_inj.mp exy
      subst this
      rw [ih hl (by omega)]

@[simp] theorem toBE_length (len n : Nat) : (toBE len n).length = len := by
  induction len generalizing n with
  | zero => rfl
  | succ k ih => simp [toBE, ih]

@[simp] theorem toLE_length (len n : Nat) : (toLE len n).length = len := by
  induction len generalizing n with
  | zero => rfl
  | succ k ih => simp [toLE, ih]

theorem beNat_toBE (len n : Nat) : beNat (toBE len n) = n % 256 ^ len := by
  induction len generalizing n with
  | zero => simp [toBE, Nat.mod_one]
  | succ k ih =>
    simp only [toBE, beNat_append_singleton, ih, UInt8.toNat_ofNat', Nat.pow_succ]
    have := Nat.mod_mul (x := n) (a := 256) (b := 256 ^ k)
    rw [Nat.mul_comm (256 ^ k) 256, this]
    omega

theorem leNat_toLE (len n : Nat) : leNat (toLE len n) = n % 256 ^ len := by
  induction len generalizing n with
  | zero => simp [toLE, leNat, Nat.mod_one]
  | succ k ih =>
    simp only [toLE, leNat, ih, UInt8.toNat_ofNat', Nat.pow_succ]
    have := Nat.mod_mul (x := n) (a := 256) (b := 256 ^ k)
    rw [Nat.mul_comm (256 ^ k) 256, this]

theorem leNat_lt (l : Bytes) : leNat l < 256 ^ l.length := by
  induction l with
  | nil => simp [leNat]
  | cons b bs ih =>
    have hb := b.toNat_lt
    simp only [leNat, List.length_cons, Nat.pow_succ]
    omega

theorem toBE_beNat (l : Bytes) : toBE l.length (beNat l) = l := by
  apply beNat_inj (by simp)
  rw [beNat_toBE, Nat.mod_eq_of_lt (beNat_lt l)]

theorem toLE_leNat (l : Bytes) : toLE l.length (leNat l) = l := by
  induction l with
  | nil => rfl
  | cons b bs ih =>
    have hb := b.toNat_lt
    simp only [List.length_cons, toLE, leNat]
    have h1 : (b.toNat + 256 * leNat bs) / 256 = leNat bs := by omega
    rw [h1, ih]
    congr 1
    apply UInt8.toNat_inj.mp
    simp only [UInt8.toNat_ofNat']
    omega

theorem leNat_append (a b : Bytes) : leNat (a ++ b) = leNat a + 256 ^ a.length * leNat b := by
  induction a with
  | nil => simp [leNat]
  | cons x xs ih =>
    simp only [List.cons_append, leNat, ih, List.length_cons, Nat.pow_succ, Nat.mul_add]
    have : 256 * (256 ^ xs.length * leNat b) = 256 ^ xs.length * 256 * leNat b := by ac_rfl
    omega

theorem toBE_add (a b n : Nat) : toBE (a + b) n = toBE a (n / 256 ^ b) ++ toBE b n := by
  induction b generalizing n with
  | zero => simp [toBE]
  | succ b ih =>
    show toBE (a + b) (n / 256) ++ [UInt8.ofNat n] = _
    rw [ih, toBE, List.append_assoc, Nat.div_div_eq_div_mul, Nat.pow_succ, Nat.mul_comm]

theorem toBE_mod (a n : Nat) : toBE a (n % 256 ^ a) = toBE a n := by
  apply beNat_inj (by simp)
  rw [beNat_toBE, beNat_toBE, Nat.mod_mod]

@[simp] theorem writeAt_length (buf : Bytes) (pos : Nat) (data : Bytes) :
    (writeAt buf pos data).length = buf.length := by
  simp only [writeAt, List.length_append, List.length_take, List.length_drop]; omega

theorem take_succ_set {α} (l : List α) (i : Nat) (x : α) (h : i < l.length) :
    (l.set i x).take (i + 1) = l.take i ++ [x] := by
  rw [List.set_eq_take_append_cons_drop, if_pos h, List.take_append]
  have : (l.take i).length = i := by simp; omega
  rw [this, Nat.add_sub_cancel_left, List.take_of_length_le (by omega)]
  simp

theorem drop_set_lt {α} (l : List α) (i n : Nat) (x : α) (h : i < n) : (l.set i x).drop n = l.drop n := by
  rw [List.drop_set_of_lt h]

theorem window_append {α} (a b : List α) (off len : Nat) :
    window (a ++ b) off len = window a off len ++ window b (off - a.length) (len - (a.length - off)) := by
  simp only [window, List.drop_append, List.take_append, List.length_drop]

@[simp] theorem window_length {α} (l : List α) (off len : Nat) :
    (window l off len).length = min len (l.length - off) := by
  simp [window]

theorem window_all {α} (l : List α) (len : Nat) (h : l.length ≤ len) : window l 0 len = l := by
  simp [window, List.take_of_length_le h]

theorem window_zero_len {α} (l : List α) (off : Nat) : window l off 0 = [] := by simp [window]

theorem window_nil {α} (off len : Nat) : window ([] : List α) off len = [] := by simp [window]

/-- Consecutive windows concatenate. -/
theorem window_concat {α} (l : List α) (off n m : Nat) :
    window l off n ++ window l (off + n) m = window l off (n + m) := by
  simp only [window]
  rw [← List.drop_drop, ← List.take_add]

end Verif
