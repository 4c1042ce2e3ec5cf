import Verif.Common.Bytes
/-! Outcomes of C functions that read and write buffers. Shared vocabulary. -/
namespace Verif

/-- Outcome of a C function: a value, an error code, or an access outside a buffer. -/
inductive Res (ε α : Type) where
  | ok (a : α)
  | err (e : ε)
  | oob
deriving DecidableEq, Repr

namespace Res
variable {ε α β : Type}

@[inline] def bind (x : Res ε α) (f : α → Res ε β) : Res ε β :=
  match x with
  | .ok a => f a
  | .err e => .err e
  | .oob => .oob

instance : Monad (Res ε) where
  pure := .ok
  bind := Res.bind

@[simp] theorem ok_bind (a : α) (f : α → Res ε β) : (Res.ok a >>= f) = f a := rfl
@[simp] theorem err_bind (e : ε) (f : α → Res ε β) : (Res.err e >>= f) = .err e := rfl
@[simp] theorem oob_bind (f : α → Res ε β) : ((Res.oob : Res ε α) >>= f) = .oob := rfl
@[simp] theorem pure_eq (a : α) : (pure a : Res ε α) = .ok a := rfl

theorem bind_eq_ok {x : Res ε α} {f : α → Res ε β} {b : β} :
    (x >>= f) = .ok b ↔ ∃ a, x = .ok a ∧ f a = .ok b := by
  cases x <;> simp

theorem bind_ne_oob {x : Res ε α} {f : α → Res ε β} (hx : x ≠ .oob) (hf : ∀ a, x = .ok a → f a ≠ .oob) :
    (x >>= f) ≠ .oob := by
  cases x with
  | ok a => exact hf a rfl
  | err e => simp
  | oob => exact absurd rfl hx

/-- No access outside a buffer, and the result (if any) satisfies `Q`. -/
def Safe (x : Res ε α) (Q : α → Prop) : Prop :=
  match x with
  | .ok a => Q a
  | .err _ => True
  | .oob => False

theorem Safe.bind {x : Res ε α} {f : α → Res ε β} {P : α → Prop} {Q : β → Prop} (hx : Safe x P)
    (hf : ∀ a, P a → Safe (f a) Q) : Safe (x >>= f) Q := by
  cases x with
  | ok a => exact hf a hx
  | err e => trivial
  | oob => exact hx.elim

@[simp] theorem safe_ok {a : α} {Q : α → Prop} : Safe (.ok a : Res ε α) Q ↔ Q a := Iff.rfl
@[simp] theorem safe_err {e : ε} {Q : α → Prop} : Safe (.err e : Res ε α) Q := trivial

theorem Safe.ne_oob {x : Res ε α} {Q : α → Prop} (h : Safe x Q) : x ≠ .oob := by
  rintro rfl; exact h

theorem Safe.of_ok {x : Res ε α} {Q : α → Prop} (h : Safe x Q) {a : α} (e : x = .ok a) : Q a := by
  subst e; exact h

theorem Safe.mono {x : Res ε α} {P Q : α → Prop} (h : Safe x P) (hpq : ∀ a, P a → Q a) : Safe x Q := by
  cases x with
  | ok a => exact hpq a h
  | err e => trivial
  | oob => exact h

theorem Safe.ite {c : Prop} [Decidable c] {x y : Res ε α} {Q : α → Prop} (hx : c → Safe x Q) (hy : ¬c → Safe y Q) :
    Safe (if c then x else y) Q := by
  split
  · exact hx ‹_›
  · exact hy ‹_›

/-- The C function returned an error code if `c` holds. -/
def failIf (c : Prop) [Decidable c] (e : ε) : Res ε Unit := if c then .err e else .ok ()

theorem failIf_ok {c : Prop} [Decidable c] {e : ε} {u : Unit} : failIf c e = .ok u ↔ ¬ c := by
  unfold failIf; split <;> simp_all

theorem failIf_ne_oob {c : Prop} [Decidable c] {e : ε} : failIf c e ≠ (.oob : Res ε Unit) := by
  unfold failIf; split <;> simp

end Res

/-- Read byte `i` of a buffer. -/
def rd {ε : Type} (buf : Bytes) (i : Nat) : Res ε UInt8 :=
  match buf[i]? with
  | some b => .ok b
  | none => .oob

/-- Write byte `i` of a buffer. -/
def wr {ε : Type} (buf : Bytes) (i : Nat) (b : UInt8) : Res ε Bytes :=
  if i < buf.length then .ok (buf.set i b) else .oob

/-- Read `n` bytes at `i` (a `memcpy` source). -/
def rdN {ε : Type} (buf : Bytes) (i n : Nat) : Res ε Bytes :=
  if i + n ≤ buf.length then .ok ((buf.drop i).take n) else .oob

/-- Write bytes at `i` (a `memcpy` destination). -/
def wrN {ε : Type} (buf : Bytes) (i : Nat) (data : Bytes) : Res ε Bytes :=
  if i + data.length ≤ buf.length then .ok (buf.take i ++ data ++ buf.drop (i + data.length)) else .oob

theorem rd_ok {ε : Type} {buf : Bytes} {i : Nat} (h : i < buf.length) : (rd buf i : Res ε UInt8) = .ok buf[i] := by
  simp [rd, h]

theorem rd_ne_oob {ε : Type} {buf : Bytes} {i : Nat} (h : i < buf.length) : (rd buf i : Res ε UInt8) ≠ .oob := by
  simp [rd, h]

theorem rd_eq_ok {ε : Type} {buf : Bytes} {i : Nat} {b : UInt8} :
    (rd buf i : Res ε UInt8) = .ok b ↔ buf[i]? = some b := by
  unfold rd; cases h : buf[i]? <;> simp

theorem rd_getD {ε : Type} {buf : Bytes} {i : Nat} (h : i < buf.length) :
    (rd buf i : Res ε UInt8) = .ok (buf.getD i 0) := by
  simp [rd, h]

@[simp] theorem rd_cons_zero {ε : Type} (b : UInt8) (bs : Bytes) : (rd (b :: bs) 0 : Res ε UInt8) = .ok b := rfl
@[simp] theorem rd_cons_succ {ε : Type} (b : UInt8) (bs : Bytes) (i : Nat) :
    (rd (b :: bs) (i + 1) : Res ε UInt8) = rd bs i := rfl

@[simp] theorem wr_cons_zero {ε : Type} (a b : UInt8) (bs : Bytes) : (wr (a :: bs) 0 b : Res ε Bytes) = .ok (b :: bs) := by
  simp [wr]
@[simp] theorem wr_cons_one {ε : Type} (a a' b : UInt8) (bs : Bytes) :
    (wr (a :: a' :: bs) 1 b : Res ε Bytes) = .ok (a :: b :: bs) := by
  simp [wr]

theorem rdN_ok {ε : Type} {buf : Bytes} {i n : Nat} (h : i + n ≤ buf.length) :
    (rdN buf i n : Res ε Bytes) = .ok ((buf.drop i).take n) := by simp [rdN, h]

theorem wrN_ok {ε : Type} {buf data : Bytes} {i : Nat} (h : i + data.length ≤ buf.length) :
    (wrN buf i data : Res ε Bytes) = .ok (buf.take i ++ data ++ buf.drop (i + data.length)) := by simp [wrN, h]

theorem rd_safe {ε : Type} {buf : Bytes} {i : Nat} (h : i < buf.length) :
    Res.Safe (rd buf i : Res ε UInt8) (fun b => buf[i]? = some b) := by
  rw [rd_ok h]; simp [h]

theorem rdN_safe {ε : Type} {buf : Bytes} {i n : Nat} (h : i + n ≤ buf.length) :
    Res.Safe (rdN buf i n : Res ε Bytes) (fun b => b = (buf.drop i).take n ∧ b.length = n) := by
  rw [rdN_ok h]; simp; omega

theorem wrN_safe {ε : Type} {buf data : Bytes} {i : Nat} (h : i + data.length ≤ buf.length) :
    Res.Safe (wrN buf i data : Res ε Bytes)
      (fun b => b = buf.take i ++ data ++ buf.drop (i + data.length) ∧ b.length = buf.length) := by
  rw [wrN_ok h]; simp; omega

end Verif
