import Verif.LoggingFlash.Model
/-! What is expected of the log in flash. -/
namespace Verif.LoggingFlash.Spec
open Verif.LoggingFlash

/-- A log entry. -/
structure Entry where
  id : Nat
  data : Bytes
deriving DecidableEq, Repr

/-- An entry as it appears in the log: marker, length, identifier, data. -/
def Entry.bytes (e : Entry) : Bytes := [0xCB] ++ toLE 2 (7 + e.data.length) ++ toLE 4 e.id ++ e.data

/-- Entries one after the other. -/
def bytes (es : List Entry) : Bytes := es.flatMap Entry.bytes

/-- An entry that can be stored. -/
def Entry.Ok (e : Entry) : Prop := 0 < e.data.length ∧ 7 + e.data.length ≤ 4096 ∧ e.id < 2 ^ 32

/-- The log reads as these entries: each range of it is that range of their bytes, and its size is
their size. -/
def Shows (s : St) (es : List Entry) : Prop :=
  (∀ offset length, readContents s offset length = some (((bytes es).drop offset).take length)) ∧ getSize s = (bytes es).length

/-- Identifiers count up. -/
def Consecutive (es : List Entry) (next : Nat) : Prop :=
  ∃ base, (∀ k e, es[k]? = some e → e.id = (base + k) % 2 ^ 32) ∧ next = (base + es.length) % 2 ^ 32

/-- The flash works: a sector is erased when asked for, and everything is written. -/
def Works (io : Io) (s : St) : Prop := io.erase = true ∧ io.write = some s.buf.length ∧ io.programmed = s.buf.length

/-- The flash behaves: it does not report more bytes than it programmed, nor more than it was given. -/
def Honest (io : Io) (s : St) : Prop := ∀ n, io.write = some n → n ≤ io.programmed ∧ n ≤ s.buf.length

/-! ### Histories -/

/-- What happens to the log. -/
inductive Event where
  | create (data : Bytes) (io : Io)
  | flush (io : Io)
  | clear (io : Io)
  /-- Loss of power, or reset, followed by initialization from the flash. -/
  | restart

/-- Whether a call succeeds. -/
def succeeds : Except Err Unit → Bool
  | .ok _ => true
  | .error _ => false

/-- Whether the call succeeds, and the state after it. -/
def apply (s : St) : Event → Bool × St
  | .create d io => (succeeds (LoggingFlash.create s d io).1, (LoggingFlash.create s d io).2)
  | .flush io => (succeeds (LoggingFlash.flush s io).1, (LoggingFlash.flush s io).2)
  | .clear io => (succeeds (LoggingFlash.clear s io).1, (LoggingFlash.clear s io).2)
  | .restart => (true, init s.flash)

/-- What a user knows of the log: its entries, the next identifier, and how many of the last entries
have been created since the last successful flush. -/
structure View where
  log : List Entry := []
  next : Nat := 0
  pending : Nat := 0

/-- What is left of entries that were being written when power was lost: the first of them, and the
last one of these may end in bytes that were not written. -/
inductive Torn : List Entry → List Entry → Prop
  | none (P : List Entry) : Torn P []
  | some (A : List Entry) (e : Entry) (B : List Entry) (k : Nat) (h : k ≤ e.data.length) :
      Torn (A ++ e :: B) (A ++ [⟨e.id, e.data.take k ++ List.replicate (e.data.length - k) 0xFF⟩])

/-- What is left of a log: everything but the last entries, of which some may be left. -/
def Survives (log : List Entry) (pending : Nat) (log' : List Entry) : Prop :=
  ∃ D P Q, log = D ++ P ∧ P.length ≤ pending ∧ log' = D ++ Q ∧ Torn P Q

/-- How the log changes. Old entries are dropped when there is no space, at least fifteen are kept. -/
def Next (v : View) (ev : Event) (ok : Bool) (v' : View) : Prop :=
  match ev with
  | .create d _ => ∃ dropped kept, v.log = dropped ++ kept ∧ (dropped ≠ [] → 15 ≤ kept.length) ∧
      v' = if ok then ⟨kept ++ [⟨v.next, d⟩], (v.next + 1) % 2 ^ 32, v.pending + 1⟩ else ⟨kept, v.next, v.pending⟩
  | .flush _ => ∃ dropped kept, v.log = dropped ++ kept ∧ (dropped ≠ [] → 15 ≤ kept.length) ∧
      v' = ⟨kept, v.next, if ok then 0 else v.pending⟩
  | .clear _ => v' = if ok then ⟨[], v.next, 0⟩ else v
  | .restart => Survives v.log v.pending v'.log ∧ v'.pending = 0

/-- A sector whose entries are followed by the beginning of a header. -/
def TornHeader (b : Bytes) : Prop :=
  ∃ (es : List Entry) (e : Entry) (j n : Nat), (∀ x ∈ es, x.Ok) ∧ e.Ok ∧ 0 < j ∧ j < 7 ∧ b = bytes es ++ (e.bytes.take j ++ List.replicate n 0xFF)

/-- Flash from which the log can be restored: no header has been written in part, and the first
sector is not the only empty one. -/
def Restorable (flash : Nat → Bytes) : Prop :=
  (∀ i, i < 16 → ¬ TornHeader (flash i)) ∧ (flash 0 = List.replicate 4096 0xFF → flash 15 = List.replicate 4096 0xFF)

/-- Conditions on an event: the flash behaves; power is lost where everything has been flushed or the
log can be restored, and not while the last identifier is in use. -/
def Fair (s : St) (v : View) : Event → Prop
  | .create _ io => Honest io (terminate s)
  | .flush io => Honest io s
  | .clear _ => True
  | .restart => (s.buf = [] ∨ Restorable s.flash) ∧ ∀ e ∈ v.log, e.id ≠ 2 ^ 32 - 1

/-- Part of the mark that ends a sector is written, part of it is in the buffer. -/
def Half (s : St) : Prop := s.terminated = true ∧ s.buf.length < 7

/-- The buffer fits in its 4096 bytes and in the rest of the sector, and the sector is one of the log. -/
def Bounds (s : St) : Prop := s.addr % 4096 + s.buf.length ≤ 4096 ∧ s.addr < 16 * 4096

/-- The log is as the user expects. -/
def Good (s : St) (v : View) : Prop := Bounds s ∧ Consecutive v.log v.next ∧ (¬ Half s → Shows s v.log)

/-- The log is as the user expects, now and after each of the events. -/
def Follows : St → View → List Event → Prop
  | s, v, [] => Good s v
  | s, v, ev :: evs => Good s v ∧
      (Fair s v ev → ∃ v', Next v ev (apply s ev).1 v' ∧ Follows (apply s ev).2 v' evs)

end Verif.LoggingFlash.Spec
