import Verif.SpdmNeg.Model
/-! Lemmas for C138. -/
namespace Verif.SpdmNeg
open Verif
open Spec (Table)

/-! ### Priorities -/

theorem loop_eq (common : Nat) : ∀ t : List Nat, prioritize.loop common t = (t.find? fun p => decide (common &&& p ≠ 0)).getD 0
  | [] => rfl
  | p :: ps => by
    unfold prioritize.loop
    by_cases h : common &&& p ≠ 0
    · rw [if_pos h, List.find?_cons_of_pos (by simpa using h)]; rfl
    · rw [if_neg h, List.find?_cons_of_neg (by simpa using h), loop_eq common ps]

/-- The lowest bit and the rest. -/
theorem lowest_form : ∀ (n x : Nat), x < 2 ^ n → x ≠ 0 → ∃ i m, i < n ∧ x = 2 ^ i * (2 * m + 1)
  | 0, x, h, h0 => by omega
  | n + 1, x, h, h0 => by
    rcases Nat.mod_two_eq_zero_or_one x with e | e
    · obtain ⟨i, m, hi, hx⟩ := lowest_form n (x / 2) (by rw [Nat.pow_succ] at h; omega) (by omega)
      refine ⟨i + 1, m, by omega, ?_⟩
      rw [Nat.pow_succ, Nat.mul_comm (2 ^ i) 2, Nat.mul_assoc, ← hx]; omega
    · exact ⟨0, x / 2, by omega, by simp; omega⟩

theorem form_testBit (i m j : Nat) : (2 ^ i * (2 * m + 1)).testBit j = (decide (i ≤ j) && (2 * m + 1).testBit (j - i)) := by
  rw [Nat.mul_comm, ← Nat.shiftLeft_eq, Nat.testBit_shiftLeft]

theorem lowest_eq {x : Nat} (hx : x < 2 ^ 32) : x &&& (x &&& (2 ^ 32 - x) % 2 ^ 32) = Spec.lowestBit x := by
  by_cases h0 : x = 0
  · subst h0; decide
  · obtain ⟨i, m, hi, e⟩ := lowest_form 32 x hx h0
    have hl : Spec.lowestBit x = 2 ^ i := by
      unfold Spec.lowestBit
      have : (List.range 32).find? (x.testBit ·) = some i := by
        rw [List.find?_range_eq_some]
        refine ⟨by rw [e, form_testBit]; simp, by simpa using hi, fun j hj => ?_⟩
        rw [e, form_testBit]
        simp [Nat.not_le.2 hj]
      rw [this]
    rw [hl, Nat.mod_eq_of_lt (by omega)]
    apply Nat.eq_of_testBit_eq
    intro j
    have hneg : (2 ^ 32 - x).testBit j = (decide (j < 32) && !(x - 1).testBit j) := by
      have := Nat.testBit_two_pow_sub_succ (x := x - 1) (n := 32) (by omega) j
      rwa [show x - 1 + 1 = x by omega] at this
    have hpos : 0 < 2 ^ i := Nat.two_pow_pos i
    have hm1 : x - 1 = 2 ^ i * (2 * m) + (2 ^ i - 1) := by
      rw [e, Nat.mul_add, Nat.mul_one]; omega
    simp only [Nat.testBit_and, hneg]
    rw [hm1, Nat.testBit_two_pow_mul_add _ (by omega), e, form_testBit, Nat.testBit_two_pow]
    by_cases hj : j < i
    · simp [hj, Nat.not_le.2 hj]; omega
    · rw [if_neg hj]
      by_cases hji : j = i
      · subst hji
        simp [hi]
      · have : j - i = (j - i - 1) + 1 := by omega
        rw [this, Nat.testBit_succ, Nat.testBit_succ, show (2 * m + 1) / 2 = m by omega, show 2 * m / 2 = m by omega]
        simp only [Nat.not_lt.1 hj, decide_true, Bool.true_and]
        rw [show decide (i = j) = false by simp; omega]
        cases m.testBit (j - i - 1) <;> simp

theorem prioritize_eq {tbl : Option (List Nat)} {mine theirs : Nat} (h : mine < 2 ^ 32) : prioritize tbl mine theirs = Spec.pick tbl mine theirs := by
  cases tbl with
  | some t => exact loop_eq _ t
  | none =>
    exact lowest_eq (Nat.lt_of_le_of_lt Nat.and_le_left h)

/-! ### Tables -/

theorem drop_four {buf : Bytes} {p : Nat} (h : p + 4 ≤ buf.length) : ∃ b0 b1 b2 b3 rest, buf.drop p = b0 :: b1 :: b2 :: b3 :: rest := by
  have hl : 4 ≤ (buf.drop p).length := by rw [List.length_drop]; omega
  match hd : buf.drop p with
  | b0 :: b1 :: b2 :: b3 :: rest => exact ⟨b0, b1, b2, b3, rest, rfl⟩
  | [] | [_] | [_, _] | [_, _, _] => rw [hd] at hl; simp at hl

theorem entryAt_drop {buf : Bytes} {p : Nat} {b0 b1 b2 b3 : UInt8} {rest : Bytes} (h : buf.drop p = b0 :: b1 :: b2 :: b3 :: rest) :
    entryAt buf p = some ⟨b0.toNat, b1.toNat % 16, b1.toNat / 16, leNat [b2, b3]⟩ := by
  have hl : 4 ≤ buf.length - p := by rw [← List.length_drop, h]; simp
  have g : ∀ i : Nat, buf.getD (p + i) 0 = (b0 :: b1 :: b2 :: b3 :: rest).getD i 0 := by
    intro i
    rw [List.getD_eq_getElem?_getD, List.getD_eq_getElem?_getD, ← List.getElem?_drop, h]
  have w : window buf (p + 2) 2 = [b2, b3] := by
    unfold window
    rw [← List.drop_drop, h]; rfl
  unfold entryAt
  rw [if_pos (by omega), w, g 1, show buf.getD p 0 = b0 from g 0]
  rfl

theorem window_drop {buf : Bytes} {p n : Nat} {b0 b1 b2 b3 : UInt8} {rest : Bytes} (h : buf.drop p = b0 :: b1 :: b2 :: b3 :: rest) :
    window buf p (4 + n) = [b0, b1, b2, b3] ++ rest.take n ∧ window buf (p + 4) n = rest.take n := by
  unfold window
  constructor
  · rw [h, Nat.add_comm]; rfl
  · rw [← List.drop_drop, h]; rfl

/-- Number of bytes of a table. -/
theorem bytes_len (t : Table) : t.bytes.length = 4 + t.exts.length := by simp [Table.bytes]; omega

theorem bytes_of_entry {buf : Bytes} {p : Nat} {e : Entry} (h : entryAt buf p = some e) (hf : e.fixed = 2) (hin : p + 4 + 4 * e.ext ≤ buf.length) :
    ∃ t : Table, t.ty = e.ty ∧ t.sup = e.sup ∧ t.ext = e.ext ∧ t.exts.length = 4 * e.ext ∧ window buf p (4 + 4 * e.ext) = t.bytes ∧ e.ext < 16 ∧
      e.sup < 65536 := by
  obtain ⟨b0, b1, b2, b3, rest, hd⟩ := drop_four (buf := buf) (p := p) (by omega)
  have he := entryAt_drop hd
  rw [h] at he
  simp only [Option.some.injEq] at he
  subst he
  simp only at hf hin ⊢
  have hrest : rest.length = buf.length - p - 4 := by
    have := congrArg List.length hd
    simp at this; omega
  have hlen : (rest.take (4 * (b1.toNat % 16))).length = 4 * (b1.toNat % 16) := by rw [List.length_take]; omega
  have hx : (⟨b0.toNat, leNat [b2, b3], rest.take (4 * (b1.toNat % 16))⟩ : Table).ext = b1.toNat % 16 := by
    simp only [Table.ext, hlen]; omega
  refine ⟨⟨b0.toNat, leNat [b2, b3], rest.take (4 * (b1.toNat % 16))⟩, rfl, rfl, hx, hlen, ?_, Nat.mod_lt _ (by omega), ?_⟩
  rotate_left
  · have := leNat_lt [b2, b3]
    simp only [List.length_cons, List.length_nil] at this
    omega
  rw [(window_drop hd).1]
  simp only [Table.bytes, hx]
  have e1 : UInt8.ofNat (32 + b1.toNat % 16) = b1 := by
    have : 32 + b1.toNat % 16 = b1.toNat := by omega
    rw [this, UInt8.ofNat_toNat]
  have e2 : toLE 2 (leNat [b2, b3]) = [b2, b3] := toLE_leNat [b2, b3]
  rw [e1, e2, UInt8.ofNat_toNat]
  rfl

theorem entry_of_bytes {buf : Bytes} {p : Nat} {t : Table} (hok : t.Ok) (hin : p + t.bytes.length ≤ buf.length)
    (h : window buf p t.bytes.length = t.bytes) : entryAt buf p = some ⟨t.ty, t.ext, 2, t.sup⟩ := by
  have hl := bytes_len t
  obtain ⟨b0, b1, b2, b3, rest, hd⟩ := drop_four (buf := buf) (p := p) (by omega)
  rw [entryAt_drop hd]
  rw [hl, (window_drop hd).1] at h
  obtain ⟨h1, h2⟩ := hok.type
  obtain ⟨h3, h4⟩ := hok.exts
  have h5 := hok.bound
  unfold Table.bytes at h
  have h' := List.append_inj_left h (by simp)
  have hle : toLE 2 t.sup = [b2, b3] ∧ UInt8.ofNat t.ty = b0 ∧ UInt8.ofNat (32 + t.ext) = b1 := by
    have hll := toLE_length 2 t.sup
    match hq : toLE 2 t.sup with
    | [x, y] =>
      rw [hq] at h'
      simp only [List.cons_append, List.nil_append, List.cons.injEq, and_true] at h'
      obtain ⟨rfl, rfl, rfl, rfl⟩ := h'
      exact ⟨rfl, rfl, rfl⟩
    | [] | [_] | _ :: _ :: _ :: _ => rw [hq] at hll; simp at hll
  obtain ⟨a1, rfl, rfl⟩ := hle
  rw [← a1, leNat_toLE, Nat.mod_eq_of_lt (show t.sup < 256 ^ 2 by omega)]
  simp only [UInt8.toNat_ofNat', Option.some.injEq, Entry.mk.injEq]
  refine ⟨by omega, by omega, by omega, trivial⟩

/-- Total number of bytes and of extended algorithms. -/
def total (ts : List Table) : Nat := (ts.map (·.bytes.length)).sum
def extTotal (ts : List Table) : Nat := (ts.map (·.ext)).sum

/-- The tables are in the buffer, one behind the other. -/
def Parsed (buf : Bytes) : Nat → List Table → Prop
  | _, [] => True
  | p, t :: ts => entryAt buf p = some ⟨t.ty, t.ext, 2, t.sup⟩ ∧ window buf p t.bytes.length = t.bytes ∧ t.exts.length = 4 * t.ext ∧
    Parsed buf (p + t.bytes.length) ts

/-- Types that get larger. -/
def Rising : Nat → List Table → Prop
  | _, [] => True
  | prev, t :: ts => prev < t.ty ∧ Rising t.ty ts

theorem parsed_window {buf : Bytes} : ∀ {ts : List Table} {p : Nat}, Parsed buf p ts → window buf p (total ts) = (ts.map (·.bytes)).flatten
  | [], p, _ => by simp [total, window_zero_len]
  | t :: ts, p, ⟨_, h2, _, h4⟩ => by
    have : total (t :: ts) = t.bytes.length + total ts := by simp [total]
    rw [this, ← window_concat, h2, parsed_window h4]
    rfl

theorem parsed_of_window {buf : Bytes} : ∀ {ts : List Table} {p : Nat}, (∀ t ∈ ts, t.Ok) → p + total ts ≤ buf.length →
    window buf p (total ts) = (ts.map (·.bytes)).flatten → Parsed buf p ts
  | [], _, _, _, _ => trivial
  | t :: ts, p, hok, hin, h => by
    have e : total (t :: ts) = t.bytes.length + total ts := by simp [total]
    rw [e] at hin h
    rw [← window_concat, List.map_cons, List.flatten_cons] at h
    have hl : (window buf p t.bytes.length).length = t.bytes.length := by rw [window_length]; omega
    have h1 := List.append_inj_left h hl
    have h2 := List.append_inj_right h hl
    have hb := hok t (by simp)
    refine ⟨entry_of_bytes hb (by omega) h1, h1, ?_, parsed_of_window (fun x hx => hok x (by simp [hx])) (by omega) h2⟩
    have := hb.exts.1
    unfold Table.ext; omega

theorem validate_mono {buf : Bytes} {n : Nat} : ∀ {k prev p ext q e' : Nat}, validate buf n k prev p ext = .ok (q, e') → p ≤ q
  | 0, prev, p, ext, q, e', h => by cases h; exact Nat.le_refl _
  | k + 1, prev, p, ext, q, e', h => by
    unfold validate at h
    repeat' split at h
    all_goals first
      | cases h; done
      | (have := validate_mono h; omega)

theorem validate_sound {buf : Bytes} {n : Nat} : ∀ {k prev p ext q e' : Nat}, validate buf n k prev p ext = .ok (q, e') → q ≤ buf.length → ext < 65536 →
    ∃ ts : List Table, ts.length = k ∧ Parsed buf p ts ∧ q = p + total ts ∧ Rising prev ts ∧ e' = (ext + extTotal ts) % 65536 ∧
      ∀ t ∈ ts, (2 ≤ t.ty ∧ t.ty ≤ 5) ∧ t.sup < 65536 ∧ t.exts.length % 4 = 0 ∧ t.ext < 16
  | 0, prev, p, ext, q, e', h, _, he => by
    cases h
    exact ⟨[], rfl, trivial, by simp [total], trivial, by simp [extTotal]; omega, nofun⟩
  | k + 1, prev, p, ext, q, e', h, hq, he => by
    unfold validate at h
    cases hent : entryAt buf p with
    | none => rw [hent] at h; cases h
    | some e =>
      rw [hent] at h
      simp only at h
      split at h
      · cases h
      split at h
      · cases h
      split at h
      · cases h
      split at h
      · cases h
      rename_i h1 h2 h3 h4
      have hm := validate_mono h
      obtain ⟨t, t1, t2, t3, t4, t5, t6, t7⟩ := bytes_of_entry hent (by omega) (by omega)
      obtain ⟨ts, s1, s2, s3, s4, s5, s6⟩ := validate_sound h hq (Nat.mod_lt _ (by omega))
      have hbl : t.bytes.length = 4 + 4 * e.ext := by rw [bytes_len, t4]
      refine ⟨t :: ts, by simp [s1], ⟨?_, by rw [hbl]; exact t5, by omega, by rw [hbl, ← Nat.add_assoc]; exact s2⟩, ?_, ⟨by omega, by rw [t1]; exact s4⟩, ?_, ?_⟩
      · rw [hent, t1, t2, t3]
        have : e.fixed = 2 := by omega
        rw [← this]
      · simp only [total, List.map_cons, List.sum_cons, hbl] at s3 ⊢
        omega
      · simp only [extTotal, List.map_cons, List.sum_cons, t3] at s5 ⊢
        omega
      · intro x hx
        rcases List.mem_cons.1 hx with rfl | hx
        · exact ⟨by omega, by omega, by omega, by omega⟩
        · exact s6 x hx

theorem validate_complete {buf : Bytes} {n : Nat} (hn : n ≤ buf.length) (hn64 : buf.length < 2 ^ 64) : ∀ {ts : List Table} {prev p ext : Nat}, Parsed buf p ts → p + total ts ≤ n → Rising prev ts →
    (∀ t ∈ ts, 2 ≤ t.ty ∧ t.ty ≤ 5) → ext < 65536 → validate buf n ts.length prev p ext = .ok (p + total ts, (ext + extTotal ts) % 65536)
  | [], prev, p, ext, _, _, _, _, he => by simp [validate, total, extTotal]; omega
  | t :: ts, prev, p, ext, ⟨h1, h2, h3, h4⟩, hin, ⟨h5, h6⟩, hty, he => by
    have e : total (t :: ts) = t.bytes.length + total ts := by simp [total]
    have e2 : extTotal (t :: ts) = t.ext + extTotal ts := by simp [extTotal]
    have hb := bytes_len t
    have ht := hty t (by simp)
    rw [e] at hin
    simp only [List.length_cons, validate, h1]
    have hmod : (n + 2 ^ 64 - p - 4) % 2 ^ 64 = n - p - 4 := by omega
    rw [if_neg (by omega), if_neg (by omega), if_neg (by omega), hmod, if_neg (by omega)]
    have hp : p + 4 + 4 * t.ext = p + t.bytes.length := by omega
    rw [hp, validate_complete hn hn64 h4 (by omega) h6 (fun x hx => hty x (by simp [hx])) (Nat.mod_lt _ (by omega)), e, e2]
    simp only [Res.ok.injEq, Prod.mk.injEq]
    omega

/-- The walk reads at most 260 bytes beyond the payload. -/
theorem validate_in {buf : Bytes} {n : Nat} (hb : n + 260 ≤ buf.length) (hn64 : n < 2 ^ 64) : ∀ {k prev p ext : Nat}, 1 ≤ prev → prev ≤ 5 → p ≤ n + 64 * (prev - 1) →
    validate buf n k prev p ext ≠ .oob
  | 0, _, _, _, _, _, _ => by simp [validate]
  | k + 1, prev, p, ext, h1, h5, hp => by
    unfold validate
    have : ∃ e, entryAt buf p = some e := ⟨_, by unfold entryAt; rw [if_pos (by omega)]⟩
    obtain ⟨e, he⟩ := this
    rw [he]
    simp only
    have hext : e.ext < 16 := by
      unfold entryAt at he
      rw [if_pos (by omega)] at he
      cases he
      exact Nat.mod_lt _ (by omega)
    repeat' split
    all_goals first
      | (intro h; cases h; done)
      | exact validate_in hb hn64 (by omega) (by omega) (by omega)

/-! ### Response -/

/-- What is set for a table type. -/
def slot (a : Algs) : Nat → Nat
  | 2 => a.dhe
  | 3 => a.aead
  | 4 => a.reqAsym
  | _ => a.keySched

/-- Preferences for a table type. -/
def prefsOf (l : Local) : Nat → Option (List Nat)
  | 2 => l.prio.dhe
  | 3 => l.prio.aead
  | 4 => l.prio.reqAsym
  | _ => l.prio.keySched

/-- The algorithms outside of tables. -/
def SameOutside (a b : Algs) : Prop :=
  a.measSpec = b.measSpec ∧ a.measHash = b.measHash ∧ a.asym = b.asym ∧ a.hash = b.hash ∧ a.opq = b.opq

theorem select_spec (loc : Local) (a : Algs) {ty : Nat} (h : 2 ≤ ty ∧ ty ≤ 5) (sup : Nat) :
    (select loc a ty sup).1 = prioritize (prefsOf loc ty) (slot loc.algs ty) sup % 65536 ∧
      slot (select loc a ty sup).2 ty = prioritize (prefsOf loc ty) (slot loc.algs ty) sup % 65536 ∧
      (∀ u, 2 ≤ u → u ≤ 5 → u ≠ ty → slot (select loc a ty sup).2 u = slot a u) ∧ SameOutside (select loc a ty sup).2 a := by
  have : ty = 2 ∨ ty = 3 ∨ ty = 4 ∨ ty = 5 := by omega
  rcases this with rfl | rfl | rfl | rfl <;>
  · refine ⟨rfl, rfl, ?_, ⟨rfl, rfl, rfl, rfl, rfl⟩⟩
    intro u h2 h5 hu
    have : u = 2 ∨ u = 3 ∨ u = 4 ∨ u = 5 := by omega
    rcases this with rfl | rfl | rfl | rfl <;> first | rfl | exact absurd rfl hu

/-- The choice for a table. -/
def chosen (loc : Local) (t : Table) : Nat := prioritize (prefsOf loc t.ty) (slot loc.algs t.ty) t.sup % 65536

theorem rising_lt : ∀ {ts : List Table} {prev : Nat}, Rising prev ts → ∀ t ∈ ts, prev < t.ty
  | [], _, _ => nofun
  | t :: ts, prev, ⟨h1, h2⟩ => by
    intro x hx
    rcases List.mem_cons.1 hx with rfl | hx
    · exact h1
    · exact Nat.lt_trans h1 (rising_lt h2 x hx)

theorem rising_len : ∀ {ts : List Table} {prev : Nat}, Rising prev ts → (∀ t ∈ ts, t.ty ≤ 5) → prev ≤ 5 → ts.length + prev ≤ 5
  | [], _, _, _, h => by simpa using h
  | t :: ts, prev, ⟨h1, h2⟩, hty, _ => by
    have := rising_len h2 (fun x hx => hty x (by simp [hx])) (hty t (by simp))
    simp only [List.length_cons]; omega

theorem build_eq (loc : Local) (buf : Bytes) : ∀ {ts : List Table} {prev p i : Nat} (a : Algs), Parsed buf p ts → Rising prev ts → i + ts.length ≤ 4 →
    (∀ t ∈ ts, 2 ≤ t.ty ∧ t.ty ≤ 5) → (∀ t ∈ ts, t.sup ≠ 0) →
    ∃ a', build loc buf ts.length i p a = some (a', some (ts.map fun t => Spec.answer t.ty (chosen loc t)).flatten) ∧ SameOutside a' a ∧
      ∀ u, 2 ≤ u → u ≤ 5 → slot a' u = match ts.find? (·.ty == u) with | some t => chosen loc t | none => slot a u
  | [], _, _, _, a, _, _, _, _, _ => ⟨a, rfl, ⟨rfl, rfl, rfl, rfl, rfl⟩, fun _ _ _ => rfl⟩
  | t :: ts, prev, p, i, a, ⟨h1, h2, h3, h4⟩, ⟨h5, h6⟩, hi, hty, hsup => by
    have hb := bytes_len t
    have ht := hty t (by simp)
    obtain ⟨s1, s2, s3, s4⟩ := select_spec loc a ht t.sup
    simp only [List.length_cons] at hi
    obtain ⟨a', r1, r2, r3⟩ := build_eq loc buf (i := i + 1) (select loc a t.ty t.sup).2 h4 h6 (by omega) (fun x hx => hty x (by simp [hx])) (fun x hx => hsup x (by simp [hx]))
    refine ⟨a', ?_, ?_, ?_⟩
    · simp only [List.length_cons, build, h1]
      rw [if_neg (hsup t (by simp)), if_neg (by omega), show p + 4 + 4 * t.ext = p + t.bytes.length by omega, r1, s1]
      rfl
    · obtain ⟨x1, x2, x3, x4, x5⟩ := r2
      obtain ⟨y1, y2, y3, y4, y5⟩ := s4
      exact ⟨x1.trans y1, x2.trans y2, x3.trans y3, x4.trans y4, x5.trans y5⟩
    · intro u hu2 hu5
      rw [r3 u hu2 hu5]
      by_cases hu : t.ty = u
      · have hn : ts.find? (·.ty == u) = none := by
          rw [List.find?_eq_none]
          intro x hx
          have := rising_lt h6 x hx
          simp; omega
        rw [hn, List.find?_cons_of_pos (by simp [hu])]
        simp only
        rw [← hu, s2]; rfl
      · rw [List.find?_cons_of_neg (by simp [hu]), s3 u hu2 hu5 (fun e => hu e.symm)]

/-- A table without algorithms. -/
theorem build_refuse (loc : Local) (buf : Bytes) : ∀ {ts : List Table} {p i : Nat} (a : Algs), Parsed buf p ts → i + ts.length ≤ 4 →
    (∃ t ∈ ts, t.sup = 0) → ∃ a', build loc buf ts.length i p a = some (a', none)
  | [], _, _, _, _, _, h => by obtain ⟨_, h, _⟩ := h; cases h
  | t :: ts, p, i, a, ⟨h1, h2, h3, h4⟩, hi, h => by
    have hb := bytes_len t
    simp only [List.length_cons] at hi
    simp only [List.length_cons, build, h1]
    by_cases h0 : t.sup = 0
    · rw [if_pos h0]; exact ⟨_, rfl⟩
    · have : ∃ x ∈ ts, x.sup = 0 := by
        obtain ⟨x, hx, hx0⟩ := h
        rcases List.mem_cons.1 hx with rfl | hx
        · exact absurd hx0 h0
        · exact ⟨x, hx, hx0⟩
      obtain ⟨a', r⟩ := build_refuse loc buf (i := i + 1) (select loc a t.ty t.sup).2 h4 (by omega) this
      rw [if_neg h0, if_neg (by omega), show p + 4 + 4 * t.ext = p + t.bytes.length by omega, r]
      exact ⟨_, rfl⟩

/-- What the responder supports and its preferences fit in the fields of the messages. -/
structure Fits (l : Local) : Prop where
  measSpec : l.algs.measSpec < 256 ∧ ∀ t, l.prio.measSpec = some t → ∀ p ∈ t, p < 256
  measHash : l.algs.measHash < 2 ^ 32
  asym : l.algs.asym < 2 ^ 32
  hash : l.algs.hash < 2 ^ 32
  table : ∀ ty, slot l.algs ty < 65536 ∧ ∀ t, prefsOf l ty = some t → ∀ p ∈ t, p < 65536
  opq : l.algs.opq < 16 ∧ ∀ t, l.prio.opq = some t → ∀ p ∈ t, p < 16

theorem loop_lt (common B : Nat) (hB : 0 < B) : ∀ t : List Nat, (∀ p ∈ t, p < B) → prioritize.loop common t < B
  | [], _ => hB
  | p :: ps, h => by
    unfold prioritize.loop
    split
    · exact h p (by simp)
    · exact loop_lt common B hB ps fun x hx => h x (by simp [hx])

theorem pick_mod {tbl : Option (List Nat)} {mine theirs B : Nat} (hB : 0 < B) (hB2 : B ≤ 2 ^ 32) (hm : mine < B) (ht : ∀ t, tbl = some t → ∀ p ∈ t, p < B) :
    prioritize tbl mine theirs % B = Spec.pick tbl mine theirs := by
  rw [← prioritize_eq (by omega)]
  apply Nat.mod_eq_of_lt
  cases tbl with
  | some t => exact loop_lt _ B hB t (ht t rfl)
  | none => exact Nat.lt_of_le_of_lt Nat.and_le_left (Nat.lt_of_le_of_lt Nat.and_le_left hm)

/-- The responder reports measurements. -/
def Measures (l : Local) : Prop := l.caps.flags / 8 % 4 = 1 ∨ l.caps.flags / 8 % 4 = 2

instance (l : Local) : Decidable (Measures l) := inferInstanceAs (Decidable (_ ∨ _))

/-- The choice for a table. -/
def choice (l : Local) (t : Table) : Nat := Spec.pick (prefsOf l t.ty) (slot l.algs t.ty) t.sup

/-- The algorithms `a` agreed on in version `v`, with `old` from before. -/
structure Agreed (l : Local) (v : UInt8) (meas opq asym hash : Nat) (ts : List Table) (old a : Algs) : Prop where
  measSpec : a.measSpec = if Measures l then Spec.pick l.prio.measSpec l.algs.measSpec meas else 0
  measHash : a.measHash = if Measures l ∧ meas ≠ 0 then Spec.lowestBit l.algs.measHash else 0
  asym : a.asym = Spec.pick l.prio.asym l.algs.asym asym
  hash : a.hash = Spec.pick l.prio.hash l.algs.hash hash
  opq : a.opq = if 0x12 ≤ v then Spec.pick l.prio.opq l.algs.opq opq else old.opq
  table : ∀ u, 2 ≤ u → u ≤ 5 → slot a u = match ts.find? (·.ty == u) with | some t => choice l t | none => slot old u

theorem chosen_eq {l : Local} (hf : Fits l) (t : Table) : chosen l t = choice l t :=
  pick_mod (by omega) (by omega) (hf.table t.ty).1 (hf.table t.ty).2

theorem construct_eq {loc : Local} (hf : Fits loc) {buf : Bytes} {v : UInt8} {p : Nat} {ts : List Table} (old : Algs) (hp : Parsed buf p ts) (hr : Rising 1 ts)
    (hty : ∀ t ∈ ts, 2 ≤ t.ty ∧ t.ty ≤ 5) (hs : ∀ t ∈ ts, t.sup ≠ 0) :
    ∃ a, Agreed loc v (buf.getD 6 0).toNat ((buf.getD 7 0).toNat % 16) (leNat (window buf 8 4)) (leNat (window buf 12 4)) ts old a ∧
      construct loc buf v ts.length p old = some (a, some (Spec.response v a.measSpec (if 0x12 ≤ v then a.opq else 0) a.measHash a.asym a.hash (ts.map fun t => (t.ty, choice loc t)))) := by
  have hlen : ts.length ≤ 4 := by
    have := rising_len hr (fun t ht => (hty t ht).2) (by omega); omega
  obtain ⟨a1, b1, b2, b3⟩ := build_eq loc buf (i := 0) { old with measSpec := (buf.getD 6 0).toNat, asym := leNat (window buf 8 4), hash := leNat (window buf 12 4) } hp hr (by omega) hty hs
  obtain ⟨c1, c2, c3, c4, c5⟩ := b2
  have hmap : (ts.map fun t => Spec.answer t.ty (chosen loc t)) = (ts.map fun t => (t.ty, choice loc t)).map fun t => Spec.answer t.1 t.2 := by
    rw [List.map_map]
    apply List.map_congr_left
    intro t _
    simp only [Function.comp, chosen_eq hf t]
  have hslot : ∀ u, 2 ≤ u → u ≤ 5 → slot a1 u = match ts.find? (·.ty == u) with | some t => choice loc t | none => slot old u := by
    intro u h2 h5
    rw [b3 u h2 h5]
    cases ts.find? (·.ty == u) with
    | some t => exact chosen_eq hf t
    | none =>
      have : u = 2 ∨ u = 3 ∨ u = 4 ∨ u = 5 := by omega
      rcases this with rfl | rfl | rfl | rfl <;> rfl
  have hms := pick_mod (tbl := loc.prio.measSpec) (theirs := (buf.getD 6 0).toNat) (by omega) (by omega) hf.measSpec.1 hf.measSpec.2
  have ho := pick_mod (tbl := loc.prio.opq) (theirs := (buf.getD 7 0).toNat % 16) (by omega) (by omega) hf.opq.1 hf.opq.2
  have ha := prioritize_eq (tbl := loc.prio.asym) (theirs := leNat (window buf 8 4)) hf.asym
  have hh := prioritize_eq (tbl := loc.prio.hash) (theirs := leNat (window buf 12 4)) hf.hash
  have hmh : prioritize none loc.algs.measHash (if (buf.getD 6 0).toNat ≠ 0 then loc.algs.measHash else 0) =
      if (buf.getD 6 0).toNat ≠ 0 then Spec.lowestBit loc.algs.measHash else 0 := by
    rw [prioritize_eq hf.measHash]
    simp only [Spec.pick]
    split
    · rw [Nat.and_self]
    · rw [Nat.and_zero]; rfl
  let a : Algs := { a1 with
    measSpec := if Measures loc then Spec.pick loc.prio.measSpec loc.algs.measSpec (buf.getD 6 0).toNat else 0,
    measHash := if Measures loc ∧ (buf.getD 6 0).toNat ≠ 0 then Spec.lowestBit loc.algs.measHash else 0,
    asym := Spec.pick loc.prio.asym loc.algs.asym (leNat (window buf 8 4)),
    hash := Spec.pick loc.prio.hash loc.algs.hash (leNat (window buf 12 4)),
    opq := if 0x12 ≤ v then Spec.pick loc.prio.opq loc.algs.opq ((buf.getD 7 0).toNat % 16) else old.opq }
  have hsa : ∀ u, slot a u = slot a1 u := by
    intro u; unfold slot; split <;> rfl
  refine ⟨a, ⟨rfl, rfl, rfl, rfl, rfl, fun u h2 h5 => (hsa u).trans (hslot u h2 h5)⟩, ?_⟩
  unfold construct
  simp only [b1]
  simp only at c1 c2 c3 c4 c5
  rw [hmap]
  by_cases hm : Measures loc
  · have hm' : loc.caps.flags / 8 % 4 = 1 ∨ loc.caps.flags / 8 % 4 = 2 := hm
    by_cases hv : 0x12 ≤ v
    · simp only [hm', hv, if_true, c1, c3, c4, hms, ho, ha, hh, hmh, Spec.response, List.length_map, a, hm, true_and]
    · simp only [hm', hv, if_true, if_false, c1, c3, c4, c5, hms, ha, hh, hmh, Spec.response, List.length_map, a, hm, true_and]
  · have hm' : ¬ (loc.caps.flags / 8 % 4 = 1 ∨ loc.caps.flags / 8 % 4 = 2) := hm
    by_cases hv : 0x12 ≤ v
    · simp only [hm', hv, if_true, if_false, c1, c3, c4, ho, ha, hh, Spec.response, List.length_map, a, hm, false_and]
    · simp only [hm', hv, if_false, c1, c3, c4, c5, ha, hh, Spec.response, List.length_map, a, hm, false_and]

/-- Rising types are pairwise rising. -/
theorem rising_pairwise : ∀ {ts : List Table} {prev : Nat}, Rising prev ts ↔ (∀ t ∈ ts, prev < t.ty) ∧ ts.Pairwise fun a b => a.ty < b.ty
  | [], prev => ⟨fun _ => ⟨nofun, List.Pairwise.nil⟩, fun _ => trivial⟩
  | t :: ts, prev => by
    rw [List.pairwise_cons]
    constructor
    · intro h
      exact ⟨rising_lt h, (rising_pairwise.1 h.2).1, (rising_pairwise.1 h.2).2⟩
    · intro h
      exact ⟨h.1 t (by simp), rising_pairwise.2 h.2⟩

theorem response_length (v : UInt8) (m o mh a h : Nat) (ts : List (Nat × Nat)) : (Spec.response v m o mh a h ts).length = 36 + 4 * ts.length := by
  have : ((ts.map fun t => Spec.answer t.1 t.2).flatten).length = 4 * ts.length := by
    induction ts with
    | nil => rfl
    | cons t ts ih => rw [List.map_cons, List.flatten_cons, List.length_append, ih]; simp only [Spec.answer, List.length_append, toLE_length, List.length_cons, List.length_nil]; omega
  simp only [Spec.response, List.length_append, toLE_length, List.length_cons, List.length_nil, this, List.length_replicate]

theorem flatten_length (ts : List Table) : (ts.map (·.bytes)).flatten.length = total ts := by
  rw [List.length_flatten, List.map_map]; rfl

theorem getD_take {l : Bytes} {n i : Nat} (h : i < n) : (l.take n).getD i 0 = l.getD i 0 := by
  rw [List.getD_eq_getElem?_getD, List.getD_eq_getElem?_getD, List.getElem?_take_of_lt h]

theorem window_take {l : Bytes} {m o n : Nat} (h : o + n ≤ m) : window (l.take m) o n = window l o n := by
  unfold window
  rw [List.drop_take, List.take_take, Nat.min_eq_left (by omega)]

end Verif.SpdmNeg
