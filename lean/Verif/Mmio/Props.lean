import Verif.Mmio.Lemmas
/-! C137: fields of memory-mapped registers. -/
namespace Verif.Mmio
open Verif

/-- Whether a request of the history is carried out. -/
def Carried (d : Dev) (x : Fault × Spec.Op) : Prop :=
  x.2.off % 4 = 0 ∧ x.2.off < d.size ∧ Spec.ValidField x.2.field.1 x.2.field.2 ∧ x.1.read = false ∧
  (x.1.write = false ∨ match x.2 with | .readBits .. | .readBit .. => True | _ => False)

instance (pos n : Nat) : Decidable (Spec.ValidField pos n) := by unfold Spec.ValidField; infer_instance
instance (d : Dev) (x : Fault × Spec.Op) : Decidable (Carried d x) := by
  unfold Carried
  have : Decidable (match x.2 with | .readBits .. | .readBit .. => True | _ => False) := by
    cases x.2 <;> first | exact isTrue trivial | exact isFalse id
  infer_instance

theorem bit_of {x : BitVec 32} {b : Spec.Bits} {off pos : Nat} (h : x.toNat = Spec.read b off pos 1) : (x != 0#32) = b off pos := by
  simp only [Spec.read, Nat.pow_zero, Nat.zero_add, Nat.add_zero] at h
  cases hb : b off pos with
  | false =>
    rw [hb] at h
    have : x = 0#32 := BitVec.eq_of_toNat_eq h
    rw [this]; rfl
  | true =>
    rw [hb] at h
    have : x = 1#32 := BitVec.eq_of_toNat_eq h
    rw [this]; rfl

/-- **C137, one request.** A request that is possible returns and changes exactly what it says, bit by bit. -/
theorem step_exact (f : Fault) (d : Dev) (o : Spec.Op) (h : Carried d (f, o)) :
    ∃ d', step f d o = .ok (Spec.result d.bits o, d') ∧ d'.bits = Spec.step d.bits o ∧ d'.size = d.size ∧ d'.base = d.base := by
  obtain ⟨h1, h2, h3, h4, h5⟩ := h
  have hw : ∀ off pos n v, Accepted f d off pos n → f.write = false → ∃ d', Res.bind (writeBits f d off pos n (BitVec.ofNat 32 v)) (fun d => (.ok (0, d) : Res Err (Nat × Dev))) =
      .ok (0, d') ∧ d'.bits = Spec.write d.bits off pos n v ∧ d'.size = d.size ∧ d'.base = d.base := by
    intro off pos n v ha hf
    obtain ⟨d', e, r⟩ := writeBits_ok (v := v) ha hf
    exact ⟨d', by rw [e]; rfl, r⟩
  cases o with
  | readBits off pos n =>
    obtain ⟨x, e, hx⟩ := readBits_ok (f := f) (d := d) (off := off) (pos := pos) (n := n) ⟨h1, h2, h3, h4⟩
    exact ⟨d, by simp only [step, e, Res.bind, Spec.result, hx], rfl, rfl, rfl⟩
  | readBit off pos =>
    obtain ⟨x, e, hx⟩ := readBits_ok (f := f) (d := d) (off := off) (pos := pos) (n := 1) ⟨h1, h2, h3, h4⟩
    exact ⟨d, by simp only [step, readBit, e, Res.bind, Spec.result, bit_of hx], rfl, rfl, rfl⟩
  | writeBits off pos n v => exact hw off pos n v ⟨h1, h2, h3, h4⟩ (h5.resolve_right id)
  | writeBit off pos v =>
    cases v
    · exact hw off pos 1 0 ⟨h1, h2, h3, h4⟩ (h5.resolve_right id)
    · exact hw off pos 1 1 ⟨h1, h2, h3, h4⟩ (h5.resolve_right id)
  | setBit off pos => exact hw off pos 1 1 ⟨h1, h2, h3, h4⟩ (h5.resolve_right id)
  | clearBit off pos => exact hw off pos 1 0 ⟨h1, h2, h3, h4⟩ (h5.resolve_right id)

/-- **C137, refusals.** Everything else is not carried out; with a field of at least one bit it gives an error. -/
theorem step_refused_partial (f : Fault) (d : Dev) (o : Spec.Op) (hn : 0 < o.field.2) (h : ¬ Carried d (f, o)) : ∃ e, step f d o = .err e := by
  have hok : ∀ r, step f d o ≠ .ok r := by
    intro r hr
    apply h
    have hwr : ∀ {off pos n v}, Res.bind (writeBits f d off pos n v) (fun d => (.ok (0, d) : Res Err (Nat × Dev))) = .ok r →
        Accepted f d off pos n ∧ f.write = false := by
      intro off pos n v hx
      obtain ⟨d', hd, _⟩ := Res.bind_eq_ok.1 hx
      exact writeBits_inv hd
    cases o with
    | readBits off pos n =>
      obtain ⟨x, hx, _⟩ := Res.bind_eq_ok.1 hr
      obtain ⟨a, b, c, e⟩ := readBits_inv hx
      exact ⟨a, b, c, e, .inr trivial⟩
    | readBit off pos =>
      obtain ⟨x, hx, _⟩ := Res.bind_eq_ok.1 hr
      obtain ⟨y, hy, _⟩ := Res.bind_eq_ok.1 hx
      obtain ⟨a, b, c, e⟩ := readBits_inv hy
      exact ⟨a, b, c, e, .inr trivial⟩
    | writeBits off pos n v => obtain ⟨⟨a, b, c, e⟩, w⟩ := hwr hr; exact ⟨a, b, c, e, .inl w⟩
    | writeBit off pos v => obtain ⟨⟨a, b, c, e⟩, w⟩ := hwr hr; exact ⟨a, b, c, e, .inl w⟩
    | setBit off pos => obtain ⟨⟨a, b, c, e⟩, w⟩ := hwr hr; exact ⟨a, b, c, e, .inl w⟩
    | clearBit off pos => obtain ⟨⟨a, b, c, e⟩, w⟩ := hwr hr; exact ⟨a, b, c, e, .inl w⟩
  have hoob : step f d o ≠ .oob := by
    have hm : ∀ {n : Nat}, 0 < n → lowMask n ≠ .oob := by
      intro n h0; unfold lowMask; rw [if_neg (by omega)]; nofun
    have hc : ∀ {pos n : Nat}, checkField pos n ≠ .oob := by
      intro pos n; unfold checkField; repeat' split
      all_goals nofun
    have hr : ∀ {off : Nat}, read32 f d off ≠ .oob := by
      intro off; unfold read32; split <;> nofun
    have hw : ∀ {off : Nat} {v}, write32 f d off v ≠ .oob := by
      intro off v; unfold write32; split <;> nofun
    have hb : ∀ {α β : Type} {x : Res Err α} {g : α → Res Err β}, x ≠ .oob → (∀ a, g a ≠ .oob) → Res.bind x g ≠ .oob := by
      intro α β x g h1 h2
      cases x with
      | ok a => exact h2 a
      | err e => nofun
      | oob => exact absurd rfl h1
    have hread : ∀ {off pos n}, 0 < n → readBits f d off pos n ≠ .oob := fun h0 =>
      hb hc fun _ => hb hr fun _ => hb (hm h0) fun _ => nofun
    have hwrite : ∀ {off pos n v}, 0 < n → writeBits f d off pos n v ≠ .oob := fun h0 =>
      hb hc fun _ => hb hr fun _ => hb (hb (hm h0) fun _ => nofun) fun _ => hw
    cases o with
    | readBits off pos n => exact hb (hread hn) fun _ => nofun
    | readBit off pos => exact hb (hb (hread (by omega)) fun _ => nofun) fun _ => nofun
    | writeBits off pos n v => exact hb (hwrite hn) fun _ => nofun
    | writeBit off pos v => exact hb (hwrite (by omega)) fun _ => nofun
    | setBit off pos => exact hb (hwrite (by omega)) fun _ => nofun
    | clearBit off pos => exact hb (hwrite (by omega)) fun _ => nofun
  cases h : step f d o with
  | ok r => exact absurd h (hok r)
  | err e => exact ⟨e, rfl⟩
  | oob => exact absurd h hoob

/-- Values of the requests that were carried out. -/
def values : List (Res Err Nat) → List Nat
  | [] => []
  | .ok x :: l => x :: values l
  | _ :: l => values l

/-- **C137, histories.** After any sequence of reads and writes of fields, some of which fail or are refused, every bit is what the
writes that were carried out made it, and every read returned the bits at that time. -/
theorem run_exact_partial : ∀ (l : List (Fault × Spec.Op)) (d : Dev), (∀ x ∈ l, 0 < x.2.field.2) →
    values (run d l).1 = (Spec.run d.bits ((l.filter fun x => decide (Carried d x)).map (·.2))).1 ∧
    (run d l).2.bits = (Spec.run d.bits ((l.filter fun x => decide (Carried d x)).map (·.2))).2
  | [], d, _ => ⟨rfl, rfl⟩
  | (f, o) :: l, d, hn => by
    have hn' : ∀ x ∈ l, 0 < x.2.field.2 := fun x hx => hn x (by simp [hx])
    unfold run
    by_cases h : Carried d (f, o)
    · obtain ⟨d', e, hb, hs, _⟩ := step_exact f d o h
      rw [e]
      have ih := run_exact_partial l d' hn'
      have hcar : ∀ x, Carried d' x ↔ Carried d x := fun x => by unfold Carried; rw [hs]
      simp only [hcar, hb] at ih
      rw [List.filter_cons_of_pos (by simpa using h), List.map_cons]
      simp only [values, Spec.run]
      exact ⟨by rw [ih.1], ih.2⟩
    · obtain ⟨e, he⟩ := step_refused_partial f d o (hn (f, o) (by simp)) h
      rw [he]
      have ih := run_exact_partial l d hn'
      rw [List.filter_cons_of_neg (by simpa using h)]
      simp only [values]
      exact ih

/-- **C137, other bits.** A write leaves every bit outside of its field alone, in this register and the others. -/
theorem write_frame (f : Fault) (d d' : Dev) (off pos n : Nat) (v : BitVec 32) (h : writeBits f d off pos n v = .ok d') (o i : Nat)
    (hout : o ≠ off ∨ i < pos ∨ pos + n ≤ i) : d'.bits o i = d.bits o i := by
  obtain ⟨ha, hw⟩ := writeBits_inv h
  obtain ⟨d2, e, hb, _⟩ := writeBits_ok (v := v.toNat) ha hw
  rw [BitVec.ofNat_toNat, BitVec.setWidth_eq, h] at e
  cases e
  rw [hb, Spec.write, if_neg (by omega)]

/-- **C137, addresses.** With addresses inside the block the access is the one at the offset of the address. -/
theorem by_addr_exact (w : Nat) (f : Fault) (hf : f.addr = false) (d : Dev) (hb : d.base + d.size ≤ 2 ^ 64) (hs : d.size ≤ 2 ^ w) (off : Nat) (ho : off < d.size)
    (pos n : Nat) (v : BitVec 32) (b : Bool) :
    readBitsByAddr w f d (d.base + off) pos n = readBits f d off pos n ∧
    writeBitsByAddr w f d (d.base + off) pos n v = writeBits f d off pos n v ∧
    readBitByAddr w f d (d.base + off) pos = readBit f d off pos ∧
    writeBitByAddr w f d (d.base + off) pos b = writeBit f d off pos b := by
  have : addrOffset w d (d.base + off) = off := by
    unfold addrOffset
    have : (d.base + off + 2 ^ 64 - d.base) % 2 ^ 64 = off := by omega
    rw [this, Nat.mod_eq_of_lt (by omega)]
  simp only [readBitsByAddr, writeBitsByAddr, readBitByAddr, writeBitByAddr, readBit, writeBit, this, hf]
  exact ⟨rfl, rfl, rfl, rfl⟩

/-- **C137, foreign addresses.** With pointers of 64 bits an address outside of the block is never accessed. -/
theorem by_addr_outside_partial (f : Fault) (d : Dev) (hb : d.base + d.size ≤ 2 ^ 64) (addr : Nat) (ha : addr < 2 ^ 64)
    (hout : addr < d.base ∨ d.base + d.size ≤ addr) (pos n : Nat) (v : BitVec 32) :
    (∀ x, readBitsByAddr 64 f d addr pos n ≠ .ok x) ∧ ∀ x, writeBitsByAddr 64 f d addr pos n v ≠ .ok x := by
  have : d.size ≤ addrOffset 64 d addr := by unfold addrOffset; omega
  constructor
  · intro x hx
    unfold readBitsByAddr at hx
    split at hx
    · cases hx
    · have := readBits_inv hx
      have := this.2.1
      omega
  · intro x hx
    unfold writeBitsByAddr at hx
    split at hx
    · cases hx
    · have := (writeBits_inv hx).1.2.1
      omega

/-- **C137, block copies.** -/
theorem block_read_exact (regs : Nat → BitVec 32) : ∀ (n src : Nat), blockRead regs src n = (List.range n).map fun i => regs (src + 4 * i)
  | 0, src => rfl
  | n + 1, src => by
    rw [blockRead, block_read_exact regs n, List.range_succ_eq_map, List.map_cons, List.map_map]
    congr 1
    apply List.map_congr_left
    intro i _
    show regs (src + 4 + 4 * i) = regs (src + 4 * (i + 1))
    congr 1; omega

theorem block_write_exact : ∀ (vs : List (BitVec 32)) (regs : Nat → BitVec 32) (dst : Nat),
    (∀ (i : Nat) (v : BitVec 32), vs[i]? = some v → blockWrite regs dst vs (dst + 4 * i) = v) ∧
    ∀ o, (∀ i < vs.length, o ≠ dst + 4 * i) → blockWrite regs dst vs o = regs o
  | [], regs, dst => ⟨nofun, fun _ _ => rfl⟩
  | v :: vs, regs, dst => by
    obtain ⟨h1, h2⟩ := block_write_exact vs (fun o => if o = dst then v else regs o) (dst + 4)
    constructor
    · intro i x hx
      cases i with
      | zero =>
        rw [blockWrite, h2 _ (fun i _ => by omega)]
        simp at hx ⊢
        exact hx
      | succ i =>
        have := h1 i x (by simpa using hx)
        rw [blockWrite, show dst + 4 * (i + 1) = dst + 4 + 4 * i by omega]
        exact this
    · intro o ho
      rw [blockWrite, h2 o (fun i hi => by have := ho (i + 1) (by simp; omega); omega)]
      rw [if_neg (by have := ho 0 (by simp); omega)]

/-! ### Concrete cases and what is missing -/

def exDev : Dev := { base := 0x1_0000_0000, size := 16, regs := fun o => BitVec.ofNat 32 (0x11111111 * (o / 4 + 1)) }

/-- A field of eight bits in the middle; a field that goes beyond the register is refused. -/
example : values (run exDev [({}, .writeBits 4 12 8 0xabcd), ({}, .readBits 4 8 16), ({}, .writeBits 4 28 5 0), ({}, .clearBit 4 12), ({}, .readBit 4 14),
    ({}, .readBits 4 0 32), ({}, .readBits 2 0 1)]).1 = [0, 0x2cd2, 0, 1, 0x222cc222] := by decide +kernel

/-- A field without bits shifts by 32. -/
theorem empty_field_undefined (d : Dev) (h : 0 < d.size) (v : BitVec 32) : readBits {} d 0 0 0 = .oob ∧ writeBits {} d 0 0 0 v = .oob := by
  simp [readBits, writeBits, checkField, read32, merge, lowMask, Res.bind, h]

/-- With pointers of 32 bits an address far outside of the block changes a register in it. -/
theorem foreign_address_accessed : ∃ d addr d', d.base + d.size < addr ∧ addr < 2 ^ 64 ∧ writeBitsByAddr 32 {} d addr 0 32 7#32 = .ok d' ∧
    d'.regs 4 = 7#32 ∧ d.regs 4 ≠ 7#32 :=
  ⟨exDev, 0x5_0000_0004, _, by decide, by decide, rfl, by decide +kernel, by decide +kernel⟩

/-- Two tasks that write different fields of a register: both read before one of them writes, and the other's field is lost. -/
theorem concurrent_write_lost : ∃ (d : Dev) (r x y : BitVec 32) (d1 d2 : Dev), read32 {} d 0 = .ok r ∧ merge r 0 1 1#32 = .ok x ∧ merge r 1 1 1#32 = .ok y ∧
    write32 {} d 0 x = .ok d1 ∧ write32 {} d1 0 y = .ok d2 ∧ d2.bits 0 0 = false :=
  ⟨{ exDev with regs := fun _ => 0 }, 0, 1, 2, _, _, rfl, rfl, rfl, rfl, rfl, rfl⟩

end Verif.Mmio
