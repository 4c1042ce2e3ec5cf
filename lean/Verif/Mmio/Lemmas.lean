import Verif.Mmio.Model
/-! Lemmas for C137. -/
namespace Verif.Mmio
open Verif

/-- The bits of a block. -/
def Dev.bits (d : Dev) : Spec.Bits := fun o i => (d.regs o).getLsbD i

theorem lowMask_ok {n : Nat} (h0 : 0 < n) (hn : n ≤ 32) :
    ∃ m, lowMask n = .ok m ∧ m.toNat = 2 ^ n - 1 ∧ ∀ i, m.getLsbD i = decide (i < n) := by
  have key : ∀ k : Fin 33, (0xffffffff#32 >>> (32 - k.val)).toNat = 2 ^ k.val - 1 := by decide +kernel
  refine ⟨_, if_neg (by omega), key ⟨n, by omega⟩, fun i => ?_⟩
  rw [← BitVec.testBit_toNat, key ⟨n, by omega⟩, Nat.testBit_two_pow_sub_one]

theorem check_ok {pos n : Nat} (h : pos + n ≤ 32) (h0 : 0 < n) : checkField pos n = .ok () := by
  unfold checkField
  rw [if_neg (by omega), if_neg (by omega)]

theorem check_inv {pos n : Nat} {u : Unit} (h : checkField pos n = .ok u) : pos ≤ 31 ∧ pos + n ≤ 32 := by
  unfold checkField at h
  split at h
  · cases h
  · split at h
    · cases h
    · omega

theorem read_mod {b : Spec.Bits} {off pos x : Nat} : ∀ {n : Nat}, (∀ i < n, b off (pos + i) = x.testBit i) → Spec.read b off pos n = x % 2 ^ n
  | 0, _ => by simp [Spec.read, Nat.mod_one]
  | n + 1, h => by
    rw [Nat.pow_succ, Nat.mod_mul, Spec.read, read_mod (n := n) (fun i hi => h i (by omega)), h n (by omega), Nat.testBit_eq_decide_div_mod_eq]
    rcases Nat.mod_two_eq_zero_or_one (x / 2 ^ n) with e | e <;> simp [e]

theorem merge_ok {r v : BitVec 32} {pos n : Nat} (h0 : 0 < n) (hn : pos + n ≤ 32) :
    ∃ x, merge r pos n v = .ok x ∧ ∀ i, x.getLsbD i = if pos ≤ i ∧ i < pos + n then v.getLsbD (i - pos) else r.getLsbD i := by
  obtain ⟨m, e, _, hm⟩ := lowMask_ok h0 (by omega)
  refine ⟨_, by unfold merge; rw [e]; rfl, fun i => ?_⟩
  simp only [BitVec.getLsbD_or, BitVec.getLsbD_and, BitVec.getLsbD_not, BitVec.getLsbD_shiftLeft, hm]
  by_cases h32 : i < 32
  · by_cases hp : pos ≤ i
    · by_cases hq : i < pos + n
      · have : i - pos < n := by omega
        simp [h32, hp, hq, this, Nat.not_lt.2 hp]
      · have : ¬ i - pos < n := by omega
        simp [h32, hq, this]
    · simp [h32, hp, Nat.lt_of_not_le hp]
  · have : ¬ i < pos + n := by omega
    simp [h32, this, BitVec.getLsbD_of_ge r i (by omega)]

/-- Requests a block accepts. -/
def Accepted (f : Fault) (d : Dev) (off pos n : Nat) : Prop :=
  off % 4 = 0 ∧ off < d.size ∧ Spec.ValidField pos n ∧ f.read = false

theorem readBits_ok {f : Fault} {d : Dev} {off pos n : Nat} (h : Accepted f d off pos n) :
    ∃ x, readBits f d off pos n = .ok x ∧ x.toNat = Spec.read d.bits off pos n := by
  obtain ⟨h1, h2, ⟨h3, h4⟩, h5⟩ := h
  obtain ⟨m, e, em, _⟩ := lowMask_ok h3 (by omega)
  refine ⟨d.regs off >>> pos &&& m, by simp only [readBits, read32, check_ok h4 h3, Res.bind, if_pos (show off % 4 = 0 ∧ off < d.size ∧ f.read = false from ⟨h1, h2, h5⟩), e], ?_⟩
  rw [BitVec.toNat_and, em, Nat.and_two_pow_sub_one_eq_mod, BitVec.toNat_ushiftRight]
  refine (read_mod fun i _ => ?_).symm
  rw [Nat.testBit_shiftRight, BitVec.testBit_toNat]
  rfl

theorem readBits_inv {f : Fault} {d : Dev} {off pos n : Nat} {x : BitVec 32} (h : readBits f d off pos n = .ok x) : Accepted f d off pos n := by
  unfold readBits at h
  obtain ⟨u, hu, h⟩ := Res.bind_eq_ok.1 h
  obtain ⟨r, hr, h⟩ := Res.bind_eq_ok.1 h
  obtain ⟨m, hm, h⟩ := Res.bind_eq_ok.1 h
  have := check_inv hu
  unfold read32 at hr
  split at hr
  · rename_i hc
    refine ⟨hc.1, hc.2.1, ⟨?_, this.2⟩, hc.2.2⟩
    unfold lowMask at hm
    split at hm
    · cases hm
    · omega
  · cases hr

theorem writeBits_ok {f : Fault} {d : Dev} {off pos n v : Nat} (h : Accepted f d off pos n) (hw : f.write = false) :
    ∃ d', writeBits f d off pos n (BitVec.ofNat 32 v) = .ok d' ∧ d'.bits = Spec.write d.bits off pos n v ∧ d'.size = d.size ∧ d'.base = d.base := by
  obtain ⟨h1, h2, ⟨h3, h4⟩, h5⟩ := h
  obtain ⟨x, e, hx⟩ := merge_ok (r := d.regs off) (v := BitVec.ofNat 32 v) h3 h4
  refine ⟨{ d with regs := fun o => if o = off then x else d.regs o }, by simp only [writeBits, read32, check_ok h4 h3, Res.bind,
    if_pos (show off % 4 = 0 ∧ off < d.size ∧ f.read = false from ⟨h1, h2, h5⟩), e, write32,
    if_pos (show off % 4 = 0 ∧ off < d.size ∧ f.write = false from ⟨h1, h2, hw⟩)], ?_, rfl, rfl⟩
  funext o i
  show (if o = off then x else d.regs o).getLsbD i = Spec.write d.bits off pos n v o i
  unfold Spec.write
  by_cases ho : o = off
  · subst ho
    rw [if_pos rfl, hx]
    by_cases hi : pos ≤ i ∧ i < pos + n
    · rw [if_pos hi, if_pos ⟨rfl, hi⟩, BitVec.getLsbD_ofNat]
      have : i - pos < 32 := by omega
      simp [this]
    · rw [if_neg hi, if_neg (fun h => hi h.2)]
      rfl
  · rw [if_neg ho, if_neg (fun h => ho h.1)]
    rfl

theorem writeBits_inv {f : Fault} {d d' : Dev} {off pos n : Nat} {v : BitVec 32} (h : writeBits f d off pos n v = .ok d') :
    Accepted f d off pos n ∧ f.write = false := by
  unfold writeBits at h
  obtain ⟨u, hu, h⟩ := Res.bind_eq_ok.1 h
  obtain ⟨r, hr, h⟩ := Res.bind_eq_ok.1 h
  obtain ⟨m, hm, h⟩ := Res.bind_eq_ok.1 h
  have := check_inv hu
  unfold read32 at hr
  split at hr
  · rename_i hc
    unfold merge at hm
    obtain ⟨k, hk, _⟩ := Res.bind_eq_ok.1 hm
    refine ⟨⟨hc.1, hc.2.1, ⟨?_, this.2⟩, hc.2.2⟩, ?_⟩
    · unfold lowMask at hk
      split at hk
      · cases hk
      · omega
    · unfold write32 at h
      split at h
      · rename_i hw; exact hw.2.2
      · cases h
  · cases hr

end Verif.Mmio
