import Verif.PcdFlash.Model
import Verif.BufferUtil.Props
import Verif.ManifestFlash.Lemmas
/-!
Helper lemmas about the elements of a PCD.
-/
namespace Verif.PcdFlash
open Verif
open Spec (Elem Times Rot Port I2c Pci Conn Kind Comp)

theorem u8nat (n : Nat) (h : n < 256) : (UInt8.ofNat n).toNat = n := by
  rw [UInt8.toNat_ofNat']; exact Nat.mod_eq_of_lt h

theorem le4 (n : Nat) (h : n < 2 ^ 32) : leNat (toLE 4 n) = n := by
  rw [leNat_toLE]; exact Nat.mod_eq_of_lt h

theorem le2 (n : Nat) (h : n < 65536) : leNat (toLE 2 n) = n := by
  rw [leNat_toLE]; exact Nat.mod_eq_of_lt h

theorem local_length (s : Nat → UInt8) (n : Nat) : (local_ s n).length = n := by simp [local_]

theorem writeAt_zero (buf d : Bytes) (h : d.length ≤ buf.length) : writeAt buf 0 d = d ++ buf.drop d.length := by
  unfold writeAt
  rw [List.take_zero, List.nil_append, List.take_of_length_le (by omega), Nat.zero_add]

theorem window_at {α : Type} (p x r : List α) (off len : Nat) (h1 : off = p.length) (h2 : len = x.length) : window (p ++ (x ++ r)) off len = x := by
  subst h1 h2
  unfold window
  rw [List.drop_left, List.take_left]

/-- Nothing of the types is before the element that is found. -/
theorem find_top (tys : List UInt8) (x : Elem) (r : List Elem) (hx : x.ty ∈ tys) (hp : x.parent = 0xff) : ∀ (a : List Elem) (i : Nat), (∀ e ∈ a, e.ty ∉ tys) →
    find tys 0xff (a ++ x :: r) i = .ok (i + a.length, x) := by
  intro a
  induction a with
  | nil =>
    intro i _
    rw [List.nil_append, find, if_neg (fun h => h.1 rfl), if_pos hx, if_neg (fun h => h.1 hp)]; rfl
  | cons e a ih =>
    intro i h
    rw [List.cons_append, find, if_neg (fun h => h.1 rfl), if_neg (h e (List.mem_cons_self ..)), ih (i + 1) (fun y hy => h y (List.mem_cons_of_mem _ hy)), List.length_cons]
    congr 2; omega

theorem find_none (tys : List UInt8) : ∀ (a : List Elem) (i : Nat), (∀ e ∈ a, e.ty ∉ tys) → find tys 0xff a i = .error .notFound := by
  intro a
  induction a with
  | nil => intro i _; rfl
  | cons e a ih =>
    intro i h
    rw [find, if_neg (fun h => h.1 rfl), if_neg (h e (List.mem_cons_self ..)), ih (i + 1) (fun y hy => h y (List.mem_cons_of_mem _ hy))]

/-- What is found is an element of the list, at the index. -/
theorem find_sound (tys : List UInt8) (parent : UInt8) : ∀ (l : List Elem) (i j : Nat) (x : Elem), find tys parent l i = .ok (j, x) → i ≤ j ∧ l[j - i]? = some x ∧ x.ty ∈ tys ∧ (x.parent = 0xff ∨ x.parent = parent)
    ∧ ∀ k, k < j - i → ∀ y, l[k]? = some y → y.ty ∉ tys := by
  intro l
  induction l with
  | nil => intro i j x h; cases h
  | cons e l ih =>
    intro i j x h
    rw [find] at h
    split at h
    · cases h
    · split at h
      · next ht =>
        split at h
        · cases h
        · next hp =>
          cases h
          refine ⟨Nat.le_refl _, by rw [Nat.sub_self]; rfl, ht, ?_, fun k hk => by omega⟩
          by_cases h1 : e.parent = 0xff
          · exact .inl h1
          · by_cases h2 : e.parent = parent
            · exact .inr h2
            · exact absurd ⟨h1, h2⟩ hp
      · next ht =>
        obtain ⟨h1, h2, h3, h4, h5⟩ := ih _ _ _ h
        refine ⟨by omega, ?_, h3, h4, ?_⟩
        · rw [show j - i = (j - (i + 1)) + 1 by omega, List.getElem?_cons_succ]; exact h2
        · intro k hk y hy
          cases k with
          | zero => rw [List.getElem?_cons_zero] at hy; cases hy; exact ht
          | succ k => rw [List.getElem?_cons_succ] at hy; exact h5 k (by omega) y hy

/-! ### Contents of the elements -/

theorem i2c_bytes (i : I2c) (h : i.ok) : i2c i.bytes = i := by
  obtain ⟨m, md, b, a, e⟩ := i
  obtain ⟨h1, h2⟩ := h
  have h1 : m < 16 := h1
  have h2 : md < 4 := h2
  have : (UInt8.ofNat (m + 16 * md)).toNat = m + 16 * md := u8nat _ (by omega)
  show (⟨(UInt8.ofNat (m + 16 * md)).toNat % 16, (UInt8.ofNat (m + 16 * md)).toNat / 16 % 4, b, a, e⟩ : I2c) = _
  rw [this, show (m + 16 * md) % 16 = m by omega, show (m + 16 * md) / 16 % 4 = md by omega]

theorem pci_bytes (p : Pci) (h : p.ok) (r : Bytes) : pci (toLE 2 p.device ++ toLE 2 p.vendor ++ toLE 2 p.subDevice ++ toLE 2 p.subVendor ++ r) = p := by
  obtain ⟨d, v, sd, sv⟩ := p
  obtain ⟨h1, h2, h3, h4⟩ := h
  show (⟨leNat (toLE 2 d), leNat (toLE 2 v), leNat (toLE 2 sd), leNat (toLE 2 sv)⟩ : Pci) = _
  rw [le2 _ h1, le2 _ h2, le2 _ h3, le2 _ h4]

theorem port_bytes (p : Port) (h : p.ok) : p.bytes.length = 8 ∧ p.bytes.getD 0 0 = p.id ∧
    portInfo p.bytes = ⟨p.freq, p.mode, p.reset, p.runtime.toNat, p.watchdog.toNat, p.hostReset.toNat, p.policy, p.pulse⟩ := by
  obtain ⟨i, r, m, rt, wd, hr, po, pu, f⟩ := p
  obtain ⟨h1, h2, h3⟩ := h
  have h1 : r < 4 := h1
  have h2 : m < 4 := h2
  refine ⟨rfl, rfl, ?_⟩
  have e1 : Spec.bit rt 16 = 16 * rt.toNat ∧ rt.toNat ≤ 1 := by cases rt <;> exact ⟨rfl, by decide⟩
  have e2 : Spec.bit wd 32 = 32 * wd.toNat ∧ wd.toNat ≤ 1 := by cases wd <;> exact ⟨rfl, by decide⟩
  have e3 : Spec.bit hr 64 = 64 * hr.toNat ∧ hr.toNat ≤ 1 := by cases hr <;> exact ⟨rfl, by decide⟩
  have hn : (UInt8.ofNat (r + 4 * m + Spec.bit rt 16 + Spec.bit wd 32 + Spec.bit hr 64)).toNat = r + 4 * m + 16 * rt.toNat + 32 * wd.toNat + 64 * hr.toNat := by
    rw [u8nat _ (by omega), e1.1, e2.1, e3.1]
  show (⟨leNat (toLE 4 f), (UInt8.ofNat (r + 4 * m + Spec.bit rt 16 + Spec.bit wd 32 + Spec.bit hr 64)).toNat / 4 % 4,
    (UInt8.ofNat (r + 4 * m + Spec.bit rt 16 + Spec.bit wd 32 + Spec.bit hr 64)).toNat % 4,
    (UInt8.ofNat (r + 4 * m + Spec.bit rt 16 + Spec.bit wd 32 + Spec.bit hr 64)).toNat / 16 % 2,
    (UInt8.ofNat (r + 4 * m + Spec.bit rt 16 + Spec.bit wd 32 + Spec.bit hr 64)).toNat / 32 % 2,
    (UInt8.ofNat (r + 4 * m + Spec.bit rt 16 + Spec.bit wd 32 + Spec.bit hr 64)).toNat / 64 % 2, po, pu⟩ : PortInfo) = _
  rw [hn, le4 _ h3]
  generalize rt.toNat = a at *
  generalize wd.toNat = b at *
  generalize hr.toNat = c at *
  congr 1 <;> first | omega | (dsimp only; omega)

theorem conn_length (c : Conn) (n : UInt8) : (c.bytes n).length = if c.ty = 0x43 then 4 else if c.ty = 0x44 then 12 else 0 := by
  cases c <;> rfl

/-- The fixed part of a component. -/
theorem comp_head (c : Comp) : ∃ n r, c.bytes = [c.policy, c.powerReg, c.powerMask, n] ++ (toLE 4 c.id ++ r) ∧ (c.v3 = true → n = c.count) ∧
    (c.v3 = true → r = [UInt8.ofNat c.kinds.length, 0, 0, 0] ++ (c.kinds.flatMap Kind.bytes ++ c.conn.bytes 0)) ∧ (c.v3 = false → r = c.conn.bytes c.count) := by
  unfold Comp.bytes
  cases hv : c.v3
  · exact ⟨0, _, by rw [if_neg (by decide), List.append_assoc], (fun h => by cases h), (fun h => by cases h), fun _ => rfl⟩
  · exact ⟨c.count, _, by rw [if_pos rfl, List.append_assoc, List.append_assoc, List.append_assoc], (fun _ => rfl), (fun _ => rfl), (fun h => by cases h)⟩

theorem kinds_length (ks : List Kind) : (ks.flatMap Kind.bytes).length = 8 * ks.length := by
  induction ks with
  | nil => rfl
  | cons k ks ih => rw [List.flatMap_cons, List.length_append, ih, List.length_cons]; show 8 + _ = _; omega

theorem kindLoop_exact (alloc : Nat) (d : Bytes) : ∀ (ks : List Kind) (p r : Bytes) (i : Nat), d = p ++ (ks.flatMap Kind.bytes ++ r) → p.length = 12 + 8 * i → i + ks.length ≤ alloc →
    (∀ k ∈ ks, k.id < 2 ^ 32) → kindLoop alloc d ks.length i = .ok ks := by
  intro ks
  induction ks with
  | nil => intro p r i _ _ _ _; rfl
  | cons k ks ih =>
    intro p r i hd hp ha hk
    rw [List.length_cons] at ha
    rw [List.length_cons, kindLoop, if_neg (by omega)]
    have hk8 : k.bytes.length = 8 := rfl
    have hd' : d = (p ++ k.bytes) ++ (ks.flatMap Kind.bytes ++ r) := by rw [hd, List.flatMap_cons]; simp only [List.append_assoc]
    have hf : field d (12 + 8 * i) 8 = .ok k.bytes := by
      unfold field
      rw [if_pos (by rw [hd']; simp only [List.length_append, hp, hk8]; omega)]
      congr 1
      rw [hd', List.append_assoc]
      exact window_at p k.bytes _ _ _ hp.symm rfl
    have hi := ih (p ++ k.bytes) r (i + 1) hd' (by rw [List.length_append, hp, hk8]; omega) (by omega) (fun x hx => hk x (List.mem_cons_of_mem _ hx))
    rw [hf, hi]
    have : leNat (toLE 4 k.id) = k.id := le4 _ (hk k (List.mem_cons_self ..))
    show Except.ok ((⟨leNat (toLE 4 k.id), k.min, k.max⟩ : Kind) :: ks) = _
    rw [this]

theorem kindLoop_safe (alloc : Nat) (d : Bytes) : ∀ (n i : Nat), i + n ≤ alloc → 12 + 8 * (i + n) ≤ d.length → ∃ ks, kindLoop alloc d n i = .ok ks := by
  intro n
  induction n with
  | zero => intro i _ _; exact ⟨[], rfl⟩
  | succ n ih =>
    intro i h1 h2
    obtain ⟨ks, hk⟩ := ih (i + 1) (by omega) (by omega)
    refine ⟨⟨leNat (window (window d (12 + 8 * i) 8) 0 4), (window d (12 + 8 * i) 8).getD 4 0, (window d (12 + 8 * i) 8).getD 5 0⟩ :: ks, ?_⟩
    rw [kindLoop, if_neg (by omega)]
    have hf : field d (12 + 8 * i) 8 = .ok (window d (12 + 8 * i) 8) := by unfold field; rw [if_pos (by omega)]
    rw [hf, hk]; rfl

theorem allocate_ok (mem : Bool) (alloc n : Nat) : (allocate mem alloc n).1 = true → n ≤ (allocate mem alloc n).2 := by
  unfold allocate
  split
  · intro _; assumption
  · split
    · intro _; exact Nat.le_refl _
    · intro h; cases h

theorem allocate_mem (alloc n : Nat) : (allocate true alloc n).1 = true ∧ n ≤ (allocate true alloc n).2 := by
  have : (allocate true alloc n).1 = true := by
    unfold allocate
    split
    · rfl
    · rw [if_pos rfl]
  exact ⟨this, allocate_ok true alloc n this⟩

end Verif.PcdFlash
