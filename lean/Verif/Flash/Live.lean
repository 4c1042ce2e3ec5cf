import Verif.Flash.Props
/-! On a device without failures the flash operations succeed. -/
namespace Verif.Flash

/-- No driver call fails or stops early. -/
def Good (dv : Dev) : Prop := ∀ n, dv.out n = .ok

theorem Good.read {dv : Dev} (h : Good dv) (s : FS) (a n : Nat) : read dv s a n = (some (bytesAt s.mem a n), { s with calls := s.calls + 1 }) := by
  unfold Flash.read; rw [h]

theorem Good.readSource {dv : Dev} (h : Good dv) (src : Source) (s : FS) (a n : Nat) :
    readSource dv src s a n = (some (bytesAt (src.mem s) a n), { s with calls := s.calls + 1 }) := by
  unfold Flash.readSource; rw [h]

theorem Good.writeAll {dv : Dev} (h : Good dv) (s : FS) (a : Nat) (d : Bytes) :
    writeAll dv s a d = (.ok, ⟨program s.mem a d, s.calls + 1⟩) := by
  unfold Flash.writeAll write; rw [h]; simp

theorem Good.eraseLoop {dv : Dev} (h : Good dv) (size : Nat) : ∀ (k len : Nat), len ≤ k → ∀ (s : FS) (a : Nat), (eraseLoop dv size s a len).1 = .ok := by
  intro k
  induction k with
  | zero => intro len hk s a; rw [Flash.eraseLoop, dif_pos (by omega)]
  | succ k ih =>
    intro len hk s a
    rw [Flash.eraseLoop]
    split
    · rfl
    · rename_i hl
      have he : erase dv size s a = (true, ⟨overlay s.mem (a - a % size) size (fun _ => 0xff), s.calls + 1⟩) := by
        unfold erase; rw [h]
      rw [he]
      simp only
      apply ih
      have := Nat.mod_lt a (show 0 < size by omega)
      split <;> omega

theorem Good.eraseRegion {dv : Dev} (h : Good dv) (size : Nat) (s : FS) (a len : Nat) : (eraseRegion dv size s a len).1 = .ok := by
  unfold Flash.eraseRegion; rw [h]; exact h.eraseLoop size len len (Nat.le_refl _) _ a

theorem Good.checkLoop {dv : Dev} (h : Good dv) : ∀ (k len : Nat), len ≤ k → ∀ (s : FS) (a : Nat) (exp : Nat → UInt8),
    (checkLoop dv s a exp len).1 ≠ .flash := by
  intro k
  induction k with
  | zero => intro len hk s a exp; rw [Flash.checkLoop, dif_pos (by omega)]; simp
  | succ k ih =>
    intro len hk s a exp
    rw [Flash.checkLoop]
    split
    · simp
    · rename_i hl
      have hn : chunk len verifyBlock ≤ len ∧ 0 < chunk len verifyBlock := by
        rw [chunk_eq]; simp only [verifyBlock]; omega
      simp only [h.read]
      split
      · apply ih; omega
      · simp

theorem Good.check_ok {dv : Dev} (h : Good dv) (s : FS) (a len : Nat) (exp : Nat → UInt8) (hf : a + len ≤ 2 ^ 32)
    (he : ∀ i, i < len → s.mem (a + i) = exp i) : (Flash.checkLoop dv s a exp len).1 = .ok := by
  obtain ⟨_, _, c3, c4⟩ := checkLoop_spec dv len len (Nat.le_refl _) s a exp hf
  rcases c4 with c | c | c
  · exact c
  · obtain ⟨i, hi, hne⟩ := c3 c
    exact absurd (he i hi) hne
  · exact absurd c (h.checkLoop len len (Nat.le_refl _) s a exp)

theorem Good.verifyData {dv : Dev} (h : Good dv) (s : FS) (a : Nat) (d : Bytes) (hf : a + d.length ≤ 2 ^ 32)
    (he : ∀ i, i < d.length → s.mem (a + i) = d.getD i 0) : (verifyData dv s a d).1 = .ok := h.check_ok s a _ _ hf he

theorem Good.eraseVerify {dv : Dev} (h : Good dv) (size : Nat) (hs : 0 < size) (s : FS) (a len : Nat) (hf : a + len ≤ 2 ^ 32) :
    (eraseVerify dv size s a len).1 = .ok := by
  unfold Flash.eraseVerify
  have h1 := h.eraseRegion size s a len
  have h2 := (eraseRegion_spec dv size hs s a len hf).2 h1
  cases he : Flash.eraseRegion dv size s a len with
  | mk st s1 =>
    rw [he] at h1 h2
    simp only at h1
    subst h1
    simp only
    have h3 := h.check_ok s1 a len (fun _ => 0xff) hf (fun i hi => h2 _ (.of_mem (by omega) (by omega)))
    unfold blankCheck
    cases hc : Flash.checkLoop dv s1 a (fun _ => 0xff) len with
    | mk st s2 => rw [hc] at h3; simp only at h3; subst h3; rfl

/-- Programming without erase succeeds where the flash is blank or already holds the data. -/
theorem Good.writeVerify {dv : Dev} (h : Good dv) (s : FS) (a : Nat) (d : Bytes) (hf : a + d.length ≤ 2 ^ 32)
    (hm : ∀ i, i < d.length → s.mem (a + i) = 0xff ∨ s.mem (a + i) = d.getD i 0) :
    (programVerify dv .none s a d).1 = .ok := by
  unfold programVerify programData
  rw [if_pos rfl, h.writeAll]
  apply h.verifyData _ _ _ hf
  intro i hi
  simp only
  rw [program_in hi]
  rcases hm i hi with e | e
  · rw [e, ff_and]
  · rw [e, UInt8.and_self]

theorem Good.copyLoop {dv : Dev} (h : Good dv) (src : Source) (verify : Bool) (hp : 0 < dv.page) : ∀ (k len : Nat), len ≤ k → ∀ (s : FS)
    (da sa off : Nat), off < dv.page → da + len ≤ 2 ^ 32 → (verify = true → ∀ i, i < len → s.mem (da + i) = 0xff) →
    (copyLoop dv src verify s da sa len off).1 = .ok := by
  intro k
  induction k with
  | zero => intro len hk s da sa off _ _ _; rw [Flash.copyLoop, dif_pos (by omega)]
  | succ k ih =>
    intro len hk s da sa off ho hf hb
    rw [Flash.copyLoop]
    split
    · rfl
    · rename_i hl
      have hn : chunk len (dv.page - off) ≤ len ∧ 0 < chunk len (dv.page - off) := by rw [chunk_eq]; omega
      simp only
      generalize chunk len (dv.page - off) = n at hn
      rw [h.readSource]
      simp only [h.writeAll]
      have hbl : (bytesAt (src.mem s) sa n).length = n := by simp
      generalize bytesAt (src.mem s) sa n = d at *
      have hv : ∃ s', verifyIf dv verify ⟨program s.mem da d, s.calls + 1 + 1⟩ da d = (.ok, s') ∧ s'.mem = program s.mem da d := by
        unfold verifyIf
        cases verify
        · exact ⟨_, rfl, rfl⟩
        · simp only [if_true]
          have h1 := h.verifyData ⟨program s.mem da d, s.calls + 1 + 1⟩ da d (by omega) (fun i hi => by
            simp only
            rw [program_in hi, hb rfl i (by omega), ff_and])
          have h2 := (verifyData_spec dv ⟨program s.mem da d, s.calls + 1 + 1⟩ da d (by omega)).1
          exact ⟨_, Prod.ext h1 rfl, h2⟩
      obtain ⟨s', e1, e2⟩ := hv
      rw [e1]
      simp only
      by_cases he : len = n
      · subst he
        rw [Nat.sub_self, Flash.copyLoop, dif_pos (.inl rfl)]
      · rw [u32_id (by omega)]
        apply ih _ (by omega) _ _ _ _ hp (by omega)
        intro hvt i hi
        rw [e2, program_out (by omega), Nat.add_assoc, hb hvt _ (by omega)]

/-- C27: on a device without failures a copy with legal arguments succeeds (and so, by `copy_exact`, is exact). -/
theorem copy_succeeds (dv : Dev) (h : Good dv) (er : EraseFn) (src : Source) (verify : Bool) (s : FS) (da sa len : Nat)
    (hsz : 0 < dv.block ∧ 0 < dv.sector ∧ 0 < dv.page ∧ dv.page ≤ 512) (hda : da + len ≤ 2 ^ 32) (hsa : sa + len ≤ 2 ^ 32)
    (hsh : src = .same → ¬ ShareBlock (er.checkSize dv) da sa len) (hb : er = .none → verify = true → ∀ i, i < len → s.mem (da + i) = 0xff) :
    (copyRegion dv er src verify s da sa len).1 = .ok := by
  obtain ⟨hbl, hse, hp, hp2⟩ := hsz
  have hes : 0 < er.size dv := by cases er <;> simp [EraseFn.size] <;> assumption
  have hcs : 0 < er.checkSize dv := by cases er <;> simp [EraseFn.checkSize] <;> assumption
  unfold copyRegion
  split
  · rfl
  rename_i hl
  have hc : ∃ s1, checkSame dv er src s da sa len = (.ok, s1) ∧ s1.mem = s.mem := by
    unfold checkSame
    cases src with
    | other m => exact ⟨s, rfl, rfl⟩
    | same =>
      simp only
      rw [h]
      simp only
      rw [(check_copy_exact da sa len _ hcs (by omega) hda hsa).mpr (hsh rfl)]
      exact ⟨_, rfl, rfl⟩
  obtain ⟨s1, e1, m1⟩ := hc
  rw [e1]
  simp only
  have he : (eraseFor dv er s1 da len).1 = .ok := by
    unfold eraseFor
    split
    · rfl
    · exact h.eraseVerify _ hes s1 da len hda
  have hblank := (eraseFor_spec dv er hes s1 da len hda).2 he
  cases hef : eraseFor dv er s1 da len with
  | mk st s2 =>
    rw [hef] at he hblank
    simp only at he
    subst he
    simp only
    unfold copyPages
    rw [h]
    simp only
    rw [if_neg (by simp only [maxCopyBlock]; omega)]
    apply h.copyLoop src verify hp len len (Nat.le_refl _) _ _ _ _ (Nat.mod_lt _ hp) hda
    intro hv i hi
    simp only
    rcases hblank with ⟨hn, hm⟩ | ⟨_, hm⟩
    · rw [hm, m1]; exact hb hn hv i hi
    · exact hm _ (.of_mem (by omega) (by omega))

example : Good demoDev ∧ ¬ ShareBlock 16 37 5 20 := by
  refine ⟨fun _ => rfl, ?_⟩
  rw [← check_copy_exact 37 5 20 16 (by decide) (by decide) (by decide) (by decide)]
  decide

end Verif.Flash
