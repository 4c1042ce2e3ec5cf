import Verif.Pcisig.IdeSpec
import Verif.Pcisig.Lemmas
namespace Verif.Pcisig.Ide

theorem put_mid {pre rest d : Bytes} {n : Nat} (hn : pre.length = n) (h : d.length ≤ rest.length) :
    put (pre ++ rest) n d = some (pre ++ d ++ rest.drop d.length) := by
  subst hn
  rw [put_ok (by rw [List.length_append]; omega), List.take_left' rfl, List.drop_append, List.drop_of_length_le (by omega),
    List.nil_append, Nat.add_sub_cancel_left]

theorem get_mid {pre d rest : Bytes} {n k : Nat} (hn : pre.length = n) (h : k ≤ d.length) : get (pre ++ d ++ rest) n k = some (d.take k) := by
  subst hn
  rw [get_ok (by simp only [List.length_append]; omega)]
  unfold window
  rw [List.append_assoc, List.drop_left' rfl, List.take_append_of_le_length h]

theorem collect_append (xs ys : List (Nat × Except Nat Bytes)) (a : Nat) :
    collect a (xs ++ ys) = match collect a xs with
      | .error s => .error s
      | .ok d => (collect (a - d.length) ys).map (d ++ ·) := by
  induction xs generalizing a with
  | nil =>
    simp only [List.nil_append, collect, List.length_nil, Nat.sub_zero]
    cases collect a ys <;> rfl
  | cons x xs ih =>
    obtain ⟨need, r⟩ := x
    simp only [List.cons_append, collect]
    split
    · rfl
    · cases r with
      | error c => rfl
      | ok d =>
        simp only [ih]
        cases collect (a - d.length) xs with
        | error s => rfl
        | ok d' =>
          simp only [Except.map, List.length_append, Nat.sub_sub]
          cases collect (a - (d.length + d'.length)) ys <;> simp [List.append_assoc]

theorem collect_ne_ok {a : Nat} {xs : List (Nat × Except Nat Bytes)} {s : Status} (h : collect a xs = .error s) : s ≠ .ok := by
  induction xs generalizing a s with
  | nil => cases h
  | cons x xs ih =>
    obtain ⟨need, r⟩ := x
    simp only [collect] at h
    split at h
    · cases h; exact fun h => nomatch h
    · cases r with
      | error c => cases h; exact fun h => nomatch h
      | ok d =>
        simp only [] at h
        cases hc : collect (a - d.length) xs with
        | error s' => rw [hc] at h; cases h; exact ih hc
        | ok d' => rw [hc] at h; cases h

/-- What a loop over blocks does. -/
def Looped (x : Option (Status × Pos)) (pre : Bytes) (n avail : Nat) (r : Except Status Bytes) : Prop :=
  match r with
  | .ok d => ∃ rest, x = some (.ok, ⟨pre ++ d ++ rest, pre.length + d.length, avail - d.length⟩) ∧ (pre ++ d ++ rest).length = n ∧ d.length ≤ avail
  | .error s => ∃ p, x = some (s, p) ∧ p.buf.length = n

theorem linkLoop_eq {e : Env} (wf : e.WF) (port : UInt8) (n i : Nat) (pre rest : Bytes) (avail : Nat) (ha : avail ≤ rest.length) :
    Looped (linkLoop e port n i ⟨pre ++ rest, pre.length, avail⟩) pre (pre ++ rest).length avail
      (collect avail ((List.range' i n).map (fun i => (8, e.link port i)))) := by
  induction n generalizing i pre rest avail with
  | zero => exact ⟨rest, by simp [linkLoop], by simp, Nat.zero_le _⟩
  | succ n ih =>
    rw [List.range'_succ, List.map_cons]
    simp only [collect, linkLoop]
    by_cases h8 : avail < 8
    · rw [if_pos h8, if_pos h8]; exact ⟨_, rfl, rfl⟩
    · rw [if_neg h8, if_neg h8]
      cases hd : e.link port i with
      | error c => exact ⟨_, rfl, rfl⟩
      | ok d =>
        have hl := wf.link _ _ _ hd
        simp only []
        rw [put_mid rfl (by omega)]
        have h := ih (i + 1) (pre ++ d) (rest.drop d.length) (avail - 8) (by rw [List.length_drop]; omega)
        have e1 : (pre ++ d).length = pre.length + 8 := by rw [List.length_append, hl]
        rw [e1] at h
        have e2 : (pre ++ d ++ rest.drop d.length).length = (pre ++ rest).length := by
          simp only [List.length_append, List.length_drop]; omega
        rw [e2] at h
        rw [hl]
        simp only [Option.bind_eq_bind, Option.bind_some, Nat.zero_add] at h ⊢
        rw [hl] at h
        cases hc : collect (avail - 8) (List.map (fun i => (8, e.link port i)) (List.range' (i + 1) n)) with
        | error s => rw [hc] at h; exact h
        | ok d' =>
          rw [hc] at h
          obtain ⟨r', h1, h2, h3⟩ := h
          refine ⟨r', ?_, ?_, ?_⟩
          · rw [h1]
            simp only [List.append_assoc, List.length_append, hl, Option.some.injEq, Prod.mk.injEq, Pos.mk.injEq, true_and]
            omega
          · rw [← h2]; simp [List.append_assoc]
          · rw [List.length_append]; omega

theorem sel_low (d : Bytes) (h : 4 ≤ d.length) : leNat (d.take 4) &&& 0xf = (d.getD 0 0).toNat % 16 := by
  match d, h with
  | a :: t, _ =>
    simp only [List.take_succ_cons, leNat, List.getD_cons_zero]
    rw [show (0xf : Nat) = 2 ^ 4 - 1 from rfl, Nat.and_two_pow_sub_one_eq_mod]
    omega

theorem selLoop_eq {e : Env} (wf : e.WF) (port : UInt8) (n i : Nat) (pre rest : Bytes) (avail : Nat) (ha : avail ≤ rest.length) :
    Looped (selLoop e port n i ⟨pre ++ rest, pre.length, avail⟩) pre (pre ++ rest).length avail
      (collect avail ((List.range' i n).map (fun i => (200, (e.sel port i).map trimmed)))) := by
  induction n generalizing i pre rest avail with
  | zero => exact ⟨rest, by simp [selLoop], by simp, Nat.zero_le _⟩
  | succ n ih =>
    rw [List.range'_succ, List.map_cons]
    simp only [collect, selLoop]
    by_cases h8 : avail < 200
    · rw [if_pos h8, if_pos h8]; exact ⟨_, rfl, rfl⟩
    · rw [if_neg h8, if_neg h8]
      cases hd : e.sel port i with
      | error c => exact ⟨_, rfl, rfl⟩
      | ok d =>
        obtain ⟨hl, hu⟩ := wf.sel _ _ _ hd
        have hm : (Except.ok d : Except Nat Bytes).map trimmed = .ok (trimmed d) := rfl
        rw [hm]
        simp only []
        have hk : (trimmed d).length = 20 + (d.getD 0 0).toNat % 16 * 12 := by
          unfold trimmed; rw [List.length_take]; omega
        rw [put_mid rfl (by omega)]
        simp only [Option.bind_eq_bind, Option.bind_some]
        rw [get_mid rfl (by omega)]
        simp only [Option.bind_some]
        rw [sel_low d (by omega)]
        have hsplit : pre ++ d ++ rest.drop d.length = pre ++ trimmed d ++ (d.drop (trimmed d).length ++ rest.drop d.length) := by
          have : d = trimmed d ++ d.drop (trimmed d).length := by
            rw [hk]; unfold trimmed; exact (List.take_append_drop _ _).symm
          conv => lhs; rw [this]
          simp only [List.append_assoc]
          rw [← this]
        have h := ih (i + 1) (pre ++ trimmed d) (d.drop (trimmed d).length ++ rest.drop d.length) (avail - (trimmed d).length) (by
          simp only [List.length_append, List.length_drop]; omega)
        rw [← hsplit] at h
        have e1 : (pre ++ trimmed d).length = pre.length + (20 + (d.getD 0 0).toNat % 16 * 12) := by rw [List.length_append, hk]
        rw [e1] at h
        have e2 : (pre ++ d ++ rest.drop d.length).length = (pre ++ rest).length := by
          simp only [List.length_append, List.length_drop]; omega
        rw [e2, hk] at h
        rw [hk]
        cases hc : collect (avail - (20 + (d.getD 0 0).toNat % 16 * 12))
            (List.map (fun i => (200, (e.sel port i).map trimmed)) (List.range' (i + 1) n)) with
        | error s => rw [hc] at h; exact h
        | ok d' =>
          rw [hc] at h
          obtain ⟨r', h1, h2, h3⟩ := h
          refine ⟨r', ?_, ?_, ?_⟩
          · rw [h1]
            simp only [List.append_assoc, List.length_append, hk, Option.some.injEq, Prod.mk.injEq, Pos.mk.injEq, true_and]
            omega
          · rw [← h2]; simp [List.append_assoc]
          · rw [List.length_append]; omega

end Verif.Pcisig.Ide
