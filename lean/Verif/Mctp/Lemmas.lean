import Verif.Mctp.Spec
namespace Verif.Mctp
open Res

theorem fragment_nil (mtu : Nat) (h : Hdr) (a : UInt8) : fragment mtu h a [] = [] := by unfold fragment; simp

theorem fragment_cons (mtu : Nat) (h : Hdr) (a : UInt8) (msg : Bytes) (hm : msg ≠ []) (h0 : 0 < mtu) :
    fragment mtu h a msg = packet { h with eom := decide (msg.length ≤ mtu) } (msg.take mtu) a ::
      fragment mtu { h with som := false, seq := (h.seq + 1) % 4 } a (msg.drop mtu) := by
  rw [fragment, dif_neg (by simp [hm]; omega)]

/-- The loop writes the packets of the message, provided the packet writer stays behind the payload reader. -/
theorem genLoop_ok (mtu : Nat) (a : UInt8) (out cap : Nat) (h0 : 0 < mtu) (h1 : mtu ≤ maxUnit) :
    ∀ (k : Nat) (h : Hdr) (mem : Bytes) (pos n i pktLen : Nat), n ≤ k * mtu → out + cap ≤ mem.length → pos + n ≤ mem.length →
      out + i + 8 * k ≤ pos + 8 → i + (fragment mtu h a ((mem.drop pos).take n)).flatten.length ≤ cap →
      genLoop mtu h a out cap mem pos n i pktLen =
        .ok (i + (fragment mtu h a ((mem.drop pos).take n)).flatten.length, if h.som ∧ 0 < n then 8 + min n mtu else pktLen,
          mem.take (out + i) ++ (fragment mtu h a ((mem.drop pos).take n)).flatten ++
            mem.drop (out + i + (fragment mtu h a ((mem.drop pos).take n)).flatten.length)) := by
  intro k
  induction k with
  | zero =>
    intro h mem pos n i pktLen hn _ _ _ _
    have : n = 0 := by omega
    subst this
    rw [genLoop, dif_pos rfl]
    simp [fragment_nil]
  | succ k ih =>
    intro h mem pos n i pktLen hn hcap hpos hgap hfit
    by_cases hz : n = 0
    · subst hz
      rw [genLoop, dif_pos rfl]
      simp [fragment_nil]
    · have hml : ((mem.drop pos).take n).length = n := by simp; omega
      have hm : (mem.drop pos).take n ≠ [] := by intro e; rw [e] at hml; simp at hml; omega
      have hf := fragment_cons mtu h a _ hm h0
      have hlen : (if n > mtu then mtu else n) = min n mtu := by split <;> omega
      have htake : ((mem.drop pos).take n).take mtu = (mem.drop pos).take (min n mtu) := by
        rw [List.take_take]; congr 1; omega
      have hdrop : ((mem.drop pos).take n).drop mtu = (mem.drop (pos + mtu)).take (n - mtu) := by
        rw [List.drop_take, List.drop_drop]
      rw [hf, htake, hdrop, hml] at hfit ⊢
      simp only [List.flatten_cons, List.length_append, packet_length] at hfit ⊢
      have htl : ((mem.drop pos).take (min n mtu)).length = min n mtu := by simp; omega
      rw [htl] at hfit ⊢
      rw [genLoop, dif_neg hz]
      simp only [hlen]
      rw [construct_ok _ _ _ _ _ _ _ (by omega) (by omega) (by simp only [overhead]; omega) (by omega) (by omega)]
      simp only
      rw [dif_neg (by omega)]
      simp only [overhead]
      have hd : decide (¬ n > mtu) = decide (n ≤ mtu) := by simp
      rw [hd]
      generalize hP : packet { h with eom := decide (n ≤ mtu) } ((mem.drop pos).take (min n mtu)) a = P at *
      have hPl : P.length = 8 + min n mtu := by rw [← hP, packet_length, htl]
      obtain ⟨mem', hmem'⟩ : ∃ m, m = mem.take (out + i) ++ P ++ mem.drop (out + i + 8 + min n mtu) := ⟨_, rfl⟩
      rw [← hmem']
      have hml' : mem'.length = mem.length := by rw [hmem']; simp [hPl]; omega
      have ht : (mem.take (out + i)).length = out + i := by simp; omega
      by_cases hlast : n ≤ mtu
      · have hz' : n - min n mtu = 0 := by omega
        have hz2 : n - mtu = 0 := by omega
        rw [hz', genLoop, dif_pos rfl]
        rw [hz2, List.take_zero, fragment_nil]
        simp only [List.flatten_nil, List.length_nil, Nat.add_zero, List.append_nil, ok.injEq, Prod.mk.injEq]
        refine ⟨trivial, ?_, ?_⟩
        · cases h.som <;> simp; omega
        · rw [hmem', Nat.add_assoc (out + i)]
      · have hmin : min n mtu = mtu := by omega
        rw [hmin] at hPl hmem' hfit ⊢
        have hk1 : 1 ≤ k := by
          rcases k with _ | k
          · simp at hn; omega
          · omega
        have hsame : (mem'.drop (pos + mtu)).take (n - mtu) = (mem.drop (pos + mtu)).take (n - mtu) := by
          rw [hmem', List.drop_append, List.drop_of_length_le (by simp [hPl]; omega), List.nil_append, List.drop_drop]
          simp only [List.length_append, ht, hPl]
          congr 2; omega
        have := ih { h with som := false, seq := (h.seq + 1) % 4 } mem' (pos + mtu) (n - mtu) (i + (8 + mtu))
          (if h.som then 8 + mtu else pktLen) (by rw [Nat.succ_mul] at hn; omega) (by omega) (by omega) (by omega)
          (by rw [hsame]; omega)
        rw [this, hsame]
        simp only [ok.injEq, Prod.mk.injEq, Bool.false_eq_true, false_and, if_false]
        refine ⟨by omega, ?_, ?_⟩
        · cases h.som <;> simp; omega
        · generalize hF : (fragment mtu { h with som := false, seq := (h.seq + 1) % 4 } a
            ((mem.drop (pos + mtu)).take (n - mtu))).flatten = F at *
          have e1 : mem'.take (out + (i + (8 + mtu))) = mem.take (out + i) ++ P := by
            rw [hmem', List.take_left' (by simp only [List.length_append, ht, hPl]; omega)]
          have e2 : mem'.drop (out + (i + (8 + mtu)) + F.length) = mem.drop (out + i + (8 + mtu + F.length)) := by
            rw [hmem', List.drop_append, List.drop_of_length_le (by simp only [List.length_append, ht, hPl]; omega), List.nil_append,
              List.drop_drop]
            simp only [List.length_append, ht, hPl]
            congr 1; omega
          rw [e1, e2]
          simp

/-- The loop after `k` full packets. -/
theorem genLoop_prefix (mtu : Nat) (a : UInt8) (out cap : Nat) (h0 : 0 < mtu) (h1 : mtu ≤ maxUnit) :
    ∀ (k : Nat) (h : Hdr) (mem : Bytes) (pos n i pktLen : Nat), 0 < n → out + cap ≤ mem.length → pos + (k * mtu + n) ≤ mem.length →
      out + i + 8 * k ≤ pos → i + k * (8 + mtu) ≤ cap →
      ∃ (F : Bytes) (q l : Nat) (som : Bool), F.length = k * (8 + mtu) ∧
        genLoop mtu h a out cap mem pos (k * mtu + n) i pktLen =
          genLoop mtu { h with som := som, seq := q } a out cap (mem.take (out + i) ++ F ++ mem.drop (out + i + k * (8 + mtu)))
            (pos + k * mtu) n (i + k * (8 + mtu)) l := by
  intro k
  induction k with
  | zero =>
    intro h mem pos n i pktLen _ _ _ _ _
    refine ⟨[], h.seq, pktLen, h.som, by simp, ?_⟩
    simp
  | succ k ih =>
    intro h mem pos n i pktLen hn hcap hpos hgap hfit
    simp only [Nat.succ_mul k mtu, Nat.succ_mul k (8 + mtu)] at hpos hfit ⊢
    have htl : ((mem.drop pos).take mtu).length = mtu := by simp; omega
    rw [genLoop, dif_neg (by omega)]
    simp only
    rw [if_pos (by omega), construct_ok _ _ _ _ _ _ _ (by omega) (by omega) (by simp only [overhead]; omega) (by omega) (by omega)]
    simp only
    rw [dif_neg (by omega)]
    simp only [overhead]
    generalize hP : packet { h with eom := decide (¬ k * mtu + mtu + n > mtu) } ((mem.drop pos).take mtu) a = P
    have hPl : P.length = 8 + mtu := by rw [← hP, packet_length, htl]
    obtain ⟨mem', hmem'⟩ : ∃ m, m = mem.take (out + i) ++ P ++ mem.drop (out + i + 8 + mtu) := ⟨_, rfl⟩
    rw [← hmem']
    have hml' : mem'.length = mem.length := by rw [hmem']; simp [hPl]; omega
    have ht : (mem.take (out + i)).length = out + i := by simp; omega
    have hn' : k * mtu + mtu + n - mtu = k * mtu + n := by omega
    rw [hn']
    obtain ⟨F, q, l, som, hF, hih⟩ := ih { h with som := false, seq := (h.seq + 1) % 4 } mem' (pos + mtu) n (i + (8 + mtu))
      (if h.som then 8 + mtu else pktLen) hn (by omega) (by omega) (by omega) (by omega)
    refine ⟨P ++ F, q, l, som, by simp [hPl, hF]; omega, ?_⟩
    rw [hih]
    have e1 : mem'.take (out + (i + (8 + mtu))) = mem.take (out + i) ++ P := by
      rw [hmem', List.take_left' (by simp only [List.length_append, ht, hPl]; omega)]
    have e2 : mem'.drop (out + (i + (8 + mtu)) + k * (8 + mtu)) = mem.drop (out + i + (k * (8 + mtu) + (8 + mtu))) := by
      rw [hmem', List.drop_append, List.drop_of_length_le (by simp only [List.length_append, ht, hPl]; omega), List.nil_append,
        List.drop_drop]
      simp only [List.length_append, ht, hPl]
      congr 1; omega
    have e3 : pos + mtu + k * mtu = pos + (k * mtu + mtu) := by omega
    have e4 : i + (8 + mtu) + k * (8 + mtu) = i + (k * (8 + mtu) + (8 + mtu)) := by omega
    rw [e1, e2, e3, e4]
    simp

/-- The packets of a message after `k` full packets. -/
theorem fragment_prefix (mtu : Nat) (a : UInt8) (h0 : 0 < mtu) : ∀ (k : Nat) (h : Hdr) (msg : Bytes), k * mtu < msg.length →
    ∃ (F : Bytes) (q : Nat) (som : Bool), F.length = k * (8 + mtu) ∧
      (fragment mtu h a msg).flatten = F ++ (fragment mtu { h with som := som, seq := q } a (msg.drop (k * mtu))).flatten := by
  intro k
  induction k with
  | zero => intro h msg _; exact ⟨[], h.seq, h.som, by simp, by simp⟩
  | succ k ih =>
    intro h msg hk
    rw [Nat.succ_mul] at hk
    have hm : msg ≠ [] := List.ne_nil_of_length_pos (by omega)
    obtain ⟨F, q, som, hF, hh⟩ := ih { h with som := false, seq := (h.seq + 1) % 4 } (msg.drop mtu) (by simp; omega)
    refine ⟨packet { h with eom := decide (msg.length ≤ mtu) } (msg.take mtu) a ++ F, q, som, ?_, ?_⟩
    · rw [List.length_append, packet_length, hF, List.length_take, Nat.succ_mul]; omega
    · rw [fragment_cons mtu h a msg hm h0, List.flatten_cons, hh, List.drop_drop, List.append_assoc, Nat.succ_mul, Nat.add_comm mtu]

end Verif.Mctp
