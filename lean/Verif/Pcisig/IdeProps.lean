import Verif.Pcisig.IdeLemmas
namespace Verif.Pcisig.Ide
open Verif.Pcisig (Msg get put)

variable {e : Env} {m : Msg}

/-- The result is the one wanted. -/
def Fits (m : Msg) (x : Option Res) (r : Except Status Bytes) (calls : List Call) : Prop :=
  ∃ s, x = some s ∧ s.buf.length = m.buf.length ∧ s.calls = calls ∧
    match r with
    | .ok b => s.status = .ok ∧ s.len = b.length ∧ s.buf.take s.len = b ∧ b.length ≤ m.room
    | .error st => s.status = st ∧ s.len = m.len

theorem fits_error {buf : Bytes} {st : Status} {calls : List Call} (h : buf.length = m.buf.length) :
    Fits m (some ⟨st, buf, m.len, calls⟩) (.error st) calls := ⟨_, rfl, h, rfl, rfl, rfl⟩

theorem and_one_iff (n : Nat) : (n &&& 1 = 1) ↔ n.testBit 0 = true := by
  rw [Nat.and_one_is_mod, Nat.testBit_zero, decide_eq_true_eq]

theorem shift_one_iff (n : Nat) : ((n >>> 1) &&& 1 = 1) ↔ n.testBit 1 = true := by
  rw [and_one_iff, Nat.testBit_shiftRight]

theorem field_eq (n k w : Nat) : (n >>> k) &&& (2 ^ w - 1) = n / 2 ^ k % 2 ^ w := by
  rw [Nat.and_two_pow_sub_one_eq_mod, Nat.shiftRight_eq_div_pow]

theorem query_fits (wf : e.WF) (u : Usable m) (h3 : m.len = 3) : Fits m (query e m) (queryReply e m.room (m.q.getD 2 0)) [] := by
  have := u.h15; have := u.hr; have := u.hl
  have hport : get m.buf 2 1 = some [m.q.getD 2 0] := by
    rw [get_ok (by omega), window_one (by omega)]
    unfold Msg.q
    rw [getD_take (by omega)]
  generalize m.q.getD 2 0 = port at hport ⊢
  obtain ⟨R, hR, hRl⟩ : ∃ R, m.buf.drop 15 = R ∧ R.length = m.buf.length - 15 := ⟨_, rfl, List.length_drop⟩
  have p0 : put m.buf 0 (List.replicate 15 0) = some (0 :: 0 :: 0 :: 0 :: 0 :: 0 :: 0 :: 0 :: 0 :: 0 :: 0 :: 0 :: 0 :: 0 :: 0 :: R) := by
    rw [put_zero (by rw [List.length_replicate]; omega), List.length_replicate, hR]; rfl
  have p1 : put (0 :: 0 :: 0 :: 0 :: 0 :: 0 :: 0 :: 0 :: 0 :: 0 :: 0 :: 0 :: 0 :: 0 :: 0 :: R) 0 [0x01] =
      some (1 :: 0 :: 0 :: 0 :: 0 :: 0 :: 0 :: 0 :: 0 :: 0 :: 0 :: 0 :: 0 :: 0 :: 0 :: R) :=
    put_mid (pre := []) (d := [0x01]) rfl (by simp)
  have p2 : put (1 :: 0 :: 0 :: 0 :: 0 :: 0 :: 0 :: 0 :: 0 :: 0 :: 0 :: 0 :: 0 :: 0 :: 0 :: R) 2 [port] =
      some (1 :: 0 :: port :: 0 :: 0 :: 0 :: 0 :: 0 :: 0 :: 0 :: 0 :: 0 :: 0 :: 0 :: 0 :: R) :=
    put_mid (pre := [1, 0]) (d := [port]) rfl (by simp)
  unfold query
  simp only [h3, ne_eq, not_true_eq_false, if_false, hport, Option.map_some, List.getD_cons_zero, p0, p1, p2, Option.bind_eq_bind, Option.bind_some,
    pure]
  unfold queryReply
  have hlen : ∀ (a b c d f g h i j k l n o p q : UInt8), (a :: b :: c :: d :: f :: g :: h :: i :: j :: k :: l :: n :: o :: p :: q :: R).length = m.buf.length := by
    intros; simp only [List.length_cons]; omega
  cases hi : e.info port with
  | error c => rw [← h3]; exact fits_error (hlen ..)
  | ok v =>
    obtain ⟨bus, df, seg, top⟩ := v
    have p3 : put (1 :: 0 :: port :: 0 :: 0 :: 0 :: 0 :: 0 :: 0 :: 0 :: 0 :: 0 :: 0 :: 0 :: 0 :: R) 3 [df, bus, seg, top] =
        some (1 :: 0 :: port :: df :: bus :: seg :: top :: 0 :: 0 :: 0 :: 0 :: 0 :: 0 :: 0 :: 0 :: R) :=
      put_mid (pre := [1, 0, port]) (d := [df, bus, seg, top]) rfl (by simp)
    simp only [p3, Option.bind_some]
    cases hc : e.cap port with
    | error c => rw [← h3]; exact fits_error (hlen ..)
    | ok cap =>
      have p4 : put (1 :: 0 :: port :: df :: bus :: seg :: top :: 0 :: 0 :: 0 :: 0 :: 0 :: 0 :: 0 :: 0 :: R) 7 (toLE 4 cap) =
          some ([1, 0, port, df, bus, seg, top] ++ toLE 4 cap ++ 0 :: 0 :: 0 :: 0 :: R) :=
        put_mid (pre := [1, 0, port, df, bus, seg, top]) (rest := 0 :: 0 :: 0 :: 0 :: 0 :: 0 :: 0 :: 0 :: R) (d := toLE 4 cap) rfl (by simp)
      simp only [p4, Option.bind_some]
      cases hk : e.ctrl port with
      | error c => rw [← h3]; exact fits_error (by simp; omega)
      | ok ctrl =>
        have p5 : put ([1, 0, port, df, bus, seg, top] ++ toLE 4 cap ++ 0 :: 0 :: 0 :: 0 :: R) 11 (toLE 4 ctrl) =
            some ([1, 0, port, df, bus, seg, top] ++ toLE 4 cap ++ toLE 4 ctrl ++ R) :=
          put_mid (pre := [1, 0, port, df, bus, seg, top] ++ toLE 4 cap) (rest := 0 :: 0 :: 0 :: 0 :: R) (d := toLE 4 ctrl) rfl (by simp)
        have hno : ¬ m.room < 15 := by omega
        simp only [p5, Option.bind_some, hno, if_false]
        obtain ⟨H, hH, hHl⟩ : ∃ H, [1, 0, port, df, bus, seg, top] ++ toLE 4 cap ++ toLE 4 ctrl = H ∧ H.length = 15 := ⟨_, rfl, by simp⟩
        have hH' : (fun d => [0x01, 0, port, df, bus, seg, top] ++ toLE 4 cap ++ toLE 4 ctrl ++ d) = (H ++ ·) := by
          funext d; rw [← hH]
        rw [hH', hH]
        have hn : (H ++ R).length = m.buf.length := by rw [List.length_append]; omega
        unfold blocks
        rw [collect_append]
        have first : Looped (linkBlocks e port cap ⟨H ++ R, 15, m.room - 15⟩) H m.buf.length (m.room - 15)
            (collect (m.room - 15) (if cap.testBit 0 then (List.range (cap / 2 ^ 13 % 8 + 1)).map (fun i => (8, e.link port i)) else [])) := by
          unfold linkBlocks
          simp only [and_one_iff]
          split
          · have h := linkLoop_eq wf port (cap / 2 ^ 13 % 8 + 1) 0 H R (m.room - 15) (by omega)
            rw [hHl, hn, ← List.range_eq_range'] at h
            rw [show ((cap >>> 13) &&& 7) = cap / 2 ^ 13 % 8 from field_eq cap 13 3]
            exact h
          · exact ⟨R, by simp [hHl], by simpa using hn, Nat.zero_le _⟩
        cases hf : collect (m.room - 15) (if cap.testBit 0 then (List.range (cap / 2 ^ 13 % 8 + 1)).map (fun i => (8, e.link port i)) else []) with
        | error st =>
          rw [hf] at first
          obtain ⟨p, h1, h2⟩ := first
          rw [h1]
          simp only [Option.bind_some, ne_eq, collect_ne_ok hf, not_false_eq_true, if_true]
          rw [← h3]
          exact fits_error h2
        | ok d =>
          rw [hf] at first
          obtain ⟨rest, h1, h2, hdl⟩ := first
          rw [h1]
          simp only [Option.bind_some, ne_eq, not_true_eq_false, if_false]
          have second : Looped (selBlocks e port cap ⟨H ++ d ++ rest, H.length + d.length, m.room - 15 - d.length⟩) (H ++ d) m.buf.length (m.room - 15 - d.length)
              (collect (m.room - 15 - d.length) (if cap.testBit 1 then (List.range (cap / 2 ^ 16 % 256 + 1)).map
                (fun i => (200, (e.sel port i).map trimmed)) else [])) := by
            unfold selBlocks
            simp only [shift_one_iff]
            split
            · have h := selLoop_eq wf port (cap / 2 ^ 16 % 256 + 1) 0 (H ++ d) rest (m.room - 15 - d.length) (by
                simp only [List.length_append] at h2; omega)
              rw [h2, ← List.range_eq_range'] at h
              rw [show ((cap >>> 16) &&& 0xff) = cap / 2 ^ 16 % 256 from field_eq cap 16 8, ← List.length_append]
              exact h
            · exact ⟨rest, by simp, by simpa using h2, Nat.zero_le _⟩
          cases hg : collect (m.room - 15 - d.length) (if cap.testBit 1 then (List.range (cap / 2 ^ 16 % 256 + 1)).map
              (fun i => (200, (e.sel port i).map trimmed)) else []) with
          | error st =>
            rw [hg] at second
            obtain ⟨p, k1, k2⟩ := second
            rw [k1]
            simp only [Option.bind_some, ne_eq, collect_ne_ok hg, not_false_eq_true, if_true]
            rw [← h3]
            exact fits_error k2
          | ok d' =>
            rw [hg] at second
            obtain ⟨rest', k1, k2, kl⟩ := second
            rw [k1]
            simp only [Option.bind_some, ne_eq, not_true_eq_false, if_false]
            refine ⟨_, rfl, k2, rfl, rfl, ?_, ?_, ?_⟩
            · simp only [List.length_append]; omega
            · simp only []
              rw [← List.length_append, List.take_left' rfl, List.append_assoc]
            · simp only [List.length_append]; omega

theorem slotOf_eq {q buf : Bytes} (h : 7 ≤ buf.length) (hq : q = buf.take q.length) (hq7 : 7 ≤ q.length) : slotOf buf = some (named q) := by
  have hg : ∀ i, i < 7 → q.getD i 0 = buf.getD i 0 := by
    intro i hi; rw [hq, getD_take (by omega)]
  have hw : ∀ i, i < 4 → (window buf 3 4).getD i 0 = buf.getD (3 + i) 0 := by
    intro i hi
    unfold window
    rw [List.getD_eq_getElem?_getD, List.getD_eq_getElem?_getD, List.getElem?_take_of_lt hi, List.getElem?_drop]
  unfold slotOf named
  rw [get_ok (by omega)]
  simp only [Option.bind_eq_bind, Option.bind_some, pure, hg _ (show 6 < 7 by omega), hg _ (show 3 < 7 by omega), hg _ (show 5 < 7 by omega),
    hw _ (show 3 < 4 by omega), hw _ (show 0 < 4 by omega), hw _ (show 2 < 4 by omega)]
  have a1 : ∀ n : Nat, n &&& 1 = n % 2 := Nat.and_one_is_mod
  simp only [a1, Nat.shiftRight_eq_div_pow]

theorem prog_answer {buf : Bytes} {st : UInt8} {calls : List Call} (hl : buf.length = m.buf.length) (h15 : 15 ≤ m.room) (hr : m.room ≤ m.buf.length)
    (ht : buf.take 7 = m.buf.take 7) :
    Fits m (progAnswer buf st calls) (.ok ([0x03] ++ window m.buf 1 3 ++ [st] ++ window m.buf 5 2)) calls := by
  have hlow : ∀ i n, i + n ≤ 7 → window m.buf i n = window buf i n := by
    intro i n h
    rw [← window_take (b := m.buf) h, ← ht, window_take h]
  rw [hlow 1 3 (by omega), hlow 5 2 (by omega)]
  clear ht hlow
  match buf, hl with
  | a :: b :: c :: d :: f :: g :: h :: rest, hl =>
    have p1 : put (a :: b :: c :: d :: f :: g :: h :: rest) 0 [0x03] = some (0x03 :: b :: c :: d :: f :: g :: h :: rest) :=
      put_mid (pre := []) (d := [0x03]) rfl (by simp)
    have p2 : put (0x03 :: b :: c :: d :: f :: g :: h :: rest) 4 [st] = some (0x03 :: b :: c :: d :: st :: g :: h :: rest) :=
      put_mid (pre := [0x03, b, c, d]) (d := [st]) rfl (by simp)
    unfold progAnswer
    simp only [p1, p2, Option.bind_eq_bind, Option.bind_some, pure]
    refine ⟨_, rfl, ?_, rfl, rfl, rfl, rfl, ?_⟩
    · simpa using hl
    · simp [window]; omega
  | [], hl | [_], hl | [_, _], hl | [_, _, _], hl | [_, _, _, _], hl | [_, _, _, _, _], hl | [_, _, _, _, _, _], hl =>
    simp only [List.length_cons, List.length_nil] at hl; omega

theorem q_len (u : Usable m) : m.q.length = m.len := by
  have := u.hl
  unfold Msg.q
  rw [List.length_take]; omega

theorem q_take (u : Usable m) : m.q = m.buf.take m.q.length := by rw [q_len u]; rfl

theorem keyProg_fits (u : Usable m) : Fits m (keyProg e m) (.ok ([0x03] ++ window m.buf 1 3 ++ [progStatus m.q e.keyProg] ++ window m.buf 5 2))
    (if m.q.length = 47 then [.prog (named m.q) (window m.q 7 32) (window m.q 39 8)] else []) := by
  have := u.h15; have := u.hr; have := u.hl
  have hq := q_len u
  unfold keyProg progStatus
  by_cases h : m.len = 47
  · have h' : m.q.length = 47 := by omega
    rw [if_neg (show ¬ m.len ≠ 47 from fun x => x h), if_pos h', if_neg (show ¬ m.q.length ≠ 47 from fun x => x h')]
    rw [slotOf_eq (q := m.q) (by omega) (q_take u) (by omega), get_ok (by omega), get_ok (by omega)]
    have hput := put_ok (b := m.buf) (i := 7) (d := List.replicate 40 0) (by rw [List.length_replicate]; omega)
    rw [hput]
    simp only [Option.bind_eq_bind, Option.bind_some]
    have w1 : window m.buf 7 32 = window m.q 7 32 := (window_take (by omega)).symm
    have w2 : window m.buf 39 8 = window m.q 39 8 := (window_take (by omega)).symm
    rw [w1, w2]
    refine prog_answer ?_ u.h15 u.hr ?_
    · exact put_length hput
    · rw [List.append_assoc, List.take_left' (by rw [List.length_take]; omega)]
  · have h' : m.q.length ≠ 47 := by omega
    rw [if_pos (show m.len ≠ 47 from h), if_neg h', if_pos h']
    exact prog_answer rfl u.h15 u.hr rfl

theorem go_answer {c : Call} (u : Usable m) (h7 : m.len = 7) :
    Fits m ((put m.buf 0 [0x06]).bind fun buf => some (Res.mk .ok buf 7 [c])) (.ok (0x06 :: m.q.drop 1)) [c] := by
  have := u.h15; have := u.hr; have hl := u.hl
  have hq := q_len u
  have hp := put_zero (b := m.buf) (d := [0x06]) (by simp only [List.length_cons, List.length_nil]; omega)
  rw [hp]
  refine ⟨_, rfl, put_length hp, rfl, rfl, ?_, ?_, ?_⟩
  · simp only [List.length_cons, List.length_drop]; omega
  · simp only [Msg.q, h7, List.length_cons, List.length_nil]
    rw [List.drop_take, List.cons_append, List.nil_append, List.take_succ_cons]
  · simp only [List.length_cons, List.length_drop]; omega

/-- Every secured request gets exactly the answer of the specification, in its buffer, and makes exactly the specified calls. -/
theorem ide_answer (e : Env) (m : Msg) (wf : e.WF) (u : Usable m) (hs : m.secured = true) :
    ∃ s, process e m = some s ∧ s.buf.length = m.buf.length ∧ s.calls = callsOf m.q ∧
      match reply e m.room m.buf m.q with
      | .ok b => s.status = .ok ∧ s.len = b.length ∧ s.buf.take s.len = b ∧ b.length ≤ m.room
      | .error st => s.status = st ∧ s.len = m.len := by
  show Fits m (process e m) (reply e m.room m.buf m.q) (callsOf m.q)
  have := u.h15; have := u.hr; have := u.hl
  have hq := q_len u
  unfold process
  rw [if_neg (by rw [hs]; exact fun h => nomatch h)]
  by_cases h0 : m.len < 1
  · have : m.q = [] := List.length_eq_zero_iff.mp (by omega)
    rw [if_pos h0]
    unfold reply callsOf
    rw [if_pos this, this]
    exact fits_error rfl
  · rw [if_neg h0]
    have hne : m.q ≠ [] := fun h => by rw [h, List.length_nil] at hq; omega
    have hg : get m.buf 0 1 = some [m.q.getD 0 0] := by
      rw [get_ok (by omega), window_one (by omega)]
      unfold Msg.q
      rw [getD_take (by omega)]
    rw [hg]
    simp only [Option.map_some, List.getD_cons_zero, Option.bind_eq_bind, Option.bind_some]
    have hlit : ∀ k : UInt8, m.q.getD 0 0 = k ↔ (m.q.getD 0 0).toNat = k.toNat := fun k => UInt8.toNat_inj.symm
    unfold reply callsOf
    rw [if_neg hne]
    by_cases t0 : m.q.getD 0 0 = 0
    · have n2 : ¬ (m.q.getD 0 0 = 2 ∧ m.q.length = 47) := by rw [t0]; exact fun h => absurd h.1 (by decide)
      have n4 : ¬ (m.q.getD 0 0 = 4 ∧ m.q.length = 7) := by rw [t0]; exact fun h => absurd h.1 (by decide)
      have n5 : ¬ (m.q.getD 0 0 = 5 ∧ m.q.length = 7) := by rw [t0]; exact fun h => absurd h.1 (by decide)
      rw [if_pos t0, if_neg n2, if_neg n4, if_neg n5, if_pos (show (m.q.getD 0 0).toNat = 0 from (hlit 0).mp t0)]
      by_cases h3 : m.len = 3
      · rw [if_pos (show m.q.length = 3 by omega)]; exact query_fits wf u h3
      · rw [if_neg (show ¬ m.q.length = 3 by omega)]
        unfold query
        rw [if_pos h3]
        exact fits_error rfl
    · rw [if_neg t0, if_neg (show ¬ (m.q.getD 0 0).toNat = 0 from fun h => t0 ((hlit 0).mpr h))]
      by_cases t2 : m.q.getD 0 0 = 2
      · have n4 : ¬ (m.q.getD 0 0 = 4 ∧ m.q.length = 7) := by rw [t2]; exact fun h => absurd h.1 (by decide)
        have n5 : ¬ (m.q.getD 0 0 = 5 ∧ m.q.length = 7) := by rw [t2]; exact fun h => absurd h.1 (by decide)
        rw [if_pos t2, if_neg n4, if_neg n5, if_pos (show (m.q.getD 0 0).toNat = 2 from (hlit 2).mp t2)]
        have h := keyProg_fits (e := e) u
        by_cases h47 : m.q.length = 47
        · rw [if_pos ⟨t2, h47⟩]; rw [if_pos h47] at h; exact h
        · rw [if_neg (fun x => h47 x.2)]; rw [if_neg h47] at h; exact h
      · rw [if_neg t2, if_neg (show ¬ (m.q.getD 0 0 = 2 ∧ m.q.length = 47) from fun x => t2 x.1),
          if_neg (show ¬ (m.q.getD 0 0).toNat = 2 from fun h => t2 ((hlit 2).mpr h))]
        by_cases t4 : m.q.getD 0 0 = 4
        · have n5 : ¬ (m.q.getD 0 0 = 5 ∧ m.q.length = 7) := by rw [t4]; exact fun h => absurd h.1 (by decide)
          rw [if_pos t4, if_neg n5, if_pos (show (m.q.getD 0 0).toNat = 4 from (hlit 4).mp t4)]
          unfold keySetGo
          by_cases h7 : m.len = 7
          · have h7' : m.q.length = 7 := by omega
            rw [if_neg (show ¬ m.len ≠ 7 from fun x => x h7), if_pos h7', if_pos ⟨t4, h7'⟩,
              slotOf_eq (q := m.q) (by omega) (q_take u) (by omega)]
            simp only [Option.bind_eq_bind, Option.bind_some, pure]
            cases e.go with
            | some c => exact fits_error rfl
            | none => exact go_answer u h7
          · rw [if_pos (show m.len ≠ 7 from h7), if_neg (show ¬ m.q.length = 7 by omega), if_neg (show ¬ (_ ∧ m.q.length = 7) from fun x => by omega)]
            exact fits_error rfl
        · rw [if_neg t4, if_neg (show ¬ (m.q.getD 0 0 = 4 ∧ m.q.length = 7) from fun x => t4 x.1),
            if_neg (show ¬ (m.q.getD 0 0).toNat = 4 from fun h => t4 ((hlit 4).mpr h))]
          by_cases t5 : m.q.getD 0 0 = 5
          · rw [if_pos t5, if_pos (show (m.q.getD 0 0).toNat = 5 from (hlit 5).mp t5)]
            unfold keySetStop
            by_cases h7 : m.len = 7
            · have h7' : m.q.length = 7 := by omega
              rw [if_neg (show ¬ m.len ≠ 7 from fun x => x h7), if_pos h7', if_pos ⟨t5, h7'⟩,
                slotOf_eq (q := m.q) (by omega) (q_take u) (by omega)]
              simp only [Option.bind_eq_bind, Option.bind_some, pure]
              cases e.stop with
              | some c => exact fits_error rfl
              | none => exact go_answer u h7
            · rw [if_pos (show m.len ≠ 7 from h7), if_neg (show ¬ m.q.length = 7 by omega), if_neg (show ¬ (_ ∧ m.q.length = 7) from fun x => by omega)]
              exact fits_error rfl
          · rw [if_neg t5, if_neg (show ¬ (m.q.getD 0 0 = 5 ∧ m.q.length = 7) from fun x => t5 x.1),
              if_neg (show ¬ (m.q.getD 0 0).toNat = 5 from fun h => t5 ((hlit 5).mpr h))]
            exact fits_error rfl

/-- Nothing happens outside of secured messages. -/
theorem ide_secured (e : Env) (m : Msg) (hs : m.secured = false) : process e m = some ⟨.securedRequired, m.buf, m.len, []⟩ := by
  unfold process
  rw [if_pos hs]
  rfl

/-- A key that went to the driver is no longer in the buffer. -/
theorem ide_key_erased (e : Env) (m : Msg) (u : Usable m) (h : m.len = 47) (ht : m.q.getD 0 0 = 2) (hs : m.secured = true) :
    ∃ s, process e m = some s ∧ window s.buf 7 40 = List.replicate 40 0 := by
  have := u.h15; have := u.hr; have := u.hl
  have hg : get m.buf 0 1 = some [m.q.getD 0 0] := by
    rw [get_ok (by omega), window_one (by omega)]
    unfold Msg.q
    rw [getD_take (by omega)]
  unfold process
  rw [if_neg (by rw [hs]; exact fun h => nomatch h), if_neg (by omega), hg, ht]
  simp only [Option.map_some, List.getD_cons_zero, Option.bind_eq_bind, Option.bind_some]
  rw [if_neg (by decide), if_pos (by decide)]
  unfold keyProg
  rw [if_neg (show ¬ m.len ≠ 47 from fun x => x h), slotOf_eq (q := m.q) (by omega) (q_take u) (by rw [q_len u]; omega), get_ok (by omega), get_ok (by omega)]
  rw [put_ok (by rw [List.length_replicate]; omega)]
  simp only [Option.bind_eq_bind, Option.bind_some]
  generalize ht7 : m.buf.take 7 = T
  have hT : T.length = 7 := by rw [← ht7, List.length_take]; omega
  match T, hT with
  | [a, b, c, d, f, g, h], _ =>
    generalize m.buf.drop (7 + (List.replicate 40 (0 : UInt8)).length) = R
    generalize hz : List.replicate 40 (0 : UInt8) = Z
    have hZ : Z.length = 40 := by rw [← hz, List.length_replicate]
    have p1 : put ([a, b, c, d, f, g, h] ++ Z ++ R) 0 [0x03] = some ([0x03, b, c, d, f, g, h] ++ Z ++ R) :=
      put_mid (pre := []) (d := [0x03]) rfl (by simp)
    have p2 : ∀ st, put ([0x03, b, c, d, f, g, h] ++ Z ++ R) 4 [st] = some ([0x03, b, c, d, st, g, h] ++ Z ++ R) :=
      fun st => put_mid (pre := [0x03, b, c, d]) (d := [st]) rfl (by simp)
    unfold progAnswer
    simp only [p1, p2, Option.bind_eq_bind, Option.bind_some, pure]
    refine ⟨_, rfl, ?_⟩
    unfold window
    simp only []
    rw [List.append_assoc, List.drop_left' (show [3, b, c, d, ackStatus e.keyProg, g, h].length = 7 from rfl), List.take_left' hZ]

/-! ### Cases -/

/-- Port 1: 2 link streams, 1 selective stream with 1 address block. -/
def env1 : Env where
  info := fun p => if p = 1 then .ok (0x11, 0x22, 0x33, 1) else .error 13
  cap := fun _ => .ok 0x2003
  ctrl := fun _ => .ok 4
  link := fun _ i => .ok (List.replicate 8 (UInt8.ofNat i))
  sel := fun _ _ => .ok (1 :: List.replicate 199 7)
  keyProg := .unsupportedPort
  go := none
  stop := some 8

theorem env1_wf : env1.WF :=
  ⟨fun _ _ _ h => by cases h; simp, fun _ _ d h => by cases h; exact ⟨by rw [List.length_cons, List.length_replicate]; decide, by rw [List.length_cons, List.length_replicate]; decide⟩⟩

set_option maxRecDepth 100000 in
example : (process env1 ⟨0 :: 0 :: 1 :: List.replicate 297 9, 3, 300, true⟩).map (fun s => (s.status, s.buf.take s.len)) =
    some (.ok, [1, 0, 1, 0x22, 0x11, 0x33, 1, 3, 0x20, 0, 0, 4, 0, 0, 0] ++ List.replicate 8 0 ++ List.replicate 8 1 ++ 1 :: List.replicate 31 7) := by
  decide_cbv

set_option maxRecDepth 100000 in
example : (process env1 ⟨[2, 0, 0, 5, 0, 0x32, 1] ++ List.replicate 40 9, 47, 47, true⟩).map (fun s => (s.status, s.buf.take s.len, s.calls)) =
    some (.ok, [3, 0, 0, 5, 2, 0x32, 1], [.prog ⟨1, 5, 0, true, 3⟩ (List.replicate 32 9) (List.replicate 8 9)]) := by
  decide_cbv

example : Usable ⟨[2, 0, 0, 5, 0, 0x32, 1] ++ List.replicate 40 9, 47, 47, true⟩ := ⟨by decide, by decide, by decide⟩

/-- A query writes the fixed part of the answer before it looks at the space for it: with less than 15 bytes it writes outside of the buffer. -/
theorem ide_small_room : ∃ (e : Env) (m : Msg), e.WF ∧ m.secured = true ∧ m.len ≤ m.buf.length ∧ m.room ≤ m.buf.length ∧ process e m = none :=
  ⟨env1, ⟨[0, 0, 1], 3, 3, true⟩, env1_wf, rfl, by decide, by decide, by decide⟩

set_option maxRecDepth 100000 in
/-- A key in a request of the wrong length is neither used nor erased, and a short request is answered with old bytes of the buffer. -/
theorem ide_wrong_length_keeps :
    (process env1 ⟨[2, 0, 0, 5, 0, 0x32, 1] ++ List.replicate 41 9, 48, 48, true⟩).map (fun s => (s.calls, window s.buf 7 41)) = some ([], List.replicate 41 9) ∧
    (process env1 ⟨2 :: List.replicate 19 0x5a, 1, 20, true⟩).map (fun s => s.buf.take s.len) = some [3, 0x5a, 0x5a, 0x5a, 1, 0x5a, 0x5a] := by
  decide_cbv

end Verif.Pcisig.Ide
