import Verif.OcpRecovery.Ctl
import Verif.Checksum.Props
/-! Transactions on the bus. -/
namespace Verif.OcpRecovery
open Verif.Checksum (update_append)

/-- The buffer after the bytes `d`. -/
def filled (d : Bytes) : Bytes := d ++ List.replicate (257 - d.length) 0

theorem filled_set (d : Bytes) (x : UInt8) (h : d.length < 257) : (filled d).set d.length x = filled (d ++ [x]) := by
  unfold filled
  obtain ⟨n, hn⟩ : ∃ n, 257 - d.length = n + 1 := ⟨256 - d.length, by omega⟩
  rw [hn, List.replicate_succ, List.set_append_right _ _ (Nat.le_refl _)]
  simp only [Nat.sub_self, List.set_cons_zero, List.length_append, List.length_cons, List.length_nil, List.append_assoc, List.cons_append,
    List.nil_append]
  rw [show 257 - (d.length + (0 + 1)) = n from by omega]

theorem receiveAll_refused : ∀ (d : Bytes) (b : Bus) (w : World), b.rx ≤ -2 → receiveAll d b w = (b, w) := by
  intro d
  induction d with
  | nil => intro b w _; rfl
  | cons x d ih =>
    intro b w h
    have e : receive x b w = (.nack, b, w) := by unfold receive; rw [if_pos h]
    simp only [receiveAll, e]
    exact ih b w h

theorem receiveAll_data : ∀ (d pre : Bytes) (crc : UInt8) (w : World), pre.length + d.length ≤ 257 →
    receiveAll d ⟨crc, pre.length, filled pre⟩ w = (⟨crc, ((pre ++ d).length : Nat), filled (pre ++ d)⟩, w) := by
  intro d
  induction d with
  | nil => intro pre crc w _; simp [receiveAll]
  | cons x d ih =>
    intro pre crc w h
    simp only [List.length_cons] at h
    have e : receive x ⟨crc, pre.length, filled pre⟩ w = (.ack, ⟨crc, ((pre ++ [x]).length : Nat), filled (pre ++ [x])⟩, w) := by
      unfold receive
      simp only
      rw [if_neg (by omega), if_neg (by omega), if_pos (by omega), Int.toNat_natCast, filled_set pre x (by omega)]
      simp
    simp only [receiveAll, e]
    rw [ih (pre ++ [x]) crc w (by simp; omega)]
    simp

theorem receiveAll_append : ∀ (a c : Bytes) (b : Bus) (w : World),
    receiveAll (a ++ c) b w = receiveAll c (receiveAll a b w).1 (receiveAll a b w).2 := by
  intro a
  induction a with
  | nil => intro c b w; rfl
  | cons x a ih => intro c b w; simp only [List.cons_append, receiveAll]; exact ih _ _ _

theorem receiveAll_long (d : Bytes) (crc : UInt8) (w : World) (h : 257 < d.length) :
    receiveAll d ⟨crc, 0, filled []⟩ w = (⟨crc, -3, filled (d.take 257)⟩, lengthFailure w) := by
  obtain ⟨x, rest, hx⟩ : ∃ x rest, d.drop 257 = x :: rest := by
    cases hd : d.drop 257 with
    | nil => have := congrArg List.length hd; simp at this; omega
    | cons x rest => exact ⟨x, rest, rfl⟩
  have hl : (d.take 257).length = 257 := by rw [List.length_take]; omega
  have hd : d = d.take 257 ++ x :: rest := by rw [← hx, List.take_append_drop]
  have e1 := receiveAll_data (d.take 257) [] crc w (by rw [hl]; decide)
  simp only [List.length_nil, List.nil_append] at e1
  have e : receive x ⟨crc, ((d.take 257).length : Nat), filled (d.take 257)⟩ w = (.overflow, ⟨crc, -3, filled (d.take 257)⟩, lengthFailure w) := by
    unfold receive
    simp only [hl]
    rw [if_neg (by decide), if_neg (by decide), if_neg (by decide)]
  conv => lhs; rw [hd]
  rw [receiveAll_append, show ((0 : Int)) = ((0 : Nat) : Int) from rfl, e1]
  simp only [receiveAll, e]
  exact receiveAll_refused _ _ _ (show (-3 : Int) ≤ -2 by decide)

/-- The device and the bus after a valid command code. -/
theorem receive_command (addr cmd : UInt8) (b : Bus) (w : World) (h : ¬ (cmd < 0x22 ∨ cmd > 0x2c)) :
    receive cmd (start addr b) w = (.ack, ⟨pec [addr <<< 1, cmd], 0, filled []⟩, { w with ctl := { w.ctl with active := cmd } }) := by
  unfold receive start
  simp only
  rw [if_neg (by decide)]
  simp only [if_true, startCommand, if_neg h, crcUpdate, Verif.Checksum.init]
  rw [show [cmd].take (1 % 256) = [cmd] from rfl, update_append]
  rfl

theorem receive_invalid (addr cmd : UInt8) (b : Bus) (w : World) (h : cmd < 0x22 ∨ cmd > 0x2c) :
    ∃ c buf, receive cmd (start addr b) w = (.nack, ⟨c, -2, buf⟩, (startCommand cmd w).2) := by
  unfold receive start
  simp only
  rw [if_neg (by decide)]
  simp only [if_true, startCommand, if_pos h]
  exact ⟨_, _, rfl⟩

theorem filled_getD (d : Bytes) (i : Nat) (h : d.length ≤ 257) : (filled d).getD i 0 = d.getD i 0 := by
  unfold filled
  simp only [List.getD_eq_getElem?_getD]
  by_cases hi : i < d.length
  · rw [List.getElem?_append_left hi]
  · rw [List.getElem?_append_right (by omega), List.getElem?_replicate, List.getElem?_eq_none_iff.mpr (by omega)]
    split <;> rfl

theorem filled_take (d : Bytes) (n : Nat) (h : n ≤ d.length) : (filled d).take n = d.take n := by
  unfold filled
  exact List.take_append_of_le_length h

theorem filled_drop_take (d : Bytes) (n : Nat) (h : n + 1 ≤ d.length) : ((filled d).drop 1).take n = (d.drop 1).take n := by
  unfold filled
  rw [List.drop_append_of_le_length (by omega), List.take_append_of_le_length (by rw [List.length_drop]; omega)]

/-- A whole write transaction. A byte count of 255 with a checksum is not covered: see `pec_of_long_block`. -/
theorem transaction (env : Env) (addr cmd : UInt8) (d : Bytes) (b : Bus) (w : World) (h : ¬ (d.getD 0 0 = 255 ∧ d.length = 257)) :
    let r := receiveAll (cmd :: d) (start addr b) w
    (stop env r.1 r.2).map (·.2) = served env addr cmd d w ∧ ∀ s, stop env r.1 r.2 = some s → s.1.rx = -1 := by
  by_cases hc : cmd < 0x22 ∨ cmd > 0x2c
  · obtain ⟨c, buf, e⟩ := receive_invalid addr cmd b w hc
    simp only [receiveAll, e]
    rw [receiveAll_refused d _ _ (show (-2 : Int) ≤ -2 by decide)]
    unfold stop served
    simp only [if_pos hc]
    rw [if_neg (by decide)]
    exact ⟨rfl, fun s hs => by cases hs; rfl⟩
  · simp only [receiveAll, receive_command addr cmd b w hc]
    unfold served
    rw [if_neg hc]
    generalize hw : ({ w with ctl := { w.ctl with active := cmd } } : World) = w1
    simp only
    cases d with
    | nil =>
      have e : stop env ⟨pec [addr <<< 1, cmd], 0, filled []⟩ w1 = some (⟨pec [addr <<< 1, cmd], -1, filled []⟩, w1) := by
        unfold stop
        rw [if_neg (show ¬ ((0 : Int) > 0) by decide)]
      simp only [receiveAll, e]
      exact ⟨rfl, fun s hs => by cases hs; rfl⟩
    | cons n rest =>
      by_cases hlong : (n :: rest).length > 257
      · rw [receiveAll_long (n :: rest) _ w1 hlong]
        simp only [stop]
        rw [if_neg (show ¬ ((-3 : Int) > 0) by decide), if_pos (Or.inl hlong)]
        exact ⟨rfl, fun s hs => by cases hs; rfl⟩
      · have e1 := receiveAll_data (n :: rest) [] (pec [addr <<< 1, cmd]) w1 (by simpa using hlong)
        simp only [List.length_nil, List.nil_append] at e1
        rw [show (⟨pec [addr <<< 1, cmd], 0, filled []⟩ : Bus) = ⟨pec [addr <<< 1, cmd], ((0 : Nat) : Int), filled []⟩ from rfl, e1]
        simp only [stop]
        have g0 : (filled (n :: rest)).getD 0 0 = n := by rw [filled_getD _ _ (by omega)]; rfl
        rw [g0]
        simp only [List.length_cons] at hlong h ⊢
        simp only [List.getD_cons_zero] at h
        rw [if_pos (by omega)]
        by_cases hshort : rest.length < n.toNat
        · rw [if_neg (by omega), if_pos (Or.inr hshort)]
          exact ⟨rfl, fun s hs => by cases hs; rfl⟩
        · rw [if_pos (by omega), if_neg (show ¬ (rest.length + 1 > 257 ∨ rest.length < n.toNat) by omega)]
          have hpl : ((filled (n :: rest)).drop 1).take n.toNat = rest.take n.toNat := by
            rw [filled_drop_take _ _ (by simp only [List.length_cons]; omega)]; rfl
          rw [hpl]
          by_cases hp : rest.length > n.toNat
          · have hn : n.toNat ≠ 255 := by
              intro h255
              refine h ⟨?_, by omega⟩
              exact UInt8.toNat_inj.mp (by rw [h255]; rfl)
            have hlt : n.toNat < 256 := n.toNat_lt
            have hcrc : crcUpdate (pec [addr <<< 1, cmd]) (filled (n :: rest)) (n.toNat + 1) = pec ([addr <<< 1, cmd, n] ++ rest.take n.toNat) := by
              unfold crcUpdate pec
              rw [Nat.mod_eq_of_lt (by omega), filled_take _ _ (by simp only [List.length_cons]; omega), update_append]
              rfl
            have hg : (filled (n :: rest)).getD (n.toNat + 1) 0 = rest.getD n.toNat 0 := by
              rw [filled_getD _ _ (by simp only [List.length_cons]; omega)]; rfl
            rw [hcrc, hg]
            have hge : (((rest.length + 1 : Nat) : Int) ≥ (n.toNat : Int) + 2) := by omega
            simp only [hge, true_and, if_true, hp]
            by_cases hne : rest.getD n.toNat 0 = pec ([addr <<< 1, cmd, n] ++ rest.take n.toNat)
            · rw [if_neg (by rw [hne]; simp), if_neg (by rw [hne]; simp)]
              cases writeRequest env (rest.take n.toNat) w1 with
              | none => exact ⟨rfl, fun s hs => nomatch hs⟩
              | some x => exact ⟨rfl, fun s hs => by cases hs; rfl⟩
            · rw [if_pos (fun h => hne h.symm), if_pos hne]
              exact ⟨rfl, fun s hs => by cases hs; rfl⟩
          · have hge : ¬ (((rest.length + 1 : Nat) : Int) ≥ (n.toNat : Int) + 2) := by omega
            simp only [hge, false_and, if_false, hp]
            cases writeRequest env (rest.take n.toNat) w1 with
            | none => exact ⟨rfl, fun s hs => nomatch hs⟩
            | some x => exact ⟨rfl, fun s hs => by cases hs; rfl⟩

/-- A block read: the response of the device with its length and the checksum of the whole transaction. -/
theorem block_read (env : Env) (addr cmd : UInt8) (b : Bus) (w w' : World) (r : Except Nat Bytes)
    (hc : ¬ (cmd < 0x22 ∨ cmd > 0x2c)) (hr : readRequest env { w with ctl := { w.ctl with active := cmd } } = some (r, w'))
    (d : Bytes) (hd : d = answered r) (hl : d.length ≤ 254) :
    ∃ b', transmit env addr (receive cmd (start addr b) w).2.1 (receive cmd (start addr b) w).2.2 = some (b', w') ∧
      b'.buf.take (d.length + 2) =
        [UInt8.ofNat d.length] ++ d ++ [pec ([addr <<< 1, cmd, (addr <<< 1) ||| 1, UInt8.ofNat d.length] ++ d)] := by
  rw [receive_command addr cmd b w hc]
  simp only [transmit, hr]
  rw [← hd, if_pos (by omega)]
  refine ⟨_, rfl, ?_⟩
  have hbuf : writeAt (filled []) 0 (UInt8.ofNat d.length :: d) = (UInt8.ofNat d.length :: d) ++ List.replicate (256 - d.length) 0 := by
    unfold writeAt filled
    simp only [List.take_zero, List.nil_append, List.length_nil, Nat.sub_zero, Nat.zero_add, List.length_cons, List.drop_replicate]
    rw [show 257 - (d.length + 1) = 256 - d.length from by omega, List.length_replicate, List.take_of_length_le (by simp only [List.length_cons]; omega)]
  rw [hbuf]
  have hcrc : crcUpdate (crcUpdate (pec [addr <<< 1, cmd]) [(addr <<< 1) ||| 1] 1)
      ((UInt8.ofNat d.length :: d) ++ List.replicate (256 - d.length) 0) (d.length + 1) =
      pec ([addr <<< 1, cmd, (addr <<< 1) ||| 1, UInt8.ofNat d.length] ++ d) := by
    unfold crcUpdate pec
    rw [Nat.mod_eq_of_lt (show d.length + 1 < 256 by omega), List.take_append_of_le_length (by simp),
      List.take_of_length_le (l := UInt8.ofNat d.length :: d) (by simp), show [(addr <<< 1) ||| 1].take (1 % 256) = [(addr <<< 1) ||| 1] from rfl,
      update_append, update_append]
    rfl
  rw [hcrc]
  generalize pec ([addr <<< 1, cmd, (addr <<< 1) ||| 1, UInt8.ofNat d.length] ++ d) = p
  obtain ⟨k, hk⟩ : ∃ k, 256 - d.length = k + 1 := ⟨255 - d.length, by omega⟩
  rw [hk, List.replicate_succ, List.set_append_right _ _ (by simp)]
  simp only [List.length_cons, Nat.sub_self, List.set_cons_zero]
  rw [List.take_append, List.take_of_length_le (by simp)]
  simp only [List.length_cons]
  rw [show d.length + 2 - (d.length + 1) = 1 from by omega]
  simp

/-- The state of the bus. -/
structure BusInv (b : Bus) : Prop where
  buf : b.buf.length = 257
  rx : b.rx ≤ 257

/-- Every event on the bus is handled, and is nothing but calls of the handler. -/
theorem busStep_safe (env : Env) (hv : ∀ t, (env.deviceStatus t).2.2.length = 5) (e : Event) (s : Bus × World) (hb : BusInv s.1)
    (hi : Inv env s.2) : ∃ s' os rs, busStep env e s = some s' ∧ BusInv s'.1 ∧ Inv env s'.2 ∧ Frame env s.2 s'.2 ∧
      (∀ o ∈ os, Fits o) ∧ run env os s.2 = some (rs, s'.2) := by
  obtain ⟨b, w⟩ := s
  obtain ⟨hb1, hb2⟩ := hb
  simp only at hb1 hb2 hi
  have one : ∀ (o : Op) (b' : Bus) (w' : World) (r : Out), BusInv b' → Fits o → step env o w = some (r, w') →
      ∃ s' os rs, some (b', w') = some s' ∧ BusInv s'.1 ∧ Inv env s'.2 ∧ Frame env w s'.2 ∧ (∀ o ∈ os, Fits o) ∧ run env os w = some (rs, s'.2) := by
    intro o b' w' r hb' hfit hs
    obtain ⟨r', w'', e', h1, h2⟩ := step_safe env o w hi
    rw [hs] at e'
    cases e'
    exact ⟨_, [o], [r], rfl, hb', h1, h2, by simpa using hfit, by simp [run, hs]⟩
  have zero : ∀ (b' : Bus), BusInv b' →
      ∃ s' os rs, some (b', w) = some s' ∧ BusInv s'.1 ∧ Inv env s'.2 ∧ Frame env w s'.2 ∧ (∀ o ∈ os, Fits o) ∧ run env os w = some (rs, s'.2) :=
    fun b' hb' => ⟨_, [], [], rfl, hb', hi, Frame.refl _ _, by simp, rfl⟩
  cases e with
  | start a => exact zero _ ⟨by unfold start; rw [List.length_replicate], show (-1 : Int) ≤ 257 by decide⟩
  | byte x =>
    simp only [busStep]
    unfold receive
    split
    · exact zero b ⟨hb1, hb2⟩
    · split
      · simp only
        split
        · next w1 hs => exact one (.command x) _ w1 (.status (startCommand x w).1) ⟨hb1, show (-2 : Int) ≤ 257 by decide⟩ trivial (by simp only [step, hs])
        · next w1 hs => exact one (.command x) _ w1 (.status (startCommand x w).1) ⟨hb1, by simp only; omega⟩ trivial (by simp only [step, hs])
      · split
        · exact zero _ ⟨by simpa using hb1, by simp only; omega⟩
        · exact one .badLength _ _ _ ⟨hb1, by simp⟩ trivial rfl
  | stop =>
    simp only [busStep]
    unfold stop
    simp only
    split
    · split
      · split
        · refine one .badChecksum _ _ .nothing ⟨?_, by simp⟩ trivial rfl
          simp only
          split <;> exact hb1
        · obtain ⟨st, w', e, -, -⟩ := writeRequest_safe env ((b.buf.drop 1).take (b.buf.getD 0 0).toNat) w hi
          rw [e]
          refine one (.write ((b.buf.drop 1).take (b.buf.getD 0 0).toNat)) _ _ (.status st) ⟨?_, by simp⟩ ?_ (by simp only [step, e, Option.map_some])
          · simp only
            split <;> exact hb1
          · show ((b.buf.drop 1).take (b.buf.getD 0 0).toNat).length ≤ 255
            rw [List.length_take]
            have := (b.buf.getD 0 0).toNat_lt
            omega
      · exact one .badLength _ _ .nothing ⟨hb1, by simp⟩ trivial rfl
    · exact zero _ ⟨hb1, by simp⟩
  | send a =>
    simp only [busStep]
    unfold transmit
    obtain ⟨r, w', e, -, hl⟩ := readRequest_safe env w hi
    simp only [e]
    have hlen : (answered r).length ≤ 255 := by
      cases r with
      | ok d => exact hl d rfl hv
      | error _ => exact Nat.zero_le _
    rw [if_pos hlen]
    refine one .read _ _ (.data r) ⟨?_, hb2⟩ trivial (by simp only [step, e, Option.map_some])
    simp only [List.length_set]
    unfold writeAt
    simp only [List.length_append, List.length_take, List.length_drop, List.length_cons]
    omega

theorem busRun_safe (env : Env) (hv : ∀ t, (env.deviceStatus t).2.2.length = 5) (es : List Event) : ∀ (s : Bus × World), BusInv s.1 →
    Inv env s.2 → ∃ s' os rs, busRun env es s = some s' ∧ BusInv s'.1 ∧ Inv env s'.2 ∧ Frame env s.2 s'.2 ∧
      (∀ o ∈ os, Fits o) ∧ run env os s.2 = some (rs, s'.2) := by
  induction es with
  | nil => intro s hb hi; exact ⟨s, [], [], rfl, hb, hi, Frame.refl _ _, by simp, rfl⟩
  | cons e es ih =>
    intro s hb hi
    obtain ⟨s1, os1, rs1, e1, b1, i1, f1, o1, r1⟩ := busStep_safe env hv e s hb hi
    obtain ⟨s2, os2, rs2, e2, b2, i2, f2, o2, r2⟩ := ih s1 b1 i1
    refine ⟨s2, os1 ++ os2, rs1 ++ rs2, by simp only [busRun, e1, Option.bind_some, e2], b2, i2, f1.trans f2, ?_, ?_⟩
    · intro o ho
      rcases List.mem_append.mp ho with h | h
      · exact o1 o h
      · exact o2 o h
    · exact run_append env os1 os2 _ _ _ _ _ r1 r2

end Verif.OcpRecovery
