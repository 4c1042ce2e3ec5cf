import Verif.OcpRecovery.Spec
import Verif.Flash.Lemmas
/-! Lemmas about storing data. -/
namespace Verif.OcpRecovery
open Verif.Flash (Mem FS)

theorem setAt_same {α : Type} (f : Nat → α) (i : Nat) (v : α) : setAt f i v i = v := by simp [setAt]
theorem setAt_ne {α : Type} (f : Nat → α) (i j : Nat) (v : α) (h : j ≠ i) : setAt f i v j = f j := by simp [setAt, h]
theorem setAt_setAt {α : Type} (f : Nat → α) (i : Nat) (v u : α) : setAt (setAt f i v) i u = setAt f i u := by
  funext j; unfold setAt; split <;> rfl
theorem setAt_self {α : Type} (f : Nat → α) (i : Nat) : setAt f i (f i) = f := by
  funext j; unfold setAt; split
  · next h => rw [h]
  · rfl

/-! ### Streams -/

theorem writeAt_nil (m : Bytes) (p : Nat) : writeAt m p [] = m := by simp [writeAt]

theorem writeAt_length (m : Bytes) (p : Nat) (d : Bytes) (h : p + d.length ≤ m.length) : (writeAt m p d).length = m.length := by
  simp only [writeAt, List.length_append, List.length_take, List.length_drop]; omega

theorem writeAt_cons (m : Bytes) (p : Nat) (b : UInt8) (d : Bytes) (h : p + (b :: d).length ≤ m.length) :
    writeAt m p (b :: d) = writeAt (m.set p b) (p + 1) d := by
  simp only [List.length_cons] at h
  have e : m.set p b = m.take p ++ ([b] ++ m.drop (p + 1)) := by
    rw [List.set_eq_take_append_cons_drop, if_pos (by omega)]; rfl
  have hl : (m.take p).length = p := by rw [List.length_take]; omega
  have e1 : (m.take p ++ ([b] ++ m.drop (p + 1))).take (p + 1) = m.take p ++ [b] := by
    rw [List.take_append, hl, List.take_of_length_le (by omega), show p + 1 - p = 1 from by omega]; rfl
  have e2 : (m.take p ++ ([b] ++ m.drop (p + 1))).drop (p + 1 + d.length) = m.drop (p + (d.length + 1)) := by
    rw [List.drop_append, hl, List.drop_eq_nil_of_le (as := m.take p) (by omega), show p + 1 + d.length - p = d.length + 1 from by omega]
    simp only [List.cons_append, List.nil_append, List.drop_succ_cons, List.drop_drop]
    rw [show p + 1 + d.length = p + (d.length + 1) from by omega]
  unfold writeAt
  rw [List.length_set, e, e1, e2, List.take_of_length_le (l := b :: d) (by simp only [List.length_cons]; omega),
    List.take_of_length_le (l := d) (by omega)]
  simp only [List.length_cons, List.append_assoc, List.cons_append, List.nil_append]

theorem stream_append (L : Nat) (d1 d2 : Bytes) : ∀ (m : Bytes) (p : Nat) (a : Bool),
    stream L m p a (d1 ++ d2) = stream L (stream L m p a d1).1 (stream L m p a d1).2.1 (stream L m p a d1).2.2 d2 := by
  induction d1 with
  | nil => intro m p a; rfl
  | cons b d ih =>
    intro m p a
    simp only [List.cons_append, stream]
    split <;> exact ih _ _ _

theorem stream_fits (L : Nat) (d : Bytes) : ∀ (m : Bytes) (p : Nat) (a : Bool), p + d.length ≤ L → L ≤ m.length →
    stream L m p a d = (writeAt m p d, p + d.length, a) := by
  induction d with
  | nil => intro m p a _ _; rw [writeAt_nil]; rfl
  | cons b d ih =>
    intro m p a h hm
    simp only [List.length_cons] at h
    rw [stream, if_neg (by omega), ih _ _ _ (by omega) (by simp; omega), writeAt_cons _ _ _ _ (by simp; omega)]
    simp only [List.length_cons]
    rw [show p + 1 + d.length = p + (d.length + 1) from by omega]

theorem stream_again (L : Nat) (hL : 0 < L) (d : Bytes) (hd : d ≠ []) (m : Bytes) (p : Nat) (a : Bool) (h : L ≤ p) :
    stream L m p a d = stream L m 0 true d := by
  cases d with
  | nil => exact absurd rfl hd
  | cons b d => rw [stream, stream, if_pos h, if_neg (by omega)]

theorem stream_flag (L : Nat) (d : Bytes) : ∀ (m : Bytes) (p : Nat) (a : Bool),
    stream L m p a d = ((stream L m p false d).1, (stream L m p false d).2.1, a || (stream L m p false d).2.2) := by
  induction d with
  | nil => intro m p a; cases a <;> rfl
  | cons b d ih =>
    intro m p a
    simp only [stream]
    split
    · rw [ih _ _ true]; simp
    · exact ih _ _ a

theorem stream_length (L : Nat) (d : Bytes) : ∀ (m : Bytes) (p : Nat) (a : Bool), (stream L m p a d).1.length = m.length := by
  induction d with
  | nil => intro m p a; rfl
  | cons b d ih =>
    intro m p a
    simp only [stream]
    split <;> (rw [ih]; simp)

theorem stream_drop (L : Nat) (hL : 0 < L) (d : Bytes) : ∀ (m : Bytes) (p : Nat) (a : Bool), (stream L m p a d).1.drop L = m.drop L := by
  induction d with
  | nil => intro m p a; rfl
  | cons b d ih =>
    intro m p a
    simp only [stream]
    split
    · rw [ih, List.drop_set_of_lt (by omega)]
    · rw [ih, List.drop_set_of_lt (by omega)]

theorem stream_pos (L : Nat) (hL : 0 < L) (d : Bytes) : ∀ (m : Bytes) (p : Nat) (a : Bool), p ≤ L → (stream L m p a d).2.1 ≤ L := by
  induction d with
  | nil => intro m p a h; exact h
  | cons b d ih =>
    intro m p a h
    simp only [stream]
    split
    · exact ih _ _ _ (by omega)
    · exact ih _ _ _ (by omega)

/-! ### Storing data in memory -/

/-- The flag for a write that went around. -/
def flagged (a : Bool) (x : UInt8) : UInt8 := if a then x ||| 1 else x

theorem flagged_flagged (a b : Bool) (x : UInt8) : flagged a (flagged b x) = flagged (b || a) x := by
  cases a <;> cases b <;> simp [flagged, UInt8.or_assoc]

/-- Where a request starts. -/
def startPos (L p : Nat) : Nat := if L ≤ p then 0 else p

theorem wrap_eq (L : Nat) (w : World) : wrap L w =
    { w with ctl := { w.ctl with offset := startPos L w.ctl.offset, indirect := flagged (decide (L ≤ w.ctl.offset)) w.ctl.indirect } } := by
  unfold wrap startPos flagged
  by_cases h : L ≤ w.ctl.offset
  · rw [if_pos h, if_pos h, if_pos (by simpa using h)]
  · rw [if_neg h, if_neg h, if_neg (by simpa using h)]

/-- The world after a request that stores `d` in the memory region `i` of `L` bytes. -/
def stored (i L : Nat) (d : Bytes) (w : World) : World :=
  let s := stream L (w.mem i) (startPos L w.ctl.offset) (decide (L ≤ w.ctl.offset)) d
  { w with
    mem := setAt w.mem i s.1
    ctl := { w.ctl with offset := align4 s.2.1, indirect := flagged s.2.2 w.ctl.indirect } }

theorem memLoop (env : Env) (i : Nat) (c : Cms) (ht : c.target = .buffer) (hf : c.isFlash = false) (h0 : 0 < c.length)
    (h4 : c.length % 4 = 0) (h32 : c.length < 2 ^ 32) : ∀ (fuel : Nat) (d : Bytes) (w : World), d.length < fuel →
    c.length ≤ (w.mem i).length → w.ctl.offset % 4 = 0 →
    writeLoop env i c fuel d w = some (.ok 0, stored i c.length d w) := by
  intro fuel
  induction fuel with
  | zero => intro d w h; omega
  | succ fuel ih =>
    intro d w hfu hm ho
    have hs : startPos c.length w.ctl.offset < c.length := by unfold startPos; split <;> omega
    have hs4 : startPos c.length w.ctl.offset % 4 = 0 := by unfold startPos; split <;> omega
    generalize hsp : startPos c.length w.ctl.offset = sp at hs hs4
    simp only [writeLoop, wrap_eq, hsp, hf, Bool.false_eq_true, if_false, memPiece, ht]
    generalize hn : min d.length (c.length - sp) = n
    have hnl : (d.take n).length = n := by rw [List.length_take]; omega
    rw [hnl, if_pos (by omega)]
    simp only [Option.map_some, advance]
    by_cases hdone : n = d.length
    · have e0 : ¬ (d.length - n > 0) := by omega
      rw [if_neg e0]
      have ed : d.take n = d := by rw [hdone, List.take_length]
      have est := stream_fits c.length d (w.mem i) sp (decide (c.length ≤ w.ctl.offset)) (by omega) hm
      simp only [stored, hsp, est, ed]
      have eo : (sp + (n + 3) / 4 * 4) % 2 ^ 32 = align4 (sp + d.length) := by
        unfold align4; rw [Nat.mod_eq_of_lt (by omega)]; omega
      rw [eo]
    · have e0 : d.length - n > 0 := by omega
      have hne : d.drop n ≠ [] := by
        intro h; have := congrArg List.length h; simp at this; omega
      have hnn : n = c.length - sp := by omega
      rw [if_pos e0]
      have eo : (sp + (n + 3) / 4 * 4) % 2 ^ 32 = c.length := by rw [Nat.mod_eq_of_lt (by omega)]; omega
      rw [eo, ih _ _ (by simp; omega) (by
        show c.length ≤ (setAt w.mem i (writeAt (w.mem i) sp (d.take n)) i).length
        rw [setAt_same, writeAt_length _ _ _ (by omega)]; exact hm) h4]
      have est := stream_fits c.length (d.take n) (w.mem i) sp (decide (c.length ≤ w.ctl.offset)) (by omega) hm
      have e1 : stream c.length (w.mem i) sp (decide (c.length ≤ w.ctl.offset)) d =
          stream c.length (writeAt (w.mem i) sp (d.take n)) c.length (decide (c.length ≤ w.ctl.offset)) (d.drop n) := by
        conv => lhs; rw [← List.take_append_drop n d]
        rw [stream_append, est]
        simp only [hnl]
        rw [show sp + n = c.length from by omega]
      have e2 := stream_again c.length h0 (d.drop n) hne (writeAt (w.mem i) sp (d.take n)) c.length
        (decide (c.length ≤ w.ctl.offset)) (Nat.le_refl _)
      have e3 : startPos c.length c.length = 0 := by simp [startPos]
      simp only [stored, hsp, e1, e2, e3, setAt_same, setAt_setAt, decide_true, Nat.le_refl]
      congr 4
      · rw [flagged_flagged]
        rw [stream_flag _ _ _ 0 true]
        simp

/-- Storing data in a memory region. -/
theorem write_mem (env : Env) (w : World) (d : Bytes) (cs : List Cms) (c : Cms) (hcs : env.cms = some cs)
    (hc : cs[w.ctl.cms.toNat]? = some c) (hty : c.type = 0 ∨ c.type = 5) (ht : c.target = .buffer) (hf : c.isFlash = false)
    (h0 : 0 < c.length) (h4 : c.length % 4 = 0) (h32 : c.length < 2 ^ 32) (hm : c.length ≤ (w.mem w.ctl.cms.toNat).length)
    (ho : w.ctl.offset % 4 = 0) :
    writeIndirectData env d w = some (.ok 0, stored w.ctl.cms.toNat c.length d w) := by
  have hno : ¬ (c.type ≠ 0 ∧ c.type ≠ 5) := by rcases hty with h | h <;> simp [h]
  simp only [writeIndirectData, hcs, hc]
  rw [if_neg hno]
  exact memLoop env _ c ht hf h0 h4 h32 _ d w (Nat.lt_succ_self _) hm ho

end Verif.OcpRecovery
