import Verif.OcpRecovery.Lemmas
/-! Lemmas about storing data in flash. -/
namespace Verif.OcpRecovery
open Verif.Flash (Mem FS)

theorem erase_frame (dv : Verif.Flash.Dev) (s : Nat) (fs : FS) (a i : Nat) (h : i < a - a % s ∨ a - a % s + s ≤ i) :
    (Verif.Flash.erase dv s fs a).2.mem i = fs.mem i := by
  unfold Verif.Flash.erase
  split
  · exact Verif.Flash.overlay_out h
  · show Verif.Flash.overlay fs.mem (a - a % s) s (fun _ => 0xff) i = fs.mem i
    exact Verif.Flash.overlay_out h

/-- What storing in the flash region `i` leaves alone: everything but the flash, how much is erased, and the position. -/
structure Calm (i : Nat) (w w' : World) : Prop where
  mem : w'.mem = w.mem
  hw : w'.hw = w.hw
  tick : w'.tick = w.tick
  ctl : w'.ctl = { w.ctl with offset := w'.ctl.offset, indirect := w'.ctl.indirect }
  erased : ∀ j, j ≠ i → w'.erased j = w.erased j

theorem Calm.refl (i : Nat) (w : World) : Calm i w w := ⟨rfl, rfl, rfl, rfl, fun _ _ => rfl⟩

theorem Calm.trans {i : Nat} {a b c : World} (h : Calm i a b) (h' : Calm i b c) : Calm i a c :=
  ⟨h'.mem.trans h.mem, h'.hw.trans h.hw, h'.tick.trans h.tick, by rw [h'.ctl, h.ctl], fun j hj => (h'.erased j hj).trans (h.erased j hj)⟩

/-- The mark of the erased part of a region of `L` bytes at `b` is at a sector of the region, or at its end. -/
structure Mark (s b L e : Nat) : Prop where
  lo : b ≤ e
  hi : e ≤ b + L
  sector : e % s = 0

theorem Whole.next {s b L e : Nat} (hw : Whole s b L) (m : Mark s b L e) (h : e < b + L) : Mark s b L (e + s) := by
  have h1 := hw.base; have h2 := hw.len; have h3 := m.sector; have hp := hw.pos
  refine ⟨by have := m.lo; omega, ?_, by rw [Nat.add_mod_right]; exact h3⟩
  obtain ⟨x, hx⟩ : s ∣ b + L := (Nat.dvd_add (Nat.dvd_of_mod_eq_zero h1) (Nat.dvd_of_mod_eq_zero h2))
  obtain ⟨y, hy⟩ := Nat.dvd_of_mod_eq_zero h3
  rw [hx, hy] at h ⊢
  have : y < x := Nat.lt_of_mul_lt_mul_left h
  calc s * y + s = s * (y + 1) := by rw [Nat.mul_succ]
    _ ≤ s * x := Nat.mul_le_mul_left _ this

theorem flashRewind_calm (i b : Nat) (w : World) : Calm i w (flashRewind i b w) ∧ (flashRewind i b w).fs = w.fs ∧
    (flashRewind i b w).ctl = w.ctl ∧ (flashRewind i b w).erased i = if w.ctl.offset = 0 then b else w.erased i := by
  unfold flashRewind
  split
  · exact ⟨⟨rfl, rfl, rfl, rfl, fun j hj => setAt_ne _ _ _ _ hj⟩, rfl, rfl, setAt_same _ _ _⟩
  · exact ⟨Calm.refl _ _, rfl, rfl, rfl⟩

theorem flashErase_calm (env : Env) (i b n : Nat) (w : World) : Calm i w (flashErase env i b n w).2 ∧
    (flashErase env i b n w).2.ctl = w.ctl ∧
    (∀ L, Whole env.flash.sector b L → Mark env.flash.sector b L (w.erased i) → w.ctl.offset + n ≤ L →
      Mark env.flash.sector b L ((flashErase env i b n w).2.erased i) ∧
      ∀ a, a < b ∨ b + L ≤ a → (flashErase env i b n w).2.fs.mem a = w.fs.mem a) := by
  have hfr : ∀ L, Whole env.flash.sector b L → Mark env.flash.sector b L (w.erased i) → w.ctl.offset + n ≤ L →
      (b + w.ctl.offset + n) % 2 ^ 32 > w.erased i → Mark env.flash.sector b L (w.erased i + env.flash.sector) ∧
      ∀ a, a < b ∨ b + L ≤ a →
        (Verif.Flash.erase env.flash env.flash.sector w.fs (w.erased i)).2.mem a = w.fs.mem a := by
    intro L hW hM hn hgt
    have := hW.top
    rw [Nat.mod_eq_of_lt (by omega)] at hgt
    have hnext := hW.next hM (by omega)
    refine ⟨hnext, fun a ha => erase_frame _ _ _ _ _ ?_⟩
    rw [hM.sector, Nat.sub_zero]
    have := hnext.hi; have := hM.lo
    omega
  unfold flashErase
  split
  · next hgt =>
    split
    · next fs he =>
      refine ⟨⟨rfl, rfl, rfl, rfl, fun _ _ => rfl⟩, rfl, fun L hW hM hn => ⟨hM, fun a ha => ?_⟩⟩
      have := (hfr L hW hM hn hgt).2 a ha
      rw [he] at this; exact this
    · next fs he =>
      split
      · refine ⟨⟨rfl, rfl, rfl, rfl, fun _ _ => rfl⟩, rfl, fun L hW hM hn => ⟨hM, fun a ha => ?_⟩⟩
        have := (hfr L hW hM hn hgt).2 a ha
        rw [he] at this; exact this
      · refine ⟨⟨rfl, rfl, rfl, rfl, fun j hj => setAt_ne _ _ _ _ hj⟩, rfl, fun L hW hM hn => ⟨?_, fun a ha => ?_⟩⟩
        · have h1 := (hfr L hW hM hn hgt).1
          have := hW.top; have := h1.hi
          show Mark _ _ _ (setAt _ _ _ _)
          rw [setAt_same, Nat.mod_eq_of_lt (by omega)]
          exact h1
        · have := (hfr L hW hM hn hgt).2 a ha
          rw [he] at this; exact this
  · exact ⟨Calm.refl _ _, rfl, fun L _ hM _ => ⟨hM, fun _ _ => rfl⟩⟩

theorem flashPiece_calm (env : Env) (i b : Nat) (d : Bytes) (w : World) : Calm i w (flashPiece env i b d w).2 ∧
    (flashPiece env i b d w).2.ctl = w.ctl ∧
    (∀ L, Whole env.flash.sector b L → Mark env.flash.sector b L (w.erased i) → w.ctl.offset + d.length ≤ L →
      Mark env.flash.sector b L ((flashPiece env i b d w).2.erased i) ∧
      ∀ a, a < b ∨ b + L ≤ a → (flashPiece env i b d w).2.fs.mem a = w.fs.mem a) := by
  obtain ⟨r1, r2, r3, r4⟩ := flashRewind_calm i b w
  obtain ⟨e1, e2, e3⟩ := flashErase_calm env i b d.length (flashRewind i b w)
  have hm : ∀ L, Whole env.flash.sector b L → Mark env.flash.sector b L (w.erased i) →
      Mark env.flash.sector b L ((flashRewind i b w).erased i) := by
    intro L hW hM
    rw [r4]
    split
    · exact ⟨Nat.le_refl _, by omega, hW.base⟩
    · exact hM
  unfold flashPiece
  split
  · next e w' he =>
    rw [he] at e1 e2 e3
    refine ⟨r1.trans e1, e2.trans r3, fun L hW hM hn => ?_⟩
    obtain ⟨x, y⟩ := e3 L hW (hm L hW hM) (by rw [r3]; exact hn)
    exact ⟨x, fun a ha => by rw [y a ha, r2]⟩
  · next k w' he =>
    rw [he] at e1 e2 e3
    have hcw : w'.ctl = w.ctl := e2.trans r3
    have hwf : ∀ L, Whole env.flash.sector b L → Mark env.flash.sector b L (w.erased i) → w.ctl.offset + d.length ≤ L → ∀ a,
        a < b ∨ b + L ≤ a → (Verif.Flash.write env.flash w'.fs ((b + w'.ctl.offset) % 2 ^ 32) d).2.mem a = w.fs.mem a := by
      intro L hW hM hn a ha
      have := hW.top
      rw [hcw, Nat.mod_eq_of_lt (by omega), Verif.Flash.write_frame _ _ _ _ _ (by omega),
        (e3 L hW (hm L hW hM) (by rw [r3]; exact hn)).2 a ha, r2]
    split
    · next fs hwr =>
      refine ⟨(r1.trans e1).trans ⟨rfl, rfl, rfl, rfl, fun _ _ => rfl⟩, hcw, fun L hW hM hn => ?_⟩
      refine ⟨(e3 L hW (hm L hW hM) (by rw [r3]; exact hn)).1, fun a ha => ?_⟩
      have := hwf L hW hM hn a ha
      rw [hwr] at this; exact this
    · next fs hwr =>
      refine ⟨(r1.trans e1).trans ⟨rfl, rfl, rfl, rfl, fun _ _ => rfl⟩, hcw, fun L hW hM hn => ?_⟩
      refine ⟨(e3 L hW (hm L hW hM) (by rw [r3]; exact hn)).1, fun a ha => ?_⟩
      have := hwf L hW hM hn a ha
      rw [hwr] at this; exact this

/-- Storing in flash ends, leaves alone what is not in the region, and keeps the position a multiple of four. -/
theorem flashLoop (env : Env) (i : Nat) (c : Cms) (b : Nat) (ht : c.target = .flash b) (hf : c.isFlash = true) (h0 : 0 < c.length)
    (h4 : c.length % 4 = 0) (h32 : c.length < 2 ^ 32) : ∀ (fuel : Nat) (d : Bytes) (w : World), d.length < fuel →
    w.ctl.offset % 4 = 0 → ∃ st w', writeLoop env i c fuel d w = some (st, w') ∧ Calm i w w' ∧ w'.ctl.offset % 4 = 0 ∧
      (Whole env.flash.sector b c.length → Mark env.flash.sector b c.length (w.erased i) →
        Mark env.flash.sector b c.length (w'.erased i) ∧ ∀ a, a < b ∨ b + c.length ≤ a → w'.fs.mem a = w.fs.mem a) := by
  intro fuel
  induction fuel with
  | zero => intro d w h; omega
  | succ fuel ih =>
    intro d w hfu ho
    have hs : startPos c.length w.ctl.offset < c.length := by unfold startPos; split <;> omega
    have hs4 : startPos c.length w.ctl.offset % 4 = 0 := by unfold startPos; split <;> omega
    have hw1 : Calm i w (wrap c.length w) := by rw [wrap_eq]; exact ⟨rfl, rfl, rfl, rfl, fun _ _ => rfl⟩
    have ho1 : (wrap c.length w).ctl.offset = startPos c.length w.ctl.offset := by rw [wrap_eq]
    have hfs1 : (wrap c.length w).fs = w.fs ∧ (wrap c.length w).erased = w.erased := by rw [wrap_eq]; exact ⟨rfl, rfl⟩
    generalize hsp : startPos c.length w.ctl.offset = sp at hs hs4 ho1
    simp only [writeLoop, ho1, hf, if_true, ht, Target.asFlash, Option.map_some]
    generalize hn : min d.length (c.length - sp) = n
    have hnl : (d.take n).length = n := by rw [List.length_take]; omega
    obtain ⟨p1, p2, p3⟩ := flashPiece_calm env i b (d.take n) (wrap c.length w)
    have p3' : Whole env.flash.sector b c.length → Mark env.flash.sector b c.length (w.erased i) →
        Mark env.flash.sector b c.length ((flashPiece env i b (d.take n) (wrap c.length w)).2.erased i) ∧
        ∀ a, a < b ∨ b + c.length ≤ a → (flashPiece env i b (d.take n) (wrap c.length w)).2.fs.mem a = w.fs.mem a := by
      intro hW hM
      have := p3 c.length hW (by rw [hfs1.2]; exact hM) (by rw [ho1, hnl]; omega)
      rw [hfs1.1] at this
      exact this
    generalize hfp : flashPiece env i b (d.take n) (wrap c.length w) = fp at p1 p2 p3'
    obtain ⟨st, w1⟩ := fp
    have ho2 : w1.ctl.offset = sp := by
      have : w1.ctl = (wrap c.length w).ctl := p2
      rw [this, ho1]
    cases st with
    | err e =>
      exact ⟨_, _, rfl, hw1.trans p1, by show w1.ctl.offset % 4 = 0; omega, p3'⟩
    | ok k =>
      have ha : (advance n w1).ctl.offset % 4 = 0 := by
        show (w1.ctl.offset + (n + 3) / 4 * 4) % 2 ^ 32 % 4 = 0
        omega
      have hca : Calm i w1 (advance n w1) := ⟨rfl, rfl, rfl, rfl, fun _ _ => rfl⟩
      simp only []
      split
      · next hmore =>
        obtain ⟨st, w', q1, q2, q3, q4⟩ := ih (d.drop n) (advance n w1) (by simp; omega) ha
        refine ⟨st, w', q1, (hw1.trans p1).trans (hca.trans q2), q3, fun hW hM => ?_⟩
        obtain ⟨x, y⟩ := p3' hW hM
        obtain ⟨x', y'⟩ := q4 hW x
        exact ⟨x', fun a h => (y' a h).trans (y a h)⟩
      · exact ⟨_, _, rfl, (hw1.trans p1).trans hca, ha, p3'⟩

end Verif.OcpRecovery
