import Verif.OcpRecovery.Safe
/-! Initialisation, and what is stored and fetched. -/
namespace Verif.OcpRecovery
open Verif.Flash (Mem FS)

theorem initLoop_safe (env : Env) (first : Cms) (hfirst : (∃ i c b, region env i = some c ∧ c.target = .flash b) → ∃ b, first.target = .flash b)
    (hp : ∀ i c, region env i = some c → c.isFlash = true → ∃ b, c.target = .flash b) : ∀ (cs : List Cms) (i : Nat) (w : World),
    (∀ (j : Nat) c, cs[j]? = some c → region env (i + j) = some c) →
    ∃ st w', initLoop env first i cs w = some (st, w') ∧ w'.mem = w.mem ∧ w'.fs = w.fs ∧ w'.ctl = w.ctl ∧
      (0 < i → w'.erased 0 = w.erased 0) ∧
      ((∃ n, st = .ok n) → (∀ (j : Nat) c, cs[j]? = some c → (c.type = 0 ∨ c.type = 5) → c.length % 4 = 0 ∧ 0 < c.length) ∧
        (i = 0 → ∀ c b, cs[0]? = some c → c.isFlash = true → first.target = .flash b → w'.erased 0 = b)) := by
  intro cs
  induction cs with
  | nil =>
    intro i w h
    exact ⟨_, _, rfl, rfl, rfl, rfl, fun _ => rfl, fun _ => ⟨fun j c hc => by simp at hc, fun _ c b hc => by simp at hc⟩⟩
  | cons c cs ih =>
    intro i w h
    have hc : region env i = some c := h 0 c rfl
    have hty : (c.type = 0 ∨ c.type = 5) → (c.type &&& 0xf7 = 0 ∨ c.type &&& 0xf7 = 5) := by
      rintro (h | h) <;> rw [h] <;> decide
    have hrest : ∀ (j : Nat) c', cs[j]? = some c' → region env (i + 1 + j) = some c' := by
      intro j c' hj
      have := h (j + 1) c' hj
      rw [show i + 1 + j = i + (j + 1) from by omega]; exact this
    rw [initLoop]
    split
    · exact ⟨_, _, rfl, rfl, rfl, rfl, fun _ => rfl, fun ⟨n, hn⟩ => nomatch hn⟩
    next h1 =>
    split
    · exact ⟨_, _, rfl, rfl, rfl, rfl, fun _ => rfl, fun ⟨n, hn⟩ => nomatch hn⟩
    next h2 =>
    have hhere : (c.type = 0 ∨ c.type = 5) → c.length % 4 = 0 ∧ 0 < c.length := by
      intro ht
      refine ⟨Classical.not_not.mp fun hx => h1 ⟨hty ht, hx⟩, Nat.pos_of_ne_zero fun hx => h2 ⟨hty ht, hx⟩⟩
    split
    · next hf =>
      obtain ⟨b, hb⟩ := hp i c hc hf
      obtain ⟨b0, hb0⟩ := hfirst ⟨i, c, b, hc, hb⟩
      simp only [hb0, hb, Target.asFlash]
      split
      · exact ⟨_, _, rfl, rfl, rfl, rfl, fun _ => rfl, fun ⟨n, hn⟩ => nomatch hn⟩
      · obtain ⟨st, w', e, g1, g2, g3, g4, g5⟩ := ih (i + 1) { w with erased := setAt w.erased i b0 } hrest
        refine ⟨st, w', e, g1, g2, g3, fun hi => ?_, fun hst => ⟨fun j c' hj => ?_, fun hi c' b' hc' hf' hb' => ?_⟩⟩
        · rw [g4 (by omega)]; exact setAt_ne _ _ _ _ (by omega)
        · cases j with
          | zero => cases hj; exact hhere
          | succ j => exact (g5 hst).1 j c' hj
        · cases hb'
          rw [g4 (by omega), hi]; exact setAt_same w.erased 0 b0
    · next hf =>
      obtain ⟨st, w', e, g1, g2, g3, g4, g5⟩ := ih (i + 1) w hrest
      refine ⟨st, w', e, g1, g2, g3, fun hi => g4 (by omega), fun hst => ⟨fun j c' hj => ?_, fun hi c' b' hc' hf' hb' => ?_⟩⟩
      · cases j with
        | zero => cases hj; exact hhere
        | succ j => exact (g5 hst).1 j c' hj
      · cases hc'; exact absurd hf' hf

/-- Initialisation returns, and after success the invariant holds. -/
theorem initState_safe (env : Env) (w : World) (hp : Platform env w) (hff : FlashFirst env) : ∃ st w', initState env w = some (st, w') ∧
    w'.mem = w.mem ∧ w'.fs = w.fs ∧
    ((∃ n, st = .ok n) → Inv env w' ∧ (OneFlash env → MarkInv env w')) := by
  unfold initState
  have hreg : ∀ cs, env.cms = some cs → ∀ j, region env j = cs[j]? := by
    intro cs h j; unfold region; rw [h]; rfl
  cases hcs : env.cms with
  | none =>
    have hnone : ∀ i c, region env i ≠ some c := by intro i c; unfold region; rw [hcs]; simp
    refine ⟨_, _, rfl, rfl, rfl, fun _ => ⟨⟨hp.mono fun _ => rfl, fun i c h => absurd h (hnone i c), rfl⟩, fun _ c b h => absurd h (hnone 0 c)⟩⟩
  | some cs =>
    cases cs with
    | nil =>
      have hnone : ∀ i c, region env i ≠ some c := by intro i c; rw [hreg _ hcs]; simp
      refine ⟨_, _, rfl, rfl, rfl, fun _ => ⟨⟨hp.mono fun _ => rfl, fun i c h => absurd h (hnone i c), rfl⟩, fun _ c b h => absurd h (hnone 0 c)⟩⟩
    | cons c cs =>
      have hr0 : region env 0 = some c := by rw [hreg _ hcs]; rfl
      have h1 : (∃ i c b, region env i = some c ∧ c.target = .flash b) → ∃ b, c.target = .flash b := by
        rintro ⟨i, c', b, hc', hb⟩
        obtain ⟨c0, b0, h0, h0'⟩ := hff i c' b hc' hb
        rw [hr0] at h0; cases h0; exact ⟨b0, h0'⟩
      have h2 : ∀ i c, region env i = some c → c.isFlash = true → ∃ b, c.target = .flash b := by
        intro i c hc hf
        cases ht : c.target with
        | flash b => exact ⟨b, rfl⟩
        | buffer => rw [(hp.buffers i c hc ht).1] at hf; exact absurd hf (by decide)
        | provider => rw [(hp.providers i c hc ht).1] at hf; exact absurd hf (by decide)
      obtain ⟨st, w', e, g1, g2, g3, g4, g5⟩ := initLoop_safe env c h1 h2 (c :: cs) 0
        { w with ctl := { Ctl.zero with recovery := if !env.hasActivate || (some (c :: cs)).isNone then 0 else 1 } }
        (fun j c' hj => by rw [Nat.zero_add, hreg _ hcs]; exact hj)
      refine ⟨st, w', e, g1, g2, fun hst => ⟨⟨hp.mono fun i => by rw [g1], fun i c' hc' ht => ?_, by rw [g3]; rfl⟩, fun hone c' b hc' hb => ?_⟩⟩
      · rw [hreg _ hcs] at hc'
        exact (g5 hst).1 i c' hc' ht
      · rw [hr0] at hc'; cases hc'
        obtain ⟨s1, s2, s3⟩ := hone.sectors c b hr0 hb
        rw [(g5 hst).2 rfl c b rfl (hp.flashes 0 c b hr0 hb).1 hb]
        exact ⟨Nat.le_refl _, by omega, s1⟩

/-! ### What is stored -/

/-- From the position on the flash region is erased up to the mark. -/
def Ready (env : Env) (i : Nat) (c : Cms) (w : World) : Prop :=
  ∀ b, c.target = .flash b → w.ctl.offset = 0 ∨ (Mark env.flash.sector b c.length (w.erased i) ∧ b + w.ctl.offset ≤ w.erased i ∧
    ∀ a, b + w.ctl.offset ≤ a → a < w.erased i → w.fs.mem a = 0xff)

theorem flashPiece_ok (env : Env) (i : Nat) (c : Cms) (b : Nat) (d : Bytes) (w : World) (ht : c.target = .flash b)
    (hk : FlashOk env c) (hr : Ready env i c w) (hfit : w.ctl.offset + d.length ≤ c.length) (hl : d.length ≤ 255) :
    ∃ w', flashPiece env i b d w = (.ok 0, w') ∧ w'.ctl = w.ctl ∧
      (∀ k, k < d.length → w'.fs.mem (b + w.ctl.offset + k) = d.getD k 0) ∧
      (∀ a, b ≤ a → a < b + w.ctl.offset → w'.fs.mem a = w.fs.mem a) ∧
      Mark env.flash.sector b c.length (w'.erased i) ∧ b + w.ctl.offset + d.length ≤ w'.erased i ∧
      ∀ a, b + w.ctl.offset + d.length ≤ a → a < w'.erased i → w'.fs.mem a = 0xff := by
  have hW := hk.whole b ht
  have htop := hW.top
  obtain ⟨hok, hsz⟩ := hk.fault
  obtain ⟨-, r2, r3, r4⟩ := flashRewind_calm i b w
  -- after the rewind
  have hm : Mark env.flash.sector b c.length ((flashRewind i b w).erased i) ∧ b + w.ctl.offset ≤ (flashRewind i b w).erased i ∧
      ∀ a, b + w.ctl.offset ≤ a → a < (flashRewind i b w).erased i → w.fs.mem a = 0xff := by
    rw [r4]
    split
    · next h0 => exact ⟨⟨Nat.le_refl _, by omega, hW.base⟩, by omega, fun a _ _ => by omega⟩
    · next h0 =>
      rcases hr b ht with h | h
      · exact absurd h h0
      · exact h
  generalize hwr : flashRewind i b w = wr at r2 r3 r4 hm
  obtain ⟨m1, m2, m3⟩ := hm
  -- after the erase
  have her : ∃ we, flashErase env i b d.length wr = (.ok 0, we) ∧ we.ctl = w.ctl ∧
      (∀ a, b ≤ a → a < b + w.ctl.offset → we.fs.mem a = w.fs.mem a) ∧
      Mark env.flash.sector b c.length (we.erased i) ∧ b + w.ctl.offset + d.length ≤ we.erased i ∧
      ∀ a, b + w.ctl.offset ≤ a → a < we.erased i → we.fs.mem a = 0xff := by
    unfold flashErase
    split
    · next hgt =>
      rw [r3, Nat.mod_eq_of_lt (by omega)] at hgt
      have hnext := hW.next m1 (by omega)
      have hhi := hnext.hi
      have hbig := hk.big
      simp only [Verif.Flash.erase, hok, hsz, Bool.false_eq_true, if_false]
      refine ⟨_, rfl, r3, fun a h1 h2 => ?_, ?_, ?_, fun a h1 h2 => ?_⟩
      · show Verif.Flash.overlay wr.fs.mem (wr.erased i - wr.erased i % env.flash.sector) env.flash.sector (fun _ => 0xff) a = _
        rw [Verif.Flash.overlay_out (by rw [m1.sector]; omega), r2]
      · simp only [setAt_same]
        rw [Nat.mod_eq_of_lt (by omega)]; exact hnext
      · simp only [setAt_same]
        rw [Nat.mod_eq_of_lt (by omega)]; omega
      · simp only [setAt_same] at h2
        rw [Nat.mod_eq_of_lt (by omega)] at h2
        show Verif.Flash.overlay wr.fs.mem (wr.erased i - wr.erased i % env.flash.sector) env.flash.sector (fun _ => 0xff) a = _
        unfold Verif.Flash.overlay
        rw [m1.sector, Nat.sub_zero]
        split
        · rfl
        · next hout => rw [r2]; exact m3 a h1 (by omega)
    · next hgt =>
      rw [r3, Nat.mod_eq_of_lt (by omega)] at hgt
      exact ⟨_, rfl, r3, fun a _ _ => by rw [r2], m1, by omega, fun a h1 h2 => by rw [r2]; exact m3 a h1 h2⟩
  obtain ⟨we, e, f1, f2, f3, f4, f5⟩ := her
  unfold flashPiece
  rw [hwr, e]
  simp only [Verif.Flash.write, hok]
  refine ⟨_, rfl, f1, fun k hkd => ?_, fun a h1 h2 => ?_, f3, f4, fun a h1 h2 => ?_⟩
  · show Verif.Flash.program we.fs.mem _ d _ = _
    rw [f1, Nat.mod_eq_of_lt (by omega), Verif.Flash.program_in hkd, f5 _ (by omega) (by omega)]
    exact UInt8.neg_one_and
  · show Verif.Flash.program we.fs.mem _ d _ = _
    rw [f1, Nat.mod_eq_of_lt (by omega), Verif.Flash.program_out (by omega)]
    exact f2 a h1 h2
  · show Verif.Flash.program we.fs.mem _ d _ = _
    rw [f1, Nat.mod_eq_of_lt (by omega), Verif.Flash.program_out (by omega)]
    exact f5 a (by omega) h2

/-- Storing one piece that fits in the region. -/
theorem writeIndirectData_fits (env : Env) (w : World) (d : Bytes) (c : Cms) (hi : Inv env w)
    (hc : region env w.ctl.cms.toNat = some c) (hty : c.type = 0 ∨ c.type = 5)
    (hk : (∃ b, c.target = .flash b) → FlashOk env c) (hr : Ready env w.ctl.cms.toNat c w) (hd : d ≠ [])
    (hfit : w.ctl.offset + d.length ≤ c.length) (hl : d.length ≤ 255) :
    ∃ w', writeIndirectData env d w = some (.ok 0, w') ∧ w'.ctl.active = w.ctl.active ∧ w'.ctl.cms = w.ctl.cms ∧
      w'.ctl.offset = w.ctl.offset + align4 d.length ∧ w'.ctl.proto = w.ctl.proto ∧ w'.ctl.indirect = w.ctl.indirect ∧
      Ready env w.ctl.cms.toNat c w' ∧
      (content w' w.ctl.cms.toNat c).take (w.ctl.offset + d.length) = (content w w.ctl.cms.toNat c).take w.ctl.offset ++ d := by
  have hdl : 0 < d.length := List.length_pos_iff.mpr hd
  have h32 := hi.plat.sizes _ c hc
  have ho := hi.off
  obtain ⟨h4, h0⟩ := hi.rw _ c hc hty
  obtain ⟨cs, hcs, hcs'⟩ : ∃ cs, env.cms = some cs ∧ cs[w.ctl.cms.toNat]? = some c := by
    unfold region at hc
    cases h : env.cms with
    | none => rw [h] at hc; simp at hc
    | some cs => rw [h] at hc; exact ⟨cs, rfl, hc⟩
  have hsp : startPos c.length w.ctl.offset = w.ctl.offset := by unfold startPos; rw [if_neg (by omega)]
  have hdec : decide (c.length ≤ w.ctl.offset) = false := by rw [decide_eq_false_iff_not]; omega
  have hal : align4 (w.ctl.offset + d.length) = w.ctl.offset + align4 d.length := by unfold align4; omega
  cases ht : c.target with
  | provider => have := (hi.plat.providers _ c hc ht).2; omega
  | buffer =>
    obtain ⟨hf, -, hm⟩ := hi.plat.buffers _ c hc ht
    have hst := stream_fits c.length d (w.mem w.ctl.cms.toNat) w.ctl.offset false hfit hm
    refine ⟨_, write_mem env w d cs c hcs hcs' hty ht hf h0 h4 h32 hm hi.off, rfl, rfl, ?_, rfl, ?_, ?_, ?_⟩
    · simp only [stored, hsp, hdec, hst]; exact hal
    · simp only [stored, hsp, hdec, hst]; rfl
    · intro b hb; rw [ht] at hb; cases hb
    · simp only [content, ht, stored, hsp, hdec, hst, setAt_same]
      rw [List.take_take, List.take_take, Nat.min_eq_left (by omega), Nat.min_eq_left (by omega)]
      unfold writeAt
      rw [List.take_of_length_le (l := d) (by omega)]
      have : (List.take w.ctl.offset (w.mem w.ctl.cms.toNat) ++ d).length = w.ctl.offset + d.length := by
        rw [List.length_append, List.length_take]; omega
      rw [List.take_append_of_le_length (by omega), List.take_of_length_le (by omega)]
  | flash b =>
    obtain ⟨hf, -⟩ := hi.plat.flashes _ c b hc ht
    have hk' := hk ⟨b, ht⟩
    have hno : ¬ (c.type ≠ 0 ∧ c.type ≠ 5) := by rcases hty with h | h <;> simp [h]
    obtain ⟨w', e, f1, f2, f3, f4, f5, f6⟩ := flashPiece_ok env w.ctl.cms.toNat c b d w ht hk' hr hfit hl
    have hwrap : wrap c.length w = w := by
      rw [wrap_eq, hsp, hdec]; rfl
    have hn : min d.length (c.length - w.ctl.offset) = d.length := by omega
    have hstop : ¬ (d.length - d.length > 0) := by omega
    have hoff : (advance d.length w').ctl.offset = w.ctl.offset + align4 d.length := by
      show (w'.ctl.offset + (d.length + 3) / 4 * 4) % 2 ^ 32 = _
      rw [f1]; unfold align4; rw [Nat.mod_eq_of_lt (by omega)]
    refine ⟨advance d.length w', ?_, ?_, ?_, hoff, ?_, ?_, ?_, ?_⟩
    · simp only [writeIndirectData, hcs, hcs']
      rw [if_neg hno]
      simp only [writeLoop, hwrap, hf, if_true, ht, Target.asFlash, Option.map_some, hn, List.take_length, e]
      rw [if_neg hstop]
    · show w'.ctl.active = _; rw [f1]
    · show w'.ctl.cms = _; rw [f1]
    · show w'.ctl.proto = _; rw [f1]
    · show w'.ctl.indirect = _; rw [f1]
    · intro b' hb'
      rw [ht] at hb'; cases hb'
      right
      refine ⟨f4, ?_, ?_⟩
      · rw [hoff]
        show b + (w.ctl.offset + align4 d.length) ≤ w'.erased w.ctl.cms.toNat
        have hq : w'.erased w.ctl.cms.toNat % 4 = 0 := by
          have h1 := Nat.dvd_trans (Nat.dvd_of_mod_eq_zero hk'.quad) (Nat.dvd_of_mod_eq_zero f4.sector)
          exact Nat.mod_eq_zero_of_dvd h1
        have hb4 : b % 4 = 0 := by
          have h1 := Nat.dvd_trans (Nat.dvd_of_mod_eq_zero hk'.quad) (Nat.dvd_of_mod_eq_zero (hk'.whole b ht).base)
          exact Nat.mod_eq_zero_of_dvd h1
        unfold align4
        omega
      · intro a h1 h2
        rw [hoff] at h1
        refine f6 a ?_ h2
        unfold align4 at h1
        omega
    · simp only [content, ht]
      have hb1 : ∀ (m : Mem) (k : Nat), k ≤ c.length → (Verif.Flash.bytesAt m b c.length).take k = Verif.Flash.bytesAt m b k := by
        intro m k hk
        obtain ⟨r, hr⟩ := Nat.exists_eq_add_of_le hk
        rw [hr, Verif.Flash.bytesAt_add, List.take_append_of_le_length (by simp), List.take_of_length_le (by simp)]
      rw [hb1 _ _ hfit, hb1 _ _ (by omega), Verif.Flash.bytesAt_add]
      congr 1
      · exact Verif.Flash.bytesAt_congr fun k hk => f3 _ (by omega) (by omega)
      · exact Verif.Flash.bytesAt_eq_self fun k hk => f2 k hk

end Verif.OcpRecovery
