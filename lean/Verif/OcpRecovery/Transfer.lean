import Verif.OcpRecovery.Content
/-! Whole transfers to and from a region. -/
namespace Verif.OcpRecovery
open Verif.Flash (Mem FS)

theorem run_append (env : Env) (a b : List Op) : ∀ (w w1 w2 : World) (r1 r2 : List Out), run env a w = some (r1, w1) →
    run env b w1 = some (r2, w2) → run env (a ++ b) w = some (r1 ++ r2, w2) := by
  induction a with
  | nil =>
    intro w w1 w2 r1 r2 h1 h2
    cases h1; exact h2
  | cons o os ih =>
    intro w w1 w2 r1 r2 h1 h2
    simp only [run, List.cons_append] at h1 ⊢
    cases hs : step env o w with
    | none => rw [hs] at h1; simp at h1
    | some x =>
      obtain ⟨r, w'⟩ := x
      rw [hs] at h1
      simp only at h1 ⊢
      cases hr : run env os w' with
      | none => rw [hr] at h1; simp at h1
      | some y =>
        obtain ⟨rs, w''⟩ := y
        rw [hr] at h1
        simp only [Option.map_some, Option.some.injEq, Prod.mk.injEq] at h1
        obtain ⟨rfl, rfl⟩ := h1
        rw [ih w' w'' w2 rs r2 hr h2]
        rfl

theorem run_two (env : Env) (a b : Op) (w w1 w2 : World) (r1 r2 : Out) (h1 : step env a w = some (r1, w1)) (h2 : step env b w1 = some (r2, w2)) :
    run env [a, b] w = some ([r1, r2], w2) := by
  simp only [run, h1, h2, Option.map_some]

theorem step_command (env : Env) (c : UInt8) (w : World) (h : ¬ (c < 0x22 ∨ c > 0x2c)) :
    step env (.command c) w = some (.status (.ok 0), { w with ctl := { w.ctl with active := c } }) := by
  simp only [step, startCommand]
  rw [if_neg h]

theorem leNat_toLE4 (o : Nat) (h : o < 2 ^ 32) : leNat (toLE 4 o) = o := by
  simp only [toLE, leNat, UInt8.toNat_ofNat']
  omega

/-- Selecting a position. -/
theorem run_select (env : Env) (i : UInt8) (o : Nat) (w : World) (hc : env.cms.isSome) (h : o + 3 < 2 ^ 32) :
    run env (select i o) w = some ([.status (.ok 0), .status (.ok 0)],
      { w with ctl := { w.ctl with active := 0, cms := i, reserved := 0, offset := align4 o } }) := by
  obtain ⟨cs, hcs⟩ := Option.isSome_iff_exists.mp hc
  refine run_two env _ _ w _ _ _ _ (step_command env 0x29 w (by decide)) ?_
  have hl : ([i, 0] ++ toLE 4 o).length = 6 := by simp [toLE]
  have hle : leNat (([i, 0] ++ toLE 4 o).drop 2) = o := leNat_toLE4 o (by omega)
  have h0 : ([i, 0] ++ toLE 4 o).getD 0 0 = i := rfl
  have h1 : ([i, 0] ++ toLE 4 o).getD 1 0 = 0 := rfl
  simp only [step, writeRequest, writeSwitch, sized, hl, hle, h0, h1, writeIndirectCtrl, hcs]
  simp only [if_true, show ¬ ((0x29 : UInt8) = 0) from by decide, show ¬ ((0x29 : UInt8) = 0x25) from by decide,
    show ¬ ((0x29 : UInt8) = 0x26) from by decide, if_false, Option.map_some, writeFailure, inactive]
  rw [Nat.mod_eq_of_lt (by omega)]
  rfl

theorem Inv.active {env : Env} {w : World} (h : Inv env w) (a : UInt8) : Inv env { w with ctl := { w.ctl with active := a } } :=
  ⟨h.plat.mono fun _ => rfl, h.rw, h.off⟩

/-- Sending one piece. -/
theorem run_piece (env : Env) (w : World) (d : Bytes) (c : Cms) (hi : Inv env w)
    (hc : region env w.ctl.cms.toNat = some c) (hty : c.type = 0 ∨ c.type = 5)
    (hk : (∃ b, c.target = .flash b) → FlashOk env c) (hr : Ready env w.ctl.cms.toNat c w) (hd : d ≠ [])
    (hfit : w.ctl.offset + d.length ≤ c.length) (hl : d.length ≤ 255) :
    ∃ w', run env [.command 0x2b, .write d] w = some ([.status (.ok 0), .status (.ok 0)], w') ∧ Inv env w' ∧ w'.ctl.cms = w.ctl.cms ∧
      w'.ctl.offset = w.ctl.offset + align4 d.length ∧ w'.ctl.proto = w.ctl.proto ∧ w'.ctl.indirect = w.ctl.indirect ∧
      Ready env w.ctl.cms.toNat c w' ∧
      (content w' w.ctl.cms.toNat c).take (w.ctl.offset + d.length) = (content w w.ctl.cms.toNat c).take w.ctl.offset ++ d := by
  have hi2 := hi.active 0x2b
  obtain ⟨w', e, g1, g2, g3, g4, g5, g6, g7⟩ := writeIndirectData_fits env { w with ctl := { w.ctl with active := 0x2b } } d c hi2 hc hty hk hr hd hfit hl
  have hs : step env (.write d) { w with ctl := { w.ctl with active := 0x2b } } = some (.status (.ok 0), inactive w') := by
    simp only [step, writeRequest, writeSwitch]
    simp only [if_true, show ¬ ((0x2b : UInt8) = 0) from by decide, show ¬ ((0x2b : UInt8) = 0x25) from by decide,
      show ¬ ((0x2b : UInt8) = 0x26) from by decide, show ¬ ((0x2b : UInt8) = 0x29) from by decide, if_false, e, Option.map_some, writeFailure]
  obtain ⟨r, w'', e', hinv, -⟩ := step_safe env (.write d) _ hi2
  rw [hs] at e'
  cases e'
  exact ⟨inactive w', run_two env _ _ w _ _ _ _ (step_command env 0x2b w (by decide)) hs, hinv, g2, g3, g4, g5, g6, g7⟩

theorem run_upload (env : Env) (c : Cms) (i : UInt8) (hc : region env i.toNat = some c) (hty : c.type = 0 ∨ c.type = 5)
    (hk : (∃ b, c.target = .flash b) → FlashOk env c) (ds : List Bytes) : ∀ (w : World) (pre : Bytes), Inv env w → w.ctl.cms = i →
    Ready env i.toNat c w → w.ctl.offset = pre.length → (content w i.toNat c).take pre.length = pre → Quads ds →
    (∀ d ∈ ds, d ≠ [] ∧ d.length ≤ 255) → pre.length + ds.flatten.length ≤ c.length →
    ∃ rs w', run env (upload ds) w = some (rs, w') ∧ (∀ r ∈ rs, r = .status (.ok 0)) ∧ Inv env w' ∧ w'.ctl.cms = i ∧
      w'.ctl.proto = w.ctl.proto ∧ w'.ctl.indirect = w.ctl.indirect ∧
      (content w' i.toNat c).take (pre ++ ds.flatten).length = pre ++ ds.flatten := by
  induction ds with
  | nil =>
    intro w pre hi hcm _ _ hpre _ _ _
    refine ⟨[], w, rfl, (by simp), hi, hcm, rfl, rfl, ?_⟩
    simpa using hpre
  | cons d ds ih =>
    intro w pre hi hcm hr ho hpre hq hds hfit
    subst hcm
    obtain ⟨hd, hl⟩ := hds d (by simp)
    simp only [List.flatten_cons, List.length_append] at hfit
    obtain ⟨w', e, g1, g2, g3, g4, g5, g6, g7⟩ := run_piece env w d c hi hc hty hk hr hd (by omega) hl
    have hpre' : (content w' w.ctl.cms.toNat c).take (pre ++ d).length = pre ++ d := by
      rw [List.length_append, ← ho, g7, ho, hpre]
    cases ds with
    | nil =>
      refine ⟨_, w', by simpa [upload] using e, by simp, g1, g2, g4, g5, ?_⟩
      simpa using hpre'
    | cons d' ds =>
      obtain ⟨hq1, hq2⟩ := hq
      have hoff : w'.ctl.offset = (pre ++ d).length := by
        rw [g3, List.length_append, ho]; unfold align4; omega
      obtain ⟨rs, w'', e2, k1, k2, k3, k4, k5, k6⟩ := ih w' (pre ++ d) g1 g2 g6 hoff hpre' hq2 (fun x hx => hds x (by simp [hx]))
        (by simp only [List.length_append] at hfit ⊢; omega)
      have hrun := run_append env [.command 0x2b, .write d] (upload (d' :: ds)) w w' w'' _ _ e e2
      refine ⟨_, w'', hrun, ?_, k2, k3, k4.trans g4, k5.trans g5, ?_⟩
      · intro r hr
        rcases List.mem_append.mp hr with h | h
        · simpa using h
        · exact k1 r h
      · simpa using k6

/-! ### Fetching -/

theorem Source.same {env : Env} {w w' : World} {i : Nat} {c : Cms} {D : Bytes} (h : Source env w i c D) (hs : Same w w') :
    Source env w' i c D := by
  unfold Source at h ⊢
  split <;> simp_all [hs.mem, hs.fs]

theorem bytesAt_window (m : Mem) (b L o n : Nat) (h : o + n ≤ L) :
    Verif.Flash.bytesAt m (b + o) n = ((Verif.Flash.bytesAt m b L).drop o).take n := by
  obtain ⟨r, rfl⟩ := Nat.exists_eq_add_of_le h
  rw [Nat.add_assoc, Verif.Flash.bytesAt_add, List.drop_append_of_le_length (by simp), List.drop_eq_nil_of_le (by simp), List.nil_append,
    Verif.Flash.bytesAt_add, List.take_append_of_le_length (by simp), List.take_of_length_le (by simp)]

/-- Fetching one piece. -/
theorem fetch_piece (env : Env) (w : World) (c : Cms) (D : Bytes) (hi : Inv env w) (hc : region env w.ctl.cms.toNat = some c)
    (hs : Source env w w.ctl.cms.toNat c D) (ho : w.ctl.offset < D.length) :
    ∃ w', readIndirectData env w = some (.ok (padded ((D.drop w.ctl.offset).take 252)), w') ∧ Same w w' ∧ w'.ctl.cms = w.ctl.cms ∧
      w'.ctl.offset = (w.ctl.offset + align4 ((D.drop w.ctl.offset).take 252).length) % 2 ^ 32 := by
  obtain ⟨cs, hcs, hcs'⟩ : ∃ cs, env.cms = some cs ∧ cs[w.ctl.cms.toNat]? = some c := by
    unfold region at hc
    cases h : env.cms with
    | none => rw [h] at hc; simp at hc
    | some cs => rw [h] at hc; exact ⟨cs, rfl, hc⟩
  have hnowrap : ∀ (n : Nat) (v : World), v.ctl.offset < n → wrap n v = v := by
    intro n v h; unfold wrap; rw [if_neg (by omega)]
  unfold Source at hs
  simp only [readIndirectData, hcs, hcs']
  cases ht : c.target with
  | buffer =>
    rw [ht] at hs
    simp only at hs
    obtain ⟨hf, h0, hm⟩ := hi.plat.buffers _ c hc ht
    have hDl : D.length = c.length := by rw [hs, List.length_take]; omega
    have hrs : regionSize env w.ctl.cms.toNat c w = some (.ok c.length, w) := by unfold regionSize; rw [if_neg (by omega)]
    have hrp : readPiece env w.ctl.cms.toNat c w = some (.ok ((D.drop w.ctl.offset).take 252), w) := by
      unfold readPiece; rw [if_neg (by omega), if_neg (by simp [hf]), ht]
      simp only []
      rw [if_pos (by omega), hs]
    simp only [hrs, hnowrap c.length w (by omega), hrp]
    exact ⟨_, rfl, ⟨rfl, rfl, rfl⟩, rfl, rfl⟩
  | flash b =>
    rw [ht] at hs
    simp only at hs
    obtain ⟨hnf, htop, hs⟩ := hs
    obtain ⟨hf, h0⟩ := hi.plat.flashes _ c b hc ht
    have hDl : D.length = c.length := by rw [hs, Verif.Flash.bytesAt_length]
    have hrs : regionSize env w.ctl.cms.toNat c w = some (.ok c.length, w) := by unfold regionSize; rw [if_neg (by omega)]
    have hrp : readPiece env w.ctl.cms.toNat c w =
        some (.ok ((D.drop w.ctl.offset).take 252), { w with fs := { w.fs with calls := w.fs.calls + 1 } }) := by
      unfold readPiece; rw [if_neg (by omega), if_pos hf, ht]
      simp only [Verif.Flash.read, hnf.1]
      rw [Nat.mod_eq_of_lt (by omega), bytesAt_window w.fs.mem b c.length w.ctl.offset (min (c.length - w.ctl.offset) 252) (by omega), hs]
      congr 3
      rw [List.take_eq_take_iff]
      simp only [List.length_drop, Verif.Flash.bytesAt_length]
      omega
    simp only [hrs, hnowrap c.length w (by omega), hrp]
    exact ⟨_, rfl, ⟨rfl, rfl, rfl⟩, rfl, rfl⟩
  | provider =>
    rw [ht] at hs
    simp only at hs
    obtain ⟨hsz, hdt, -, -⟩ := hs
    obtain ⟨hf, h0⟩ := hi.plat.providers _ c hc ht
    have hrs : regionSize env w.ctl.cms.toNat c w = some (.ok D.length, { w with tick := w.tick + 1 }) := by
      unfold regionSize; rw [if_pos h0, ht, hsz]
    have hl : ((D.drop w.ctl.offset).take 252).length ≤ 252 := by rw [List.length_take]; omega
    have hrp : readPiece env w.ctl.cms.toNat c { w with tick := w.tick + 1 } =
        some (.ok ((D.drop w.ctl.offset).take 252), { w with tick := w.tick + 1 + 1 }) := by
      unfold readPiece; rw [if_pos h0, ht]
      simp only [hdt]
      rw [if_pos hl]
    simp only [hrs, hnowrap D.length { w with tick := w.tick + 1 } ho, hrp]
    exact ⟨_, rfl, ⟨rfl, rfl, rfl⟩, rfl, rfl⟩

theorem Source.length {env : Env} {w : World} {i : Nat} {c : Cms} {D : Bytes} (hs : Source env w i c D) (hp : Platform env w)
    (hc : region env i = some c) : 0 < D.length ∧ D.length < 2 ^ 32 := by
  have h32 := hp.sizes i c hc
  unfold Source at hs
  split at hs
  · next ht =>
    obtain ⟨hf, h0, hm⟩ := hp.buffers i c hc ht
    rw [hs, List.length_take]; omega
  · next b ht =>
    obtain ⟨hf, h0⟩ := hp.flashes i c b hc ht
    rw [hs.2.2, Verif.Flash.bytesAt_length]; omega
  · exact ⟨List.length_pos_iff.mpr hs.2.2.1, hs.2.2.2⟩

/-- Fetching all there is. -/
theorem run_download (env : Env) (c : Cms) (i : UInt8) (D : Bytes) (hc : region env i.toNat = some c) (n : Nat) :
    ∀ (w : World), Inv env w → w.ctl.cms = i → Source env w i.toNat c D → w.ctl.offset < D.length → D.length < 2 ^ 32 - 4 →
    n = (D.length - w.ctl.offset + 251) / 252 → ∃ rs w', run env (download n) w = some (rs, w') ∧ Inv env w' ∧ Same w w' ∧ w'.ctl.cms = i ∧
      fetched rs = padded (D.drop w.ctl.offset) := by
  induction n with
  | zero => intro w _ _ _ ho _ hn; omega
  | succ n ih =>
    intro w hi hcm hs ho h32 hn
    subst hcm
    have hi2 := hi.active 0x2b
    have hoff4 := hi.off
    obtain ⟨w', e, hsame, hcms, hoff⟩ := fetch_piece env { w with ctl := { w.ctl with active := 0x2b } } c D hi2 hc (hs.same ⟨rfl, rfl, rfl⟩) ho
    have hst : step env .read { w with ctl := { w.ctl with active := 0x2b } } =
        some (.data (.ok (padded ((D.drop w.ctl.offset).take 252))), inactive w') := by
      simp only [step, readRequest, readSwitch]
      simp only [if_true, show ¬ ((0x2b : UInt8) = 0) from by decide, show ¬ ((0x2b : UInt8) = 0x22) from by decide,
        show ¬ ((0x2b : UInt8) = 0x23) from by decide, show ¬ ((0x2b : UInt8) = 0x24) from by decide,
        show ¬ ((0x2b : UInt8) = 0x25) from by decide, show ¬ ((0x2b : UInt8) = 0x26) from by decide,
        show ¬ ((0x2b : UInt8) = 0x27) from by decide, show ¬ ((0x2b : UInt8) = 0x29) from by decide,
        show ¬ ((0x2b : UInt8) = 0x2a) from by decide, if_false, e, Option.map_some, readFailure]
    obtain ⟨r, w'', e', hinv, -⟩ := step_safe env .read _ hi2
    rw [hst] at e'
    cases e'
    have hone := run_two env (.command 0x2b) .read w _ _ _ _ (step_command env 0x2b w (by decide)) hst
    have hsame' : Same w (inactive w') := ⟨hsame.mem, hsame.fs, hsame.erased⟩
    have hcms' : (inactive w').ctl.cms = w.ctl.cms := hcms
    have hlen : ((D.drop w.ctl.offset).take 252).length = min 252 (D.length - w.ctl.offset) := by rw [List.length_take, List.length_drop]
    have hoff' : (inactive w').ctl.offset = (w.ctl.offset + align4 (min 252 (D.length - w.ctl.offset))) % 2 ^ 32 := by
      rw [← hlen]; exact hoff
    by_cases hlast : D.length - w.ctl.offset ≤ 252
    · have hn0 : n = 0 := by omega
      subst hn0
      refine ⟨_, _, by simpa [download] using hone, hinv, hsame', hcms', ?_⟩
      simp only [fetched, List.append_nil]
      rw [List.take_of_length_le (by rw [List.length_drop]; exact hlast)]
    · have hoff2 : (inactive w').ctl.offset = w.ctl.offset + 252 := by
        rw [hoff', Nat.min_eq_left (by omega)]; unfold align4; omega
      obtain ⟨rs, w2, e2, k1, k2, k3, k4⟩ := ih (inactive w') hinv hcms' (hs.same hsame') (by omega) h32 (by omega)
      have hrun := run_append env [.command 0x2b, .read] (download n) w _ w2 _ _ hone e2
      refine ⟨_, w2, hrun, k1, hsame'.trans k2, k3, ?_⟩
      · simp only [List.cons_append, List.nil_append, fetched, k4, hoff2]
        have hp1 : padded ((D.drop w.ctl.offset).take 252) = (D.drop w.ctl.offset).take 252 := by
          unfold padded
          rw [hlen, Nat.min_eq_left (by omega)]
          simp [align4]
        have hp2 : padded (D.drop w.ctl.offset) =
            (D.drop w.ctl.offset).take 252 ++ padded (D.drop (w.ctl.offset + 252)) := by
          unfold padded
          rw [← List.append_assoc, show D.drop (w.ctl.offset + 252) = (D.drop w.ctl.offset).drop 252 from by rw [List.drop_drop],
            List.take_append_drop]
          congr 2
          simp only [List.length_drop]
          unfold align4
          omega
        rw [hp1, hp2]

end Verif.OcpRecovery
