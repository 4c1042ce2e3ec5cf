import Verif.ManifestVerification.Lemmas
namespace Verif.ManifestVerification

/-! ## C44 -/

/-- A signature that is accepted was made with a key the root key has endorsed: the stored key, or the default key if it is not revoked. -/
theorem accepted_by_endorsed {W : World} {s : State} (h : Reach W s) (hu : s.up = true) {d g : Bytes} {f1 f2 : Fault}
    (ha : verifySignature W s d g f1 f2 = .ok) :
    ∃ k, Endorsed W k ∧ Signed W k d g ∧ (s.stored = some k ∨ (k = s.default ∧ ∀ k', s.stored = some k' → W.id k' < W.id k)) := by
  have hi := reach_inv h hu
  rcases verify_ok ha with ⟨k, hk, hs⟩ | ⟨hv, hs⟩
  · exact ⟨k, (hi.with_stored k hk).1, hs, .inl hk⟩
  · exact ⟨_, hi.dflt, hs, .inr ⟨rfl, fun k' hk' => (hi.with_stored k' hk').2.2.2.mp hv⟩⟩

/-- There always is a key to decide with: the answer never depends on an uninitialized variable. -/
theorem never_undefined {W : World} {s : State} (h : Reach W s) (hu : s.up = true) (d g : Bytes) (f1 f2 : Fault) :
    verifySignature W s d g f1 f2 ≠ .undefined := by
  have hi := reach_inv h hu
  unfold verifySignature
  simp only
  cases hs : s.stored with
  | none =>
    simp only
    rw [if_pos (hi.alone hs).1]
    rcases check_cases W (W.pub s.default) d g f2 with e | e | e <;> rw [e] <;> exact fun hc => (nomatch hc)
  | some k =>
    simp only
    rcases check_cases W (W.pub k) d g f1 with e | e | e <;> rw [e]
    · exact fun hc => (nomatch hc)
    · simp only
      split
      · rcases check_cases W (W.pub s.default) d g f2 with e | e | e <;> rw [e] <;> exact fun hc => (nomatch hc)
      · exact fun hc => (nomatch hc)
    · exact fun hc => (nomatch hc)

/-- With working cryptography a signature is accepted exactly if it was made with a key that is in force. -/
theorem accepted_iff {W : World} {s : State} (h : Reach W s) (hu : s.up = true) (d g : Bytes) :
    verifySignature W s d g .none .none = .ok ↔
      (∃ k, s.stored = some k ∧ Signed W k d g) ∨ ((∀ k', s.stored = some k' → W.id k' < W.id s.default) ∧ Signed W s.default d g) := by
  have hi := reach_inv h hu
  constructor
  · intro ha
    rcases verify_ok ha with ⟨k, hk, hs⟩ | ⟨hv, hs⟩
    · exact .inl ⟨k, hk, hs⟩
    · exact .inr ⟨fun k' hk' => (hi.with_stored k' hk').2.2.2.mp hv, hs⟩
  · intro hor
    unfold verifySignature
    simp only
    cases hs : s.stored with
    | none =>
      rcases hor with ⟨k, hk, -⟩ | ⟨-, hg⟩
      · rw [hs] at hk; cases hk
      · simp only
        rw [if_pos (hi.alone hs).1]
        exact check_ok.mpr ⟨rfl, hg⟩
    | some k =>
      simp only
      by_cases hk : Signed W k d g
      · rw [show check W (W.pub k) d g .none = .ok from check_ok.mpr ⟨rfl, hk⟩]
      · have hb : check W (W.pub k) d g .none = .bad := by
          unfold check
          rw [if_neg (show ¬ W.sigOk (W.pub k) d g = true from hk)]
        rw [hb]
        simp only
        rcases hor with ⟨k', hk', hg⟩ | ⟨hlt, hg⟩
        · rw [hs] at hk'; cases hk'; exact absurd hg hk
        · rw [if_pos ((hi.with_stored k hs).2.2.2.mpr (hlt k hs))]
          exact check_ok.mpr ⟨rfl, hg⟩

/-- The stored key is given up during a boot only when a manifest signed with the newer default key was activated. -/
theorem revoked_only_by_default {W : World} {s : State} (h : Reach W s) (hu : s.up = true) (op : Op) (hb : SameBoot s op) {k : Bytes}
    (hk : s.stored = some k) (hn : (step W s op).stored ≠ some k) :
    W.id k < W.id s.default ∧ ∃ d g f r, op = .activated (some (d, g)) f r ∧ Signed W s.default d g := by
  have hi := reach_inv h hu
  cases op with
  | init env => cases hb
  | activated m f r =>
    simp only [step, hu, if_true] at hn
    rcases activated_cases W s m f r with e | ⟨-, hv, ⟨d, g, hm, hs⟩, e⟩ | ⟨-, hf, e⟩
    · rw [e] at hn; exact absurd hk hn
    · exact ⟨(hi.with_stored k hk).2.2.2.mp hv, d, g, f, r, by rw [hm], hs⟩
    · have := saveFailed_none hi hf
      rw [hk] at this; cases this
  | update r =>
    simp only [step, hu, if_true] at hn
    rcases updateStart_cases s r with ⟨-, e⟩ | ⟨hf, e⟩
    · rw [e] at hn; exact absurd hk hn
    · have := saveFailed_none hi hf
      rw [hk] at this; cases this

theorem same_boot_alone {W : World} {s t : State} (hs : s.stored = none) (hu : s.up = true) (h : From W SameBoot s t) :
    t.stored = none ∧ t.default = s.default ∧ t.up = true := by
  induction h with
  | refl => exact ⟨hs, rfl, hu⟩
  | @step t op _ hb ih =>
    obtain ⟨a, b, c⟩ := ih
    cases op with
    | init env => cases hb
    | activated m f r =>
      simp only [step, c, if_true]
      rcases activated_cases W t m f r with e | ⟨hsome, -, -, -⟩ | ⟨-, -, e⟩
      · rw [e]; exact ⟨a, b, c⟩
      · rw [a] at hsome; cases hsome
      · rw [e]
        obtain ⟨u, v, -, -, w, -⟩ := save_fields t r
        exact ⟨v.trans a, w.trans b, u.trans c⟩
    | update r =>
      simp only [step, c, if_true]
      rcases updateStart_cases t r with ⟨-, e⟩ | ⟨-, e⟩
      · rw [e]; exact ⟨a, b, c⟩
      · rw [e]
        obtain ⟨u, v, -, -, w, -⟩ := save_fields t r
        exact ⟨v.trans a, w.trans b, u.trans c⟩

/-- The state after the activation of a manifest signed with the default key, while an older stored key is in use. -/
theorem activated_eq {W : World} {s : State} (hu : s.up = true) {k : Bytes} (hk : s.stored = some k) (hv : s.defaultValid = true) {d g : Bytes}
    (hs : Signed W s.default d g) (r : Save) :
    step W s (.activated (some (d, g)) .none r) = { (save s r).1 with stored := none, saveFailed := !(save s r).2 } := by
  simp only [step, hu, if_true, activated, hk, hv, Option.isSome_some, Bool.and_self]
  rw [show check W (W.pub s.default) d g .none = .ok from check_ok.mpr ⟨rfl, hs⟩]

/-- After a manifest signed with the new default key was activated, only that key is accepted in this boot, whether or not it could be
saved. -/
theorem revoked_this_boot {W : World} {s : State} (h : Reach W s) (hu : s.up = true) {k : Bytes} (hk : s.stored = some k)
    (hlt : W.id k < W.id s.default) {d g : Bytes} (hs : Signed W s.default d g) (r : Save) {t : State}
    (ht : From W SameBoot (step W s (.activated (some (d, g)) .none r)) t) {d' g' : Bytes} {f1 f2 : Fault}
    (ha : verifySignature W t d' g' f1 f2 = .ok) : Signed W s.default d' g' := by
  have hv := ((reach_inv h hu).with_stored k hk).2.2.2.mpr hlt
  obtain ⟨a, -, -, -, b, -⟩ := save_fields s r
  have e := activated_eq hu hk hv hs r
  obtain ⟨x, y, -⟩ := same_boot_alone (by rw [e]) (by rw [e]; exact a.trans hu) ht
  rcases verify_ok ha with ⟨k', hk', -⟩ | ⟨-, hs'⟩
  · rw [x] at hk'; cases hk'
  · rw [y, e] at hs'
    rw [show s.default = (save s r).1.default from b.symm]
    exact hs'

/-- If the new key was saved, the old one stays revoked for ever: through all restarts, with whatever firmware (also an older one) and
whatever failures, only endorsed keys with an id at least that of the new key are accepted. The keystore must not be destroyed by a failing
save later on; all firmware versions use keys of the same size. -/
theorem revoked_for_ever {W : World} {s : State} (h : Reach W s) (hu : s.up = true) {k : Bytes} (hk : s.stored = some k)
    (hlt : W.id k < W.id s.default) {d g : Bytes} (hs : Signed W s.default d g) {t : State}
    (ht : From W (KeepsStore s.default.length) (step W s (.activated (some (d, g)) .none .ok)) t) (htu : t.up = true)
    {d' g' : Bytes} {f1 f2 : Fault} (ha : verifySignature W t d' g' f1 f2 = .ok) :
    ∃ k', Endorsed W k' ∧ Signed W k' d' g' ∧ W.id k < W.id s.default ∧ W.id s.default ≤ W.id k' := by
  have hi := reach_inv h hu
  have hv := (hi.with_stored k hk).2.2.2.mpr hlt
  have e := activated_eq hu hk hv hs .ok
  have hf : Floor W (W.id s.default) s.default.length (step W s (.activated (some (d, g)) .none .ok)) := by
    refine ⟨step_inv (fun _ => hi) _, ?_, ?_⟩
    · rw [e]; exact ⟨s.default, rfl, hi.dflt, rfl, Nat.le_refl _⟩
    · rw [e]; exact fun _ => ⟨rfl, fun _ => Nat.le_refl _⟩
  have hft : Floor W (W.id s.default) s.default.length t := by
    clear ha htu
    induction ht with
    | refl => exact hf
    | step op _ hp ih => exact floor_step ih op hp
  obtain ⟨k', a, b, c⟩ := floor_accepts hft htu ha
  exact ⟨k', a, b, hlt, c⟩

/-- In particular a stored key is a lower bound from the start on: no older key is ever accepted again. -/
theorem stored_is_floor {W : World} {s : State} (h : Reach W s) (hu : s.up = true) {k : Bytes} (hk : s.stored = some k) (hl : k.length = s.default.length)
    {t : State} (ht : From W (KeepsStore s.default.length) s t) (htu : t.up = true) {d g : Bytes} {f1 f2 : Fault} (ha : verifySignature W t d g f1 f2 = .ok) :
    ∃ k', Endorsed W k' ∧ Signed W k' d g ∧ W.id k ≤ W.id k' := by
  have hi := reach_inv h hu
  obtain ⟨he, -, hst, -⟩ := hi.with_stored k hk
  have hft : Floor W (W.id k) s.default.length t := by
    clear ha htu
    induction ht with
    | refl => exact ⟨fun _ => hi, ⟨k, hst, he, hl, Nat.le_refl _⟩, fun _ => ⟨rfl, fun hc => by rw [hk] at hc; cases hc⟩⟩
    | step op _ hp ih => exact floor_step ih op hp
  exact floor_accepts hft htu ha

/-- A firmware update is allowed only when the key in force is in the keystore. -/
theorem update_means_saved {W : World} {s : State} (h : Reach W s) (hu : s.up = true) (r : Save) (ha : (updateStart s r).2 = true) :
    (updateStart s r).1.store = some ((s.stored).getD s.default) ∧ (updateStart s r).1.stored = s.stored := by
  have hi := reach_inv h hu
  rcases updateStart_cases s r with ⟨hf, e⟩ | ⟨hf, e⟩
  · rw [e]
    refine ⟨?_, rfl⟩
    cases hs : s.stored with
    | none => exact (hi.alone hs).2 hf
    | some k => exact (hi.with_stored k hs).2.2.1
  · rw [e] at ha ⊢
    obtain ⟨-, b, -, -, -, g⟩ := save_fields s r
    refine ⟨?_, b⟩
    rw [saveFailed_none hi hf]
    exact g ha

/-- If the new key was not saved, the old one is back after a restart. (The keystore has to fail for this; the update of the firmware is
blocked until saving succeeds.) -/
theorem unsaved_comes_back : ∃ (W : World) (s : State) (d g : Bytes) (env : BootEnv), Reach W s ∧ s.up = true ∧ s.stored = none ∧
    verifySignature W s d g .none .none = .bad ∧ verifySignature W (init W s env) d g .none .none = .ok := by
  let W : World := ⟨fun k _ g => k == [9] || k == g, fun _ => true, fun b => b, [9], 1, 0⟩
  refine ⟨W, step W (step W ⟨false, none, false, false, [2, 0, 0, 0, 2], some [1, 0, 0, 0, 1]⟩ (.init ⟨[2, 0, 0, 0, 2], .none, .none, false, .ok⟩))
    (.activated (some ([], [2])) .none (.failed (some [1, 0, 0, 0, 1]))), [], [1], ⟨[2, 0, 0, 0, 2], .none, .none, false, .ok⟩,
    .step _ (.step _ (.start _ _)), rfl, rfl, rfl, rfl⟩

/-! ### A concrete history -/

/-- One byte of key; everything is signed by the root; a signature is good if it is the key. -/
def exW : World := ⟨fun k _ g => k == [9] || k == g, fun _ => true, fun b => b, [9], 1, 0⟩
def exOld : Bytes := [1, 0, 0, 0, 1]
def exNew : Bytes := [2, 0, 0, 0, 2]
def exBoot (d : Bytes) : Op := .init ⟨d, .none, .none, false, .ok⟩
def exS : State := step exW ⟨false, none, false, false, exNew, some exOld⟩ (exBoot exNew)

example : Reach exW exS := .step _ (.start _ _)
example : exS.up = true ∧ exS.stored = some exOld ∧ exW.id exOld < exW.id exS.default ∧ Signed exW exS.default [] [2] := ⟨rfl, rfl, by decide, rfl⟩
example : verifySignature exW exS [] [1] .none .none = .ok ∧ verifySignature exW exS [] [2] .none .none = .ok ∧
    verifySignature exW exS [] [3] .none .none = .bad := by decide
example : verifySignature exW (step exW exS (.activated (some ([], [2])) .none .ok)) [] [1] .none .none = .bad := by decide
/-- Also with the old firmware, whose default key is the old one. -/
example : verifySignature exW (step exW (step exW exS (.activated (some ([], [2])) .none .ok)) (exBoot exOld)) [] [1] .none .none = .bad ∧
    verifySignature exW (step exW (step exW exS (.activated (some ([], [2])) .none .ok)) (exBoot exOld)) [] [2] .none .none = .ok := by decide
example : From exW (KeepsStore exS.default.length) (step exW exS (.activated (some ([], [2])) .none .ok))
    (step exW (step exW exS (.activated (some ([], [2])) .none .ok)) (exBoot exOld)) :=
  .step _ .refl ⟨trivial, rfl⟩

end Verif.ManifestVerification
