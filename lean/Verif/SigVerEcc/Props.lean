import Verif.SigVerEcc.Model
/-!
C154: signatures are checked with the key that was set last, or not at all; every loaded key is released once.
-/
namespace Verif.SigVerEcc
open Spec (Call Result)

/-- The state holds the key `k` and no other. -/
structure Inv (s : St) (k : Option Bytes) : Prop where
  ok : s.w.misuse = false
  key : match k with
    | none => s.valid = false ∧ s.w.live = []
    | some b => s.valid = true ∧ s.key.data = b ∧ s.w.live = [s.key.id]

theorem loadKey_cases (E : Engine) (w : World) (key : Bytes) :
    (∃ n, loadKey E w key = (.ok, some ⟨w.fresh, key⟩, ⟨w.fresh :: w.live, w.fresh + 1, n, w.misuse⟩)) ∨
    (∃ n r, r ≠ .ok ∧ loadKey E w key = (r, none, { w with calls := n })) := by
  unfold loadKey
  cases E.initPublic w.calls key with
  | ok => exact .inl ⟨_, rfl⟩
  | notEc => exact .inr ⟨_, _, by decide, rfl⟩
  | error c =>
    cases E.initPair (w.calls + 1) key with
    | ok => exact .inl ⟨_, rfl⟩
    | notEc => exact .inr ⟨_, _, by decide, rfl⟩
    | error c => exact .inr ⟨_, .engine c, (by intro h; cases h), rfl⟩

theorem drop_inv {s : St} {k : Option Bytes} (h : Inv s k) : Inv (dropKey s) none := by
  obtain ⟨ok, key⟩ := h
  cases k with
  | none => simp only [dropKey, key.1]; exact ⟨ok, key⟩
  | some b =>
    obtain ⟨h1, _, h3⟩ := key
    simp only [dropKey, h1, if_true, World.release, h3]
    constructor <;> simp [ok]

theorem exec_inv (E : Engine) {s : St} {k : Option Bytes} (h : Inv s k) (c : Call) :
    Inv (exec E s c).2 (Spec.next k (c, (exec E s c).1)) := by
  cases c with
  | remove n => exact drop_inv h
  | setKey b =>
    cases b with
    | nil => exact h
    | cons b bs =>
      have hd := drop_inv h
      simp only [exec, setKey, List.length_cons, Nat.succ_ne_zero, if_false]
      generalize dropKey s = s1 at hd
      obtain ⟨o, e1, e2⟩ := hd
      rcases loadKey_cases E s1.w (b :: bs) with ⟨n, e⟩ | ⟨n, r, hr, e⟩
      · rw [e]
        exact ⟨o, rfl, rfl, by simp [e2]⟩
      · rw [e]
        cases r <;> first | exact absurd rfl hr | exact ⟨o, e1, e2⟩
  | isKeyValid b =>
    simp only [exec, isKeyValid]
    by_cases h0 : b.length = 0
    · rw [if_pos h0]; exact h
    · rw [if_neg h0]
      obtain ⟨o, key⟩ := h
      rcases loadKey_cases E s.w b with ⟨n, e⟩ | ⟨n, r, hr, e⟩
      · rw [e]
        simp only [World.release, List.contains_cons, BEq.rfl, Bool.true_or, if_true, List.erase_cons_head]
        exact ⟨o, key⟩
      · rw [e]
        cases r <;> first | exact absurd rfl hr | exact ⟨o, key⟩
  | verify d g =>
    simp only [exec, verify]
    obtain ⟨o, key⟩ := h
    by_cases hv : s.valid = false
    · rw [if_pos hv]; exact ⟨o, key⟩
    · rw [if_neg hv]
      cases k with
      | none => exact absurd key.1 hv
      | some b =>
        obtain ⟨h1, h2, h3⟩ := key
        exact ⟨by simp [o, h3], h1, h2, h3⟩

theorem run_inv (E : Engine) (cs : List Call) {s : St} {k : Option Bytes} (h : Inv s k) :
    Inv (run E s cs).2 ((run E s cs).1.foldl Spec.next k) := by
  induction cs generalizing s k with
  | nil => exact h
  | cons c cs ih => exact ih (exec_inv E h c)

theorem init_inv : Inv init none := ⟨rfl, rfl, rfl⟩

/-- **C154** After every history, a signature is checked by the engine with the key in effect and no other, and refused without asking
the engine if there is none. -/
theorem verify_exact (E : Engine) (cs : List Call) (d g : Bytes) :
    (verify E (run E init cs).2 d g).1 =
      match Spec.keyAfter (run E init cs).1 with
      | none => .noKey
      | some k => match E.verify (run E init cs).2.w.calls k d g with
        | .good => .ok
        | .bad => .badSignature
        | .error c => .engine c := by
  have h := run_inv E cs init_inv
  unfold Spec.keyAfter
  generalize (run E init cs).1.foldl Spec.next none = k at h
  obtain ⟨o, key⟩ := h
  cases k with
  | none => simp only [verify, key.1, if_true]
  | some b =>
    simp only [verify, key.1, Bool.true_eq_false, if_false, key.2.1]
    cases E.verify (run E init cs).2.w.calls b d g <;> rfl

/-- **C154** A key is accepted exactly if the engine loads it, as a public key or as a key pair. A key that is only checked is
judged in the same way and does not replace the key in effect. -/
theorem key_accepted (E : Engine) (s : St) (b : Bytes) (hb : b ≠ []) :
    ((setKey E s (some b)).1 = .ok ↔ E.initPublic (dropKey s).w.calls b = .ok ∨
      ((∃ c, E.initPublic (dropKey s).w.calls b = .error c) ∧ E.initPair ((dropKey s).w.calls + 1) b = .ok)) ∧
    ((isKeyValid E s b).1 = (setKey E s (some b)).1) := by
  have hl : ¬ b.length = 0 := fun h => hb (List.length_eq_zero_iff.mp h)
  have hc : (dropKey s).w.calls = s.w.calls := by
    unfold dropKey World.release
    split
    · simp only; split <;> rfl
    · rfl
  simp only [setKey, isKeyValid, if_neg hl, hc]
  unfold loadKey
  simp only [hc]
  cases h1 : E.initPublic s.w.calls b with
  | ok => simp
  | notEc => simp
  | error c => cases h2 : E.initPair (s.w.calls + 1) b <;> simp

/-- **C154** After every history the engine holds the key in effect and no other key, no key was used or released after its release,
and releasing the instance leaves nothing. -/
theorem keys_released_once (E : Engine) (cs : List Call) :
    let s := (run E init cs).2
    s.w.misuse = false ∧ s.w.live.length = (if (Spec.keyAfter (run E init cs).1).isSome then 1 else 0) ∧
    (release s).w.live = [] ∧ (release s).w.misuse = false := by
  have h := run_inv E cs init_inv
  unfold Spec.keyAfter
  generalize (run E init cs).1.foldl Spec.next none = k at h
  generalize (run E init cs).2 = s at h
  obtain ⟨o, key⟩ := h
  cases k with
  | none => simp [release, key.1, key.2, o]
  | some b => simp [release, key.1, key.2.2, o, World.release]

/-- An engine for which every key loads and only the digest itself is a signature of it. -/
def sample : Engine := ⟨fun _ _ => .ok, fun _ _ => .ok, fun _ _ d g => if d = g then .good else .bad⟩

/-- **C154** Limit of the claim, which ends with the release of the instance: the release does not record that the key is gone. A later check uses the released key, and a second release
releases it again. -/
theorem released_not_recorded :
    let s := release (run sample init [.setKey [1]]).2
    (verify sample s [5] [5]).1 = .ok ∧ (verify sample s [5] [5]).2.w.misuse = true ∧ (release s).w.misuse = true := by
  decide

/-- A key is set, its replacement fails: no key is left. -/
example : (run ⟨fun n _ => if n = 2 then .notEc else .ok, fun _ _ => .ok, sample.verify⟩ init
    [.setKey [1], .verify [5] [5], .setKey [2], .verify [5] [5]]).1.map Prod.snd = [.ok, .ok, .invalidKey, .noKey] := by decide

end Verif.SigVerEcc
