import Verif.Unlock.More
import Verif.Unlock.Rma
/-! Concrete histories: the hypotheses of the theorems are met, and where the full statements fail. -/
namespace Verif.Unlock
open CommonMath (bitAt IsFirstClear)

/-- A small device: type 2a, counters of one byte, tokens of 56 bytes, no expiry; the authority signs anything with a zero byte and one more. -/
def exCfg : Cfg where
  tok := { dataLen := 23, nonceLen := 32, sigMax := 1, bufLen := 56, validity := 0, tag := none, fmt := .tokenOnly, authHash := 0,
           sigOk := fun _ _ s => s.length == 2 && s.head? == some 0 }
  oid := [0x2a]
  counterLen := 1

theorem exCfg_wf : exCfg.WF := ⟨by decide, by decide, by decide, by decide, by decide, by decide, rfl⟩

/-- Everything works; the device is locked with counter 3 (two bits). -/
def exEnv : Env where
  tok := { now := 0, rngOk := true, rngOut := List.replicate 32 0xbb, sign := fun _ => some [0xee], timerFails := false, engineFails := false }
  memory := true
  counter := some [3]
  uuid := some [1, 2, 3]
  unlockOk := true
  lockOk := true

theorem exEnv_wf (op : Op) (h : ∀ d, op = .apply d → d.length < 2 ^ 31) : Call.WF exCfg op exEnv := by
  refine ⟨by decide, ?_, ?_, h⟩
  · intro m s hs; cases hs; decide
  · intro u hu; cases hu; decide

/-- The state at the beginning. -/
def exStart : AuthToken.St := ⟨0, List.replicate 56 0, 0⟩

/-- The token of this device. -/
def exToken : Bytes :=
  [0x06, 0x01, 0x2a, 1, 0, 1, 2, 3, 0, 0, 0, 0, 0, 0, 0, 0, 0, 0, 0, 0, 0, 1, 7] ++ List.replicate 32 0xbb ++ [0xee]

/-- The state with the token. -/
def exLive : AuthToken.St := ⟨56, exToken, 0⟩

def exGet : Call := ⟨.getToken (List.replicate 60 0), exEnv, [.issued exToken], .ok exToken⟩

set_option maxRecDepth 100000 in
theorem ex_get : step exCfg exStart exEnv (.getToken (List.replicate 60 0)) = (exLive, [.issued exToken], .ok exToken) := by decide +kernel

theorem ex_hist : Hist exCfg [exGet] exLive :=
  .call (.init rfl (by decide)) (exEnv_wf _ (fun d h => by cases h)) ex_get

set_option maxRecDepth 100000 in
/-- Not vacuous: the container of the token unlocks the device with the policy that was signed, and the token says what it should. -/
example : (step exCfg exLive exEnv (.apply (container exToken [0x11, 0x22] ++ [0, 9]))).2 = ([.unlock (container exToken [0x11, 0x22] ++ [0, 9]) true], .ok [])
    ∧ getUnlockPolicy (container exToken [0x11, 0x22] ++ [0, 9]) = .ok [0x11, 0x22] ∧ getUnlockCounter (container exToken [0x11, 0x22] ++ [0, 9]) = .ok [7]
    ∧ getNonce (container exToken [0x11, 0x22] ++ [0, 9]) = .ok (List.replicate 32 0xbb) := by decide +kernel

set_option maxRecDepth 100000 in
/-- Not vacuous: after that the same data is refused, and so it is after the device was locked again. -/
example : (step exCfg (step exCfg exLive exEnv (.apply (container exToken [] ++ [0, 9]))).1 exEnv (.apply (container exToken [] ++ [0, 9]))).2 =
      ([], .err (.auth .notValid))
    ∧ (step exCfg (step exCfg exLive exEnv .clear).1 exEnv (.apply (container exToken [] ++ [0, 9]))).2 = ([], .err (.auth .notValid)) := by decide +kernel

set_option maxRecDepth 100000 in
/-- Not vacuous: an unlocked device gives no token, and a counter without room gives none either. -/
example : (step exCfg exStart { exEnv with counter := some [7] } (.getToken (List.replicate 60 0))).2 = ([], .err .notLocked)
    ∧ (step exCfg exStart { exEnv with counter := some [0xff] } (.getToken (List.replicate 60 0))).2 = ([], .err .counterExhausted) := by decide +kernel

example : ¬ Locked [7] := by
  rintro ⟨m, h, he⟩
  have := (CommonMath.numContiguousInArray_exact [7] m).mpr h
  rw [show CommonMath.numContiguousInArray [7] = 3 by decide] at this
  omega

example : Locked [3] ∧ NextOdd [3] [7] := by
  have h : ∀ l : Bytes, IsFirstClear l (CommonMath.numContiguousInArray l) := fun l => (CommonMath.numContiguousInArray_exact l _).mp rfl
  refine ⟨⟨_, h _, by decide⟩, rfl, ?_, 3, h [7], rfl, ?_⟩
  · intro j hj
    by_cases h8 : j < 8
    · revert hj; revert j; decide +kernel
    · unfold bitAt at hj
      have : ([3] : Bytes).getD (j / 8) 0 = 0 := by
        match hk : j / 8 with
        | 0 => omega
        | k + 1 => rfl
      rw [this] at hj; simp at hj
  · intro j hj
    by_cases h8 : j < 8
    · revert hj; revert j; decide +kernel
    · unfold bitAt
      have : ∀ x : UInt8, ([x] : Bytes).getD (j / 8) 0 = 0 := by
        intro x
        match hk : j / 8 with
        | 0 => omega
        | k + 1 => rfl
      rw [this, this]

/-- What the authority signed: a length that is not the length of the token, the token, and three more bytes. -/
def exMessage : Bytes := [58, 0] ++ exToken ++ [9, 9, 1]

set_option maxRecDepth 100000 in
/-- C97, false without a condition on what the authority signs: the length of the token in the data is not compared with the token. Where it is wrong, the
policy the security manager reads lies outside the signed part: two different policies for one and the same signed message. -/
theorem policy_not_covered :
    ∃ (c : Cfg) (past : List Call) (s : AuthToken.St) (e : Env) (m s1 s2 : Bytes), c.WF ∧ Hist c past s ∧
      Call.WF c (.apply (m ++ s1)) e ∧ Call.WF c (.apply (m ++ s2)) e ∧
      (step c s e (.apply (m ++ s1))).2.1 = [.unlock (m ++ s1) true] ∧ (step c s e (.apply (m ++ s2))).2.1 = [.unlock (m ++ s2) true] ∧
      c.tok.sigOk c.tok.authHash m s1 = true ∧ c.tok.sigOk c.tok.authHash m s2 = true ∧
      getUnlockPolicy (m ++ s1) = .ok [0x55] ∧ getUnlockPolicy (m ++ s2) = .ok [0x66] := by
  refine ⟨exCfg, _, _, exEnv, exMessage, [0, 0x55], [0, 0x66], exCfg_wf, ex_hist, exEnv_wf _ ?_, exEnv_wf _ ?_, ?_⟩
  · intro d h; cases h; decide
  · intro d h; cases h; decide
  · decide +kernel

/-- An authority that signs containers only. -/
def exSign (_ : Nat) (m s : Bytes) : Bool :=
  decide (s = [0, 9] ∧
    m = container (window m 2 (leNat (window m 0 2))) (window m (4 + leNat (window m 0 2)) (leNat (window m (2 + leNat (window m 0 2)) 2))))

/-- The same device with this authority. -/
def exHonest : Cfg := { exCfg with tok := { exCfg.tok with sigOk := exSign } }

/-- Not vacuous: such an authority is honest. -/
example : Honest exHonest := by
  intro m s h
  have h := of_decide_eq_true h
  refine ⟨_, _, ?_, ?_, h.2⟩
  · have h1 := leNat_lt (window m 0 2)
    have h2 : (window m 0 2).length ≤ 2 := by rw [window_length]; omega
    have h3 : 256 ^ (window m 0 2).length ≤ 256 ^ 2 := Nat.pow_le_pow_right (by omega) h2
    rw [window_length]; omega
  · have h1 := leNat_lt (window m (2 + leNat (window m 0 2)) 2)
    have h2 : (window m (2 + leNat (window m 0 2)) 2).length ≤ 2 := by rw [window_length]; omega
    have h3 : 256 ^ (window m (2 + leNat (window m 0 2)) 2).length ≤ 256 ^ 2 := Nat.pow_le_pow_right (by omega) h2
    rw [window_length]; omega

/-! ### Return of a device -/

/-- A handler for tokens signed with two bytes. -/
def exRma : RmaCfg := { oid := [0x2a, 0x03], dice := [0xd1, 0xd2], hash := 0, sigOk := fun _ _ s => s == [5, 5], signed := true }
def exRmaEnv : RmaEnv := { uuid := some [1, 2], engineFails := false, rmaOk := true }

/-- Not vacuous: both forms of the length are accepted; another device, a missing signature and trailing data are not. -/
example : rmaApply exRma exRmaEnv (rmaBody [0x06, 2, 0x2a, 3] [1, 2] [0xd1, 0xd2] ++ [5, 5]) = (true, .ok ())
    ∧ rmaApply exRma exRmaEnv (rmaBody [0x06, 0x81, 2, 0x2a, 3] [1, 2] [0xd1, 0xd2] ++ [5, 5]) = (true, .ok ())
    ∧ rmaApply exRma exRmaEnv (rmaBody [0x06, 2, 0x2a, 3] [1, 9] [0xd1, 0xd2] ++ [5, 5]) = (false, .err .deviceMismatch)
    ∧ rmaApply exRma exRmaEnv (rmaBody [0x06, 2, 0x2a, 3] [1, 2] [0xd1, 0xd2]) = (false, .err .noSignature)
    ∧ rmaApply { exRma with signed := false } exRmaEnv (rmaBody [0x06, 2, 0x2a, 3] [1, 2] [0xd1, 0xd2] ++ [5]) = (false, .err .badTokenData)
    ∧ rmaApply { exRma with signed := false } exRmaEnv (rmaBody [0x06, 2, 0x2a, 3] [1, 2] [0xd1, 0xd2]) = (true, .ok ()) := by decide +kernel

example : IsOid [0x06, 0x81, 2, 0x2a, 3] [0x2a, 3] := .inr ⟨1, by decide, by decide, by decide, by decide⟩

end Verif.Unlock
