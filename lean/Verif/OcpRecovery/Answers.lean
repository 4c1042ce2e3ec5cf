import Verif.OcpRecovery.Cases
/-! The answers about capabilities and about what was written. -/
namespace Verif.OcpRecovery

/-- What a host learns from the answer about capabilities: OCP Secure Firmware Recovery, section 9.2; the bits are those of ocp_recovery.h:61-73. -/
structure Capable (env : Env) (d : Bytes) : Prop where
  length : d.length = 15
  magic : d.take 8 = "OCP RECV".toList.map (fun c => UInt8.ofNat c.toNat)
  version : d.getD 8 0 = 1 ∧ d.getD 9 0 = 0
  identification : (leNat ((d.drop 10).take 2)).testBit 0 = true
  forced : (leNat ((d.drop 10).take 2)).testBit 1 = env.hasForced
  management : (leNat ((d.drop 10).take 2)).testBit 2 = env.hasMgmt
  reset : (leNat ((d.drop 10).take 2)).testBit 3 = env.hasReset
  status : (leNat ((d.drop 10).take 2)).testBit 4 = true
  memory : (leNat ((d.drop 10).take 2)).testBit 5 = env.cms.isSome
  push : (leNat ((d.drop 10).take 2)).testBit 7 = (env.cms.isSome && env.hasActivate)
  /-- No local image, no isolation, no hardware status, no vendor command, nothing reserved. -/
  others : ∀ i, i = 6 ∨ 8 ≤ i → (leNat ((d.drop 10).take 2)).testBit i = false
  regions : d.getD 12 0 = UInt8.ofNat env.count
  /-- 2^16 microseconds, no heartbeat. -/
  response : d.getD 13 0 = 16 ∧ d.getD 14 0 = 0

theorem testBit_high {n : Nat} (h : n < 256) : ∀ i, i = 6 ∨ 8 ≤ i → n.testBit 6 = false → n.testBit i = false := by
  intro i hi h6
  rcases hi with rfl | hi
  · exact h6
  · exact Nat.testBit_lt_two_pow (Nat.lt_of_lt_of_le h (by simpa using Nat.pow_le_pow_right (n := 2) (by omega) hi))

/-- The answer announces exactly what the device supports. -/
theorem capabilities_exact (env : Env) : Capable env (readProtCap env) := by
  have hlt : capabilities env < 256 := by
    unfold capabilities
    repeat' split
    all_goals omega
  have e : leNat (((readProtCap env).drop 10).take 2) = capabilities env := by
    show leNat (le 2 (capabilities env)) = _
    rw [le, leNat_toLE]; exact Nat.mod_eq_of_lt (by omega)
  refine ⟨by simp [readProtCap, le, toLE], rfl, ⟨rfl, rfl⟩, ?_, ?_, ?_, ?_, ?_, ?_, ?_, ?_, rfl, ⟨rfl, rfl⟩⟩
  all_goals rw [e]
  case refine_8 => 
    intro i hi
    refine testBit_high hlt i hi ?_
    unfold capabilities
    cases env.hasReset <;> cases env.hasMgmt <;> cases env.hasForced <;> cases env.cms.isSome <;> cases env.hasActivate <;> decide
  all_goals
    unfold capabilities
    cases env.hasReset <;> cases env.hasMgmt <;> cases env.hasForced <;> cases env.cms.isSome <;> cases env.hasActivate <;> decide

/-- Reading back a command after it was accepted. -/
def readBack (env : Env) (cmd : UInt8) (w : World) : Option (Except Nat Bytes) := (readRequest env (startCommand cmd w).2).map Prod.fst

/-- A control of the recovery that was accepted is read back without the activation, so that a host that writes back what it reads does not activate again. -/
theorem recovery_read_back (env : Env) (a b c : UInt8) (w w' : World) (n : Nat) (ha : w.ctl.active = 0x26) (h : writeRequest env [a, b, c] w = some (.ok n, w')) :
    readBack env 0x26 w' = some (.ok [a, b, 0]) := by
  have key : ∀ (st : Status) (v : World), writeRecCtrl env ⟨a, b, c⟩ w = (st, v) → st = .ok n → v.ctl.recCtrl = ⟨a, b, 0⟩ := by
    intro st v hv hs
    unfold writeRecCtrl at hv
    repeat' split at hv
    all_goals
      injection hv with h1 h2
      subst h2
      first
      | rfl
      | (rw [hs] at h1; cases h1)
  unfold writeRequest writeSwitch at h
  rw [ha] at h
  simp only [sized, List.length_cons, List.length_nil, Nat.reduceAdd, if_true, List.getD_cons_zero, List.getD_cons_succ, Option.map_some,
    show ¬ ((0x26 : UInt8) = 0) by decide, show ¬ ((0x26 : UInt8) = 0x25) by decide, if_false] at h
  injection h with h
  injection h with h1 h2
  have : (writeRecCtrl env ⟨a, b, c⟩ w).2.ctl.recCtrl = ⟨a, b, 0⟩ := key _ _ (Prod.mk.eta).symm h1
  subst h2
  have e : (writeFailure (writeRecCtrl env ⟨a, b, c⟩ w)) = (writeRecCtrl env ⟨a, b, c⟩ w).2 := by unfold writeFailure; rw [h1]
  rw [e]
  simp only [readBack, startCommand, readRequest, readSwitch, inactive, this, show ¬ ((0x26 : UInt8) < 0x22 ∨ (0x26 : UInt8) > 0x2c) by decide, if_false, show ¬ ((0x26 : UInt8) = 0) by decide,
    show ¬ ((0x26 : UInt8) = 0x22) by decide, show ¬ ((0x26 : UInt8) = 0x23) by decide, show ¬ ((0x26 : UInt8) = 0x24) by decide, show ¬ ((0x26 : UInt8) = 0x25) by decide, if_true, Option.map_some]

/-- A reset that was accepted is read back without the request of the reset. -/
theorem reset_read_back (env : Env) (a b c : UInt8) (w w' : World) (n : Nat) (ha : w.ctl.active = 0x25) (h : writeRequest env [a, b, c] w = some (.ok n, w')) :
    readBack env 0x25 w' = some (.ok [0, b, c]) := by
  have key : ∀ (st : Status) (v : World), writeReset env ⟨a, b, c⟩ w = (st, v) → st = .ok n → v.ctl.reset = ⟨0, b, c⟩ := by
    intro st v hv hs
    unfold writeReset at hv
    repeat' split at hv
    all_goals
      injection hv with h1 h2
      subst h2
      first
      | rfl
      | (rw [hs] at h1; cases h1)
  unfold writeRequest writeSwitch at h
  rw [ha] at h
  simp only [sized, List.length_cons, List.length_nil, Nat.reduceAdd, if_true, List.getD_cons_zero, List.getD_cons_succ, Option.map_some,
    show ¬ ((0x25 : UInt8) = 0) by decide, if_false] at h
  injection h with h
  injection h with h1 h2
  have : (writeReset env ⟨a, b, c⟩ w).2.ctl.reset = ⟨0, b, c⟩ := key _ _ (Prod.mk.eta).symm h1
  subst h2
  have e : (writeFailure (writeReset env ⟨a, b, c⟩ w)) = (writeReset env ⟨a, b, c⟩ w).2 := by unfold writeFailure; rw [h1]
  rw [e]
  simp only [readBack, startCommand, readRequest, readSwitch, inactive, this, show ¬ ((0x25 : UInt8) < 0x22 ∨ (0x25 : UInt8) > 0x2c) by decide, if_false, show ¬ ((0x25 : UInt8) = 0) by decide,
    show ¬ ((0x25 : UInt8) = 0x22) by decide, show ¬ ((0x25 : UInt8) = 0x23) by decide, show ¬ ((0x25 : UInt8) = 0x24) by decide, if_true, Option.map_some]

/-- The hypotheses are met. -/
example : ((writeRequest four [1, 1, 0x0f] (startCommand 0x26 ready).2).map fun r => (match r.1 with | .ok n => n == 0 | _ => false, r.2.ctl.recCtrl.image)) = some (true, 1) ∧
    ((writeRequest four [1, 0, 0] (startCommand 0x25 ready).2).map fun r => match r.1 with | .ok n => n == 0 | _ => false) = some true := by decide +kernel

end Verif.OcpRecovery
