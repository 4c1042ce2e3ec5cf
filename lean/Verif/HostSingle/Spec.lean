import Verif.Common.Bytes
/-! What the user of a host with one filtered flash (and maybe a backup device) sees: the read-only device in use, the one to be
used next, and the events at which the change is made. Devices are 0 and 1. -/
namespace Verif.HostSingle.Spec

/-- The selection. -/
structure Sel where
  current : Nat
  next : Nat
  events : Nat
deriving DecidableEq, Repr

/-- An event of the host. -/
inductive Event where
  | reset
  | runTime
deriving DecidableEq, Repr

/-- host_state_manager.h:64-81: 0 is only at power-on, 1 also at resets, 2 also at run-time verification, 3 at all events. -/
def allowed (events : Nat) : Event → Bool
  | .reset => events = 1 ∨ events = 3
  | .runTime => events = 2 ∨ events = 3

/-- What a call means. -/
inductive Call where
  /-- a new configuration; absent parts stay -/
  | config (current next events : Option Nat)
  /-- start of the verification at an event -/
  | start (e : Event)
  /-- end of the verification -/
  | finish
  /-- power-on -/
  | powerOn
  /-- bypass mode, with the other device if `swap` -/
  | bypass (swap : Bool)
deriving Repr

/-- The selection changes only by request, at power-on and at events that are allowed. -/
def Sel.apply (s : Sel) : Call → Sel
  | .config c n e => ⟨c.getD s.current, n.getD s.next, e.getD s.events⟩
  | .start e => if allowed s.events e then { s with current := s.next } else s
  | .finish => s
  | .powerOn => { s with current := s.next }
  | .bypass swap => if swap then { s with current := 1 - s.current, next := 1 - s.current } else s

end Verif.HostSingle.Spec
