/-! The intrusion managers, `core/intrusion/intrusion_manager.c` and `core/intrusion/intrusion_manager_async.c`. Every operation runs under the lock of the manager, so a history is a sequence of operations. -/
namespace Verif.Intrusion

/-- Calls to the handler of the persistent intrusion state, intrusion_state.h:20-26 and 28-34. -/
inductive Call
  | set
  | clear
  deriving DecidableEq, Repr

/-- The manager. `data` is the value of the event data that the attestation log shows (0: no intrusion, 1: intrusion, 2: unknown, intrusion_manager.h:19-23), `measured` the value whose hash is in the PCR measurement,
`calls` the calls to the intrusion state. The debug log is left out. -/
structure Mgr where
  data : Nat
  measured : Option Nat
  calls : List Call
  deriving DecidableEq, Repr

/-- `intrusion_manager_update_measurement`, intrusion_manager.c:23-40. `pcr` is the status of the update of the measurement. -/
def update (m : Mgr) (value : Nat) (force : Bool) (pcr : Nat) : Mgr :=
  { m with
    measured := if pcr = 0 then some value else m.measured
    data := if pcr = 0 ∨ force then value else m.data }

/-- What `check` of the intrusion state returns, intrusion_state.h:36-45. -/
inductive Check
  | noIntrusion
  | intrusion
  | deferred
  | error (code : Nat)
  deriving DecidableEq, Repr

/-- The operations with the results of what they call. -/
inductive Op
  /-- An intrusion was detected. -/
  | handle (pcr set : Nat)
  /-- Clear the intrusion state. `active` is the result of `is_active`. -/
  | reset (active : Except Nat Nat) (clear pcr : Nat)
  /-- Refresh the state. -/
  | check (allowDeferred : Bool) (result : Check) (pcr : Nat)
  /-- The notifications for the manager with background checks. -/
  | onIntrusion (pcr : Nat)
  | onNoIntrusion (pcr : Nat)
  | onError (pcr : Nat)

/-- The error code INTRUSION_STATE_CHECK_DEFERRED. -/
def deferredCode : Nat := 5
/-- The error code INTRUSION_MANAGER_INTRUSION_STILL_ACTIVE. -/
def stillActive : Nat := 6

/-- `intrusion_manager_handle_intrusion`, intrusion_manager.c:42-63. -/
def handle (m : Mgr) (pcr set : Nat) : Nat × Mgr :=
  let m := update m 1 true pcr
  let m := { m with calls := m.calls ++ [.set] }
  (if pcr = 0 then set else pcr, m)

/-- `intrusion_manager_reset_intrusion`, intrusion_manager.c:65-95. -/
def reset (m : Mgr) (active : Except Nat Nat) (clear pcr : Nat) : Nat × Mgr :=
  match active with
  | .error e => (e, m)
  | .ok a =>
    if a ≠ 0 then (stillActive, m)
    else
      let m := { m with calls := m.calls ++ [.clear] }
      if clear ≠ 0 then (clear, m) else (pcr, update m 0 false pcr)

/-- `intrusion_manager_update_intrusion_state`, intrusion_manager.c:107-160. -/
def check (m : Mgr) (allowDeferred : Bool) (result : Check) (pcr : Nat) : Nat × Mgr :=
  match result with
  | .noIntrusion => (pcr, update m 0 false pcr)
  | .intrusion => (pcr, update m 1 true pcr)
  | .deferred => if allowDeferred then (0, m) else (deferredCode, update m 2 true pcr)
  | .error e => (e, update m 2 true pcr)

/-- One operation; the notifications at intrusion_manager_async.c:26-59 have no result. -/
def step (m : Mgr) : Op → Nat × Mgr
  | .handle pcr set => handle m pcr set
  | .reset active clear pcr => reset m active clear pcr
  | .check allow result pcr => check m allow result pcr
  | .onIntrusion pcr => (0, update m 1 true pcr)
  | .onNoIntrusion pcr => (0, update m 0 false pcr)
  | .onError pcr => (0, update m 2 true pcr)

/-- The manager after a successful `intrusion_manager_init`, intrusion_manager.c:178-223. -/
def init : Mgr := update { data := 0, measured := none, calls := [] } 2 true 0

/-- A history. -/
def run : Mgr → List Op → Mgr
  | m, [] => m
  | m, o :: os => run (step m o).2 os

end Verif.Intrusion
