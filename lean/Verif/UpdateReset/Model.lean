import Verif.UpdateReset.Spec
/-! Model of `firmware_update_handler_execute` (`core/firmware/firmware_update_handler.c`) and `impactful_update_handler_execute`
(`core/firmware/impactful_update_handler.c`). The update itself and the impact checks are given by their results. Statuses are 32-bit
values as natural numbers. Locks and log entries are not modelled. -/
namespace Verif.UpdateReset

/-- `UPDATE_STATUS_SUCCESS_NO_RESET`, firmware_update.h:80. -/
def noReset : Nat := 34

/-- The actions, firmware_update_handler.h:19-21; `other` is any other value. -/
inductive Action where
  | run (execute : Bool)
  | prepStaging
  | writeStaging
  | other
deriving DecidableEq, Repr

/-- Results of the other parties during one event: the status of the action, the last status value notified by it (`none`: it notified
nothing), the result of `reset_authorization` and that of `is_update_not_impactful`. -/
structure Answers where
  status : Nat
  notified : Option Nat
  resetAuth : Nat
  notImpactful : Nat
deriving DecidableEq, Repr

/-- The update status, the reset flag of the task, and whether an impactful update is authorized. -/
structure St where
  status : Nat
  reset : Bool
  authorized : Bool
deriving DecidableEq, Repr

/-- `(status & 0xffffff) << 8`, firmware_update_handler.c:278, 459. -/
def shifted (code : Nat) : Nat := (code &&& 0xffffff) <<< 8

/-- `firmware_update_handler_status_change` during the action, firmware_update_handler.c:13-20: the last notification counts. -/
def notify (s : St) (a : Answers) : St := match a.notified with
  | none => s
  | some v => { s with status := shifted 0 ||| v }

/-- `firmware_update_handler_execute`, firmware_update_handler.c:208-282; `noSelf` is `FIRMWARE_UPDATE_DISABLE_SELF_RESET`. -/
def execute (noSelf : Bool) (s : St) (act : Action) (a : Answers) : St :=
  match act with
  | .other => s
  | act =>
    let s := notify s a
    if a.status = 0 then
      let (reset, value) := match act with
        | .run x => (x, if x = false then noReset else 0)
        | _ => (s.reset, 0)
      if noSelf = true ∧ reset = true then { s with reset := false, status := noReset }
      else { s with reset := reset, status := value }
    else { s with status := s.status ||| shifted a.status }

/-- `impactful_update_handler_execute`, impactful_update_handler.c:85-129. -/
def impactfulExecute (noSelf : Bool) (s : St) (act : Action) (a : Answers) : St :=
  let s := execute noSelf s act a
  match act with
  | .run _ =>
    if s.status = 0 ∨ s.status = noReset then
      let now := s.status
      let s := if a.resetAuth = 0 then { s with authorized := false } else s
      if now = 0 then
        if a.notImpactful ≠ 0 then { s with status := shifted a.notImpactful ||| noReset, reset := false } else s
      else s
    else s
  | _ => s

end Verif.UpdateReset
