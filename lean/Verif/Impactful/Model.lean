import Verif.Attest.Locks
/-! Updates that disturb the system need an authorization, `core/firmware/impactful_update.c`. -/
namespace Verif.Impactful

/-! ### The decision -/

/-- One check as a call sees it: the results of `is_not_impactful` and `is_authorization_allowed` (0 is yes, anything else an error code) and whether updates were authorized when the call looked (under the lock). -/
structure Check where
  notImpactful : Nat
  authAllowed : Nat
  authorized : Bool
  deriving DecidableEq, Repr

/-- `impactful_update_is_update_not_impactful`, impactful_update.c:12-30. -/
def isNotImpactful : List Check → Nat
  | [] => 0
  | c :: cs => if c.notImpactful ≠ 0 then c.notImpactful else isNotImpactful cs

/-- The loop of `impactful_update_is_update_allowed`, impactful_update.c:43-76. Logging is left out. -/
def allowedLoop (allowed : Nat) : List Check → Nat
  | [] => allowed
  | c :: cs =>
    if c.notImpactful ≠ 0 then
      if c.authAllowed ≠ 0 then c.authAllowed
      else allowedLoop (if c.authorized then allowed else c.notImpactful) cs
    else allowedLoop allowed cs

/-- `impactful_update_is_update_allowed`, impactful_update.c:32-77. -/
def isAllowed (cs : List Check) : Nat := allowedLoop 0 cs

/-! ### The authorization and its timer -/

/-- The state of the authorization and of the calls in progress. `timed` says whether the last authorization had a limit. `armed` and `off` are the timer: it runs, and its `disarm` flag. `expired` counts expirations whose callback has not
begun, `resets` the calls of `impactful_update_reset_authorization` between lines 121 and 124, `auth` is the limit of a call of `impactful_update_authorize_update` between lines 97 and 102, which holds the lock. -/
structure State where
  authorized : Bool
  timed : Bool
  armed : Bool
  off : Bool
  expired : Nat
  resets : Nat
  auth : Option Nat
  deriving DecidableEq, Repr

/-- The steps. The timer is that of `projects/freertos/platform.c`. -/
inductive Step
  /-- impactful_update.c:89-97 with success: the timer is armed (platform.c:171-186) or, for 0, disarmed (platform.c:188-202). -/
  | arm (ms : Nat)
  /-- impactful_update.c:89-107 if the timer fails, which leaves it as it was. -/
  | armFail
  /-- impactful_update.c:99-105. -/
  | set
  /-- impactful_update.c:121. -/
  | disarm
  /-- impactful_update.c:123-125. -/
  | clear
  /-- The timer runs out: `platform_timer_notification` begins, platform.c:132. -/
  | expire
  /-- It finds that the timer was not disarmed and calls `impactful_update_expired_authorization` up to impactful_update.c:121; platform.c:139-141. -/
  | callback
  /-- It finds that the timer was disarmed, platform.c:139. -/
  | skip
  deriving DecidableEq, Repr

/-- One step; `none` if it is not possible. -/
def step (s : State) : Step → Option State
  | .arm ms => if s.auth = none then
      some (if ms ≠ 0 then { s with armed := true, off := false, auth := some ms } else { s with armed := false, off := true, auth := some ms })
    else none
  | .armFail => if s.auth = none then some s else none
  | .set => match s.auth with
    | some ms => some { s with authorized := true, timed := ms ≠ 0, auth := none }
    | none => none
  | .disarm => some { s with armed := false, off := true, resets := s.resets + 1 }
  | .clear => if s.auth = none ∧ s.resets > 0 then some { s with authorized := false, resets := s.resets - 1 } else none
  | .expire => if s.armed then some { s with armed := false, expired := s.expired + 1 } else none
  | .callback => if s.expired > 0 ∧ s.off = false then some { s with expired := s.expired - 1, armed := false, off := true, resets := s.resets + 1 } else none
  | .skip => if s.expired > 0 ∧ s.off = true then some { s with expired := s.expired - 1 } else none

/-- After `impactful_update_init_state`, impactful_update.c:184-207. -/
def init : State := { authorized := false, timed := false, armed := false, off := true, expired := 0, resets := 0, auth := none }

/-- A schedule; `none` if a step was not possible. -/
def run : State → List Step → Option State
  | s, [] => some s
  | s, l :: ls => (step s l).bind (fun t => run t ls)

/-! ### The locks -/

open Verif.Attest (Act)

/-- `disarm_lock` of the timer; it is recursive, so that the second acquisition by the callback is left out. -/
def timerLock : Nat := 0
/-- `update->state->lock`. -/
def stateLock : Nat := 1

/-- `impactful_update_authorize_update`, impactful_update.c:89, 105, and platform.c:177, 183 or 194, 199 in between. -/
def authorizeActs : List Act := [.acquire stateLock, .acquire timerLock, .release timerLock, .release stateLock]
/-- `impactful_update_reset_authorization`, platform.c:194, 199 and impactful_update.c:123, 125. -/
def resetActs : List Act := [.acquire timerLock, .release timerLock, .acquire stateLock, .release stateLock]
/-- The timer runs out: platform.c:137 and 143 around impactful_update.c:123, 125. -/
def expireActs : List Act := [.acquire timerLock, .acquire stateLock, .release stateLock, .release timerLock]
/-- One check of `impactful_update_is_update_allowed`, impactful_update.c:60, 69. -/
def lookActs : List Act := [.acquire stateLock, .release stateLock]

end Verif.Impactful
