import Verif.PeriodicTask.Spec
/-! Model of `core/system/periodic_task.c`. Each handler is given by what `get_next_execution` and `platform_get_timeout_remaining` say
about it. A NULL list is not modelled. -/
namespace Verif.PeriodicTask
open Spec (Entry)

/-- Results. -/
inductive Result where
  /-- handler `i` was executed after a sleep of `w` milliseconds, none if `w` is 0 -/
  | ran (i w : Nat)
  | clock (code : Int)
  | noHandlers
  | invalidArgument
deriving DecidableEq, Repr

/-- The loop of `periodic_task_execute_next_handler`, periodic_task.c:56-77: index, `wait_time` and `next`. -/
def loop : List Entry → Nat → Nat → Option Nat → Except Int (Nat × Option Nat)
  | [], _, w, n => .ok (w, n)
  | .absent :: t, i, w, n => loop t (i + 1) w n
  | .clockError c :: _, _, _, _ => .error c
  | .due ms :: t, i, w, n => if ms < w then loop t (i + 1) ms (some i) else loop t (i + 1) w n
  | .ready :: t, i, w, n => if w ≠ 0 then loop t (i + 1) 0 (some i) else loop t (i + 1) w n

/-- `periodic_task_execute_next_handler`, periodic_task.c:44-90. -/
def executeNext (l : List Entry) : Result :=
  if l.length = 0 then .invalidArgument
  else match loop l 0 0xffffffff none with
    | .error c => .clock c
    | .ok (_, none) => .noHandlers
    | .ok (w, some i) => .ran i w

/-- `periodic_task_prepare_handlers`, periodic_task.c:15-27: the handlers that are prepared, in order; an entry is absent, without
preparation or with it. -/
def prepared : List (Option Bool) → Nat → List Nat
  | [], _ => []
  | some true :: t, i => i :: prepared t (i + 1)
  | _ :: t, i => prepared t (i + 1)

end Verif.PeriodicTask
