import Verif.ErrorState.Spec
/-!
Model of `core/fips`: `cmd_channel_error_state.c`, `cmd_channel_error_state_with_exit.c`, `error_state_entry_group.c`,
`error_state_exit_group.c` and `periodic_self_test_handler.c`. Receiving and the times of the next test are not modelled;
log entries are only counted. NULL arguments are not modelled.
-/
namespace Verif.ErrorState
open Verif Spec

/-- `state->drop_tx_packets` of every guarded channel. -/
abbrev Drops := Nat → Bool

/-- `drop_tx_packets` after initialisation, cmd_channel_error_state.c:80. -/
def initial : Drops := fun _ => false

def setDrop (d : Drops) (i : Nat) (v : Bool) : Drops := fun j => if j = i then v else d j

/-- `cmd_channel_error_state_send_packet`, cmd_channel_error_state.c:23-41: what is sent and what is returned. -/
def send (d : Drops) (ch : Nat) (packet : Bytes) (wire : Int) : Option (Nat × Bytes) × Int :=
  if !d ch then (some (ch, packet), wire) else (none, 0)

mutual
/-- `enter_error_state` of a handler: `cmd_channel_error_state_enter_error_state`, cmd_channel_error_state.c:43-56, or
`error_state_entry_group_enter_error_state`, error_state_entry_group.c:9-22. -/
def enter (d : Drops) : Entry → Drops
  | .channel i => setDrop d i true
  | .group hs => enterAll d hs
  | .other => d
/-- The loop over the handlers, error_state_entry_group.c:19-21. -/
def enterAll (d : Drops) : List Entry → Drops
  | [] => d
  | h :: hs => enterAll (enter d h) hs
end

mutual
/-- `exit_error_state` of a handler: `cmd_channel_error_state_with_exit_exit_error_state`, cmd_channel_error_state_with_exit.c:10-23,
or `error_state_exit_group_exit_error_state`, error_state_exit_group.c:9-27. -/
def exit (d : Drops) : Exit → Drops × Int
  | .channel i => (setDrop d i false, 0)
  | .group hs => exitAll d hs
  | .other s => (d, s)
/-- The loop over the handlers, error_state_exit_group.c:19-26. -/
def exitAll (d : Drops) : List Exit → Drops × Int
  | [] => (d, 0)
  | h :: hs => match exit d h with
    | (d', s) => if s ≠ 0 then (d', s) else exitAll d' hs
end

/-- The loop of `periodic_self_test_handler_execute`, periodic_self_test_handler.c:53-69: the flags, and how many tests were run. -/
def runTests (e : Entry) (d : Drops) : List Int → Drops × Nat
  | [] => (d, 0)
  | r :: rs => if r ≠ 0 then (enter d e, 1) else
    let q := runTests e d rs
    (q.1, q.2 + 1)

/-- What can be observed of an event. -/
inductive Out where
  /-- A packet was given to the underlying channel or not, and the status of the call. -/
  | sent (packet : Option (Nat × Bytes)) (status : Int)
  /-- The number of tests that were run. -/
  | tested (n : Nat)
  /-- The error state was entered. -/
  | entered
  /-- The status of the request to leave it. -/
  | exited (status : Int)
deriving DecidableEq, Repr

/-- One call. -/
def step (d : Drops) : Event → Drops × Out
  | .send ch p w => (d, .sent (send d ch p w).1 (send d ch p w).2)
  | .tests e rs => ((runTests e d rs).1, .tested (runTests e d rs).2)
  | .enter e => (enter d e, .entered)
  | .exit e => ((exit d e).1, .exited (exit d e).2)

/-- A history of calls. -/
def run (d : Drops) : List Event → Drops × List Out
  | [] => (d, [])
  | e :: es => ((run (step d e).1 es).1, (step d e).2 :: (run (step d e).1 es).2)

/-! ### Two tasks -/

/-- The sending task is before the test of `drop_tx_packets`, line 33, before the call of the underlying channel, line 34, or done. -/
inductive Pc where
  | check | transmit | done
deriving DecidableEq, Repr

/-- Steps of the sender of channel `ch`, and of another task that enters the error state. The trace of the wire is `true` for a
packet that is sent and `false` for the moment at which the error state is entered. -/
inductive Sched where
  | sender | entering (e : Entry)

/-- One step of one task. Each step is atomic. -/
def stepTask (ch : Nat) : Drops × Pc × List Bool → Sched → Drops × Pc × List Bool
  | (d, .check, t), .sender => (d, if !d ch then .transmit else .done, t)
  | (d, .transmit, t), .sender => (d, .done, t ++ [true])
  | (d, .done, t), .sender => (d, .check, t)
  | (d, pc, t), .entering e => (enter d e, pc, t ++ [false])

/-- A schedule; the sender starts the next packet when it is done. -/
def runTasks (ch : Nat) (s : Drops × Pc × List Bool) (ss : List Sched) : Drops × Pc × List Bool := ss.foldl (stepTask ch) s

end Verif.ErrorState
