import Verif.Common.Bytes
/-! The task that handles events, `core/system/event_task.c` and `projects/freertos/event_task_freertos.c`: any number of tasks submit events, one task executes them. The steps are split where another task can run in between. -/
namespace Verif.EventTask

/-- What is handed over in `struct event_task_context`, event_task.h:24-28. -/
structure Event where
  action : Nat
  data : Bytes
  deriving DecidableEq, Repr

/-- A call of `event_task_submit_event`, event_task.c:72-107: the number of the handler in the list of the task (`none` for one that is not in the list) and the event. -/
structure Call where
  handler : Option Nat
  event : Event
  deriving DecidableEq, Repr

/-- Where a submitting task is. -/
inductive Phase
  | idle
  /-- It got the context and holds the lock, event_task.c:88. -/
  | got (c : Call)
  /-- The context is filled, event_task.c:103. -/
  | filled (c : Call)
  /-- `notify` released the lock, event_task_freertos.c:83. -/
  | unlocked (c : Call)
  deriving DecidableEq, Repr

/-- Where the event task is, event_task_freertos.c:186-225. -/
inductive Task
  /-- It waits for its start, 191. -/
  | boot
  /-- It prepares the handlers, 193-198. -/
  | starting
  /-- It waits for a notification, 203. -/
  | waiting
  /-- It got a notification, 205. -/
  | woken
  /-- The handler is running, 208-209. -/
  | running
  /-- The handler has returned, 212-221. -/
  | done
  deriving DecidableEq, Repr

/-- The shared state, event_task_freertos.h, and the state of all tasks. `running` is `none` for -1. `accepted` and `executed` record the events: those with a handler for which `running` was set and those with which a handler was run. -/
structure State where
  lock : Option Nat
  notifying : Bool
  running : Option Nat
  context : Event
  notified : Bool
  task : Task
  phase : Nat → Phase
  accepted : List (Nat × Event)
  executed : List (Nat × Event)

/-- Results of a step of a submitting task that ends its call. -/
inductive Result
  | ok
  | busy
  | tooMuchData
  | unknownHandler
  deriving DecidableEq, Repr

/-- Steps. `submit` ends a wait for the lock. -/
inductive Step
  | submit (i : Nat) (c : Call)
  | fill (i : Nat)
  | notify (i : Nat)
  | give (i : Nat)
  | start
  | take
  | ready
  | run
  | finish
  | clear
  deriving DecidableEq, Repr

/-- Another phase for one task. -/
def setPhase (s : State) (i : Nat) (p : Phase) : State := { s with phase := fun j => if j = i then p else s.phase j }

/-- After initialisation, event_task_freertos.c:150-163: `running` is 0 and not -1, so that no event is taken before the start. The task is allocated. -/
def init : State :=
  { lock := none, notifying := false, running := some 0, context := ⟨0, []⟩, notified := false, task := .boot, phase := fun _ => .idle, accepted := [], executed := [] }

/-- The maximum length of the data, event_task.h:19. -/
def maxData : Nat := 4096

/-- One step; `none` if it is not possible. `num` is the number of handlers. -/
def step (num : Nat) (s : State) : Step → Option (State × Option Result)
  -- event_task.c:79-87 and event_task_freertos.c:42-58
  | .submit i c =>
    if s.phase i ≠ .idle then none
    else if c.event.data.length > maxData then some (s, some .tooMuchData)
    else if s.lock ≠ none then none
    else if s.notifying = false ∧ s.running = none then
      some (setPhase { s with lock := some i, notifying := true } i (.got c), none)
    else some (s, some .busy)
  -- event_task.c:94-101
  | .fill i => match s.phase i with
    | .got c => some (setPhase { s with context := c.event } i (.filled c), none)
    | _ => none
  -- event_task_freertos.c:71-83, where `running` is -1 since the caller holds the lock; the list is searched by `event_task_find_handler`, event_task.c:39-57
  | .notify i => match s.phase i with
    | .filled c =>
      let s := match c.handler with
        | some k => if k < num then { s with running := some k, accepted := s.accepted ++ [(k, s.context)] } else s
        | none => s
      some (setPhase { s with notifying := false, lock := none } i (.unlocked c), none)
    | _ => none
  -- event_task_freertos.c:84-87
  | .give i => match s.phase i with
    | .unlocked c =>
      let s := if s.running.isSome then { s with notified := true } else s
      some (setPhase s i .idle, some (match c.handler with
        | some k => if k < num then .ok else .unknownHandler
        | none => .unknownHandler))
    | _ => none
  -- `event_task_freertos_start`, event_task_freertos.c:300-305
  | .start => some ({ s with notified := true }, none)
  -- ulTaskNotifyTake, event_task_freertos.c:191 and 203
  | .take => if s.notified then match s.task with
      | .boot => some ({ s with notified := false, task := .starting }, none)
      | .waiting => some ({ s with notified := false, task := .woken }, none)
      | _ => none
    else none
  -- event_task_freertos.c:193-199
  | .ready => if s.task = .starting ∧ s.lock = none then some ({ s with running := none, task := .waiting }, none) else none
  -- event_task_freertos.c:205-210
  | .run => if s.task = .woken then match s.running with
      | some k => if k < num then some ({ s with task := .running, executed := s.executed ++ [(k, s.context)] }, none) else some ({ s with task := .done }, none)
      | none => some ({ s with task := .done }, none)
    else none
  -- the handler returns; a reset of the system is left out, event_task_freertos.c:212-218
  | .finish => if s.task = .running then some ({ s with task := .done }, none) else none
  -- event_task_freertos.c:220-223
  | .clear => if s.task = .done ∧ s.lock = none then some ({ s with running := none, task := .waiting }, none) else none

/-- A schedule; `none` if a step was not possible. -/
def runAll (num : Nat) : State → List Step → Option State
  | s, [] => some s
  | s, l :: ls => match step num s l with
    | some (s', _) => runAll num s' ls
    | none => none

end Verif.EventTask
