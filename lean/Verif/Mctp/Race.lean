import Verif.Mctp.Model
/-! The requester thread (`mctp_interface_send_request_message`) and the receiver thread (`mctp_interface_process_packet`) sharing the
response state. One step is one critical section of `response_lock`, or one access outside it. -/
namespace Verif.Mctp.Race

/-- Where the requester is, mctp_interface.c:222-304: before a request; waiting for the semaphore (278); after setting the state to idle
but before setting `response_msg` to `NULL` (298-301). -/
inductive Pc
  | idle | waiting | release
deriving DecidableEq, Repr

/-- The shared state and the two program counters. Requests are numbered; the number stands for the message tag (three bits in the code,
never repeated here) and for the response buffer of the request. -/
structure S where
  rsp : RspState := .idle
  msg : Option Nat := none              -- `response_msg`
  tag : Nat := 0                        -- `response_msg_tag`
  next : Nat := 0                       -- `next_msg_tag`
  req : Pc := .idle
  rcv : Option Nat := none              -- the response that passed the check and is about to be handled
  delivered : List (Nat × Nat) := []    -- response `t` was copied to the buffer of request `r`
  fault : Bool := false                 -- `response_msg` was `NULL` when used
deriving DecidableEq, Repr

/-- The requester sends a request, mctp_interface.c:241-262, waiting for the response or not. -/
def send (s : S) (wait : Bool) : S :=
  { s with rsp := if wait then .waiting else .pending, tag := s.next, msg := if wait then some s.next else none,
           next := s.next + 1, req := if wait then .waiting else .release }

/-- The requester is woken up by a response or by the timeout, mctp_interface.c:278-298. -/
def wake (s : S) : S := { s with rsp := .idle, req := .release }

/-- The requester gives up the response buffer, mctp_interface.c:300-301. This is not done under `response_lock`. -/
def release (s : S) : S := { s with msg := none, req := .idle }

/-- `mctp_interface_is_expected_response` for a response to request `t`, mctp_interface.c:319-363. -/
def check (s : S) (t : Nat) : S :=
  if (s.rsp = .waiting ∨ s.rsp = .pending) ∧ t = s.tag then { s with rcv := some t } else s

/-- `mctp_interface_handle_response_message` for the response that was checked, mctp_interface.c:384-417. -/
def handle (s : S) (t : Nat) : S :=
  if s.rsp = .pending then { s with rsp := .idle, rcv := none }
  else match s.msg with
    | none => { s with fault := true, rcv := none }
    | some r => { s with rsp := .success, delivered := (t, r) :: s.delivered, rcv := none }

/-- One step of either thread. -/
inductive Step : S → S → Prop
  | send (s : S) (wait : Bool) : s.req = .idle → Step s (send s wait)
  | wake (s : S) : s.req = .waiting → Step s (wake s)
  | release (s : S) : s.req = .release → Step s (release s)
  | check (s : S) (t : Nat) : s.rcv = none → Step s (check s t)
  | handle (s : S) (t : Nat) : s.rcv = some t → Step s (handle s t)

/-- The same, but the requester makes no step while a response that passed the check is waiting to be handled. -/
inductive Step' : S → S → Prop
  | send (s : S) (wait : Bool) : s.req = .idle → s.rcv = none → Step' s (send s wait)
  | wake (s : S) : s.req = .waiting → s.rcv = none → Step' s (wake s)
  | release (s : S) : s.req = .release → s.rcv = none → Step' s (release s)
  | check (s : S) (t : Nat) : s.rcv = none → Step' s (check s t)
  | handle (s : S) (t : Nat) : s.rcv = some t → Step' s (handle s t)

/-- Reachable from the initial state by steps of `R`. -/
inductive Reach (R : S → S → Prop) : S → Prop
  | init : Reach R {}
  | step (s s' : S) : Reach R s → R s s' → Reach R s'

/-- Nothing went wrong: no `NULL` was used and every response went to the request it answers. -/
def Good (s : S) : Prop := s.fault = false ∧ ∀ p ∈ s.delivered, p.1 = p.2

end Verif.Mctp.Race
