import Verif.Common.Bytes
/-! Command channels: `core/cmd_interface/cmd_channel.c`. Null arguments and log entries are not modelled. -/
namespace Verif.CmdChannel

/-- States of a received packet, cmd_channel.h (`CMD_VALID_PACKET` ...). -/
inductive PktState | valid | overflow | nack | noResponse | rxError
  deriving DecidableEq, Repr

/-- `struct cmd_packet`, what of it matters to the channel. -/
structure Packet where
  data : Bytes
  state : PktState
  deriving DecidableEq, Repr

/-- What `receive_packet` of the driver can do. -/
inductive Rx
  | failed (code : Nat)
  | packet (p : Packet)
  deriving DecidableEq, Repr

/-- What happened to it. -/
inductive Fate
  | failed (code : Nat)
  | overflowed
  | discarded
  | processed (p : Packet)
  deriving DecidableEq, Repr

/-- `cmd_channel_receive_and_process`, cmd_channel.c:231-305, up to the call of `mctp_interface_process_packet`. The state is the overflow flag. -/
def receive (overflow : Bool) : Rx → Bool × Fate
  | .failed c => (overflow, .failed c)
  | .packet p =>
    if p.state = .overflow then (true, .overflowed)
    else if overflow then (false, .discarded)
    else (overflow, .processed p)

/-- Repeated calls, as the task of the channel makes them. -/
def receiveAll (overflow : Bool) : List Rx → Bool × List Fate
  | [] => (overflow, [])
  | e :: l => ((receiveAll (receive overflow e).1 l).1, (receive overflow e).2 :: (receiveAll (receive overflow e).1 l).2)

/-- `CMD_MAX_PACKET_SIZE`, cmd_channel.h and mctp_base_protocol.h:17, 73-87. -/
def maxPacket : Nat := 255

/-- How a call of `cmd_channel_send_packets` ends. -/
inductive Status | success | expired | timeout | failed
  deriving DecidableEq, Repr

/-- `struct cmd_message` together with the reply time limit of the packet it answers (`timeout_valid` and expired). -/
structure Message where
  data : Bytes
  pktSize : Nat
  deriving DecidableEq, Repr

/-- Where a call of `cmd_channel_send_packets` is: not started, waiting for the lock at the beginning, waiting for the lock after the bus was busy, in
the loop with the lock, returned, or it has written beyond the end of the packet buffer. -/
inductive Phase
  | idle
  | wantFirst (m : Message)
  | want (m : Message) (rest : Bytes)
  | hold (m : Message) (rest : Bytes)
  | done (m : Message) (s : Status)
  | overrun (m : Message)
  deriving DecidableEq, Repr

/-- The channel: the calls, the holder of the lock, and the packets given to the driver successfully with the call that gave them. -/
structure St where
  phase : Nat → Phase
  lock : Option Nat
  wire : List (Nat × Bytes)

/-- The state with call `i` in a new phase. -/
def St.put (s : St) (i : Nat) (p : Phase) : St := { s with phase := fun j => if j = i then p else s.phase j }

/-- What the environment decides for one step: a new call, the scheduler, the driver, the clocks. -/
inductive Ev
  | call (i : Nat) (m : Message)
  | acquire (i : Nat)
  | acquireExpired (i : Nat)
  | sent (i : Nat)
  | busy (i : Nat)
  | busyTimeout (i : Nat)
  | sendFailed (i : Nat)
  | finish (i : Nat)
  deriving DecidableEq, Repr

/-- The size of the next packet, cmd_channel.c:180. -/
def pktLen (m : Message) (rest : Bytes) : Nat := min m.pktSize rest.length

/-- The step of one packet with the lock: the packet is built (line 181), which is out of bounds if it is too long, and given to the driver with the result `r` (lines 187-210). -/
def sendStep (s : St) (i : Nat) (m : Message) (rest : Bytes) (r : St) : St :=
  if maxPacket < pktLen m rest then s.put i (.overrun m) else r

/-- One step of `cmd_channel_send_packets`, cmd_channel.c:160-220. Simplification: the time limit for a busy bus is a choice of the environment. -/
def step (s : St) : Ev → Option St
  | .call i m => if s.phase i = .idle then some (s.put i (.wantFirst m)) else none
  | .acquire i =>
    if s.lock = none then
      match s.phase i with
      | .wantFirst m => some { s.put i (.hold m m.data) with lock := some i }
      | .want m rest => some { s.put i (.hold m rest) with lock := some i }
      | _ => none
    else none
  | .acquireExpired i =>
    if s.lock = none then
      match s.phase i with
      | .wantFirst m => some (s.put i (.done m .expired))
      | _ => none
    else none
  | .sent i =>
    match s.phase i with
    | .hold m (b :: rest) =>
      some (sendStep s i m (b :: rest)
        { s.put i (.hold m ((b :: rest).drop (pktLen m (b :: rest)))) with wire := s.wire ++ [(i, (b :: rest).take (pktLen m (b :: rest)))] })
    | _ => none
  | .busy i =>
    match s.phase i with
    | .hold m (b :: rest) => some (sendStep s i m (b :: rest) { s.put i (.want m (b :: rest)) with lock := none })
    | _ => none
  | .busyTimeout i =>
    match s.phase i with
    | .hold m (b :: rest) => some (sendStep s i m (b :: rest) { s.put i (.done m .timeout) with lock := none })
    | _ => none
  | .sendFailed i =>
    match s.phase i with
    | .hold m (b :: rest) => some (sendStep s i m (b :: rest) { s.put i (.done m .failed) with lock := none })
    | _ => none
  | .finish i =>
    match s.phase i with
    | .hold m [] => some { s.put i (.done m .success) with lock := none }
    | _ => none

/-- The channel before the first call. -/
def init : St := ⟨fun _ => .idle, none, []⟩

/-- Histories. -/
inductive Reach : List Ev → St → Prop
  | start : Reach [] init
  | next {evs s s' e} : Reach evs s → step s e = some s' → Reach (evs ++ [e]) s'

end Verif.CmdChannel
