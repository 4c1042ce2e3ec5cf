import Verif.Common.Bytes
/-! Reset counters in registers: `core/cmd_interface/counter_manager_registers.c`. Null arguments are not modelled. -/
namespace Verif.Counters

/-- `struct counter_manager_registers`, counter_manager_registers.h:17-21; the second register is optional. -/
structure Regs where
  reg1 : BitVec 32
  reg2 : Option (BitVec 32)
  deriving DecidableEq, Repr

/-- `counter_manager_registers_set_counter`, counter_manager_registers.c:19-54; `none`: unknown counter. The types are 0 (own resets) and 1
(resets of a component), cerberus_protocol_required_commands.h:24-25. -/
def setCounter (r : Regs) (type port : UInt8) (counter : BitVec 16) : Option Regs :=
  if type = 0 then some { r with reg1 := (r.reg1 &&& 0xffff0000#32) ||| counter.setWidth 32 }
  else if type = 1 then
    if port = 0 then some { r with reg1 := (r.reg1 &&& 0x0000ffff#32) ||| (counter.setWidth 32 <<< 16) }
    else
      match r.reg2 with
      | some v => if port = 1 then some { r with reg2 := some ((v &&& 0xffff0000#32) ||| counter.setWidth 32) } else none
      | none => none
  else none

/-- `counter_manager_registers_get_counter`, counter_manager_registers.c:104-139. -/
def getCounter (r : Regs) (type port : UInt8) : Option (BitVec 32) :=
  if type = 0 then some (r.reg1 &&& 0x0000ffff#32)
  else if type = 1 then
    if port = 0 then some ((r.reg1 >>> 16) &&& 0x0000ffff#32)
    else
      match r.reg2 with
      | some v => if port = 1 then some (v &&& 0x0000ffff#32) else none
      | none => none
  else none

/-- `counter_manager_registers_clear`, counter_manager_registers.c:65-69. -/
def clear (r : Regs) (type port : UInt8) : Option Regs := setCounter r type port 0

/-- The second half of `counter_manager_registers_increment`, lines 90-92, with the value read before. -/
def writeBack (r : Regs) (type port : UInt8) (v : BitVec 32) : Option Regs := setCounter r type port ((v + 1).setWidth 16)

/-- `counter_manager_registers_increment`, counter_manager_registers.c:80-93, with nobody else at work. -/
def increment (r : Regs) (type port : UInt8) : Option Regs :=
  match getCounter r type port with
  | none => none
  | some v => writeBack r type port v

/-- Requests of one task. -/
inductive Op
  | increment (type port : UInt8)
  | clear (type port : UInt8)
  deriving DecidableEq, Repr

/-- A request; one for an unknown counter fails and changes nothing. -/
def step (r : Regs) : Op → Regs
  | .increment t p => (increment r t p).getD r
  | .clear t p => (clear r t p).getD r

/-! ### Several tasks -/

/-- The registers and, for each task that is between reading and writing, the request and the value read. The lock is held in `get_counter` and in
`set_counter`, but not in between (counter_manager_registers.c:85, 92). -/
structure Sys where
  regs : Regs
  pend : Nat → Option (UInt8 × UInt8 × BitVec 32)

/-- What tasks do: the first half of an increment, the second half, clearing a counter. -/
inductive Ev
  | read (task : Nat) (type port : UInt8)
  | write (task : Nat) (type port : UInt8)
  | clear (task : Nat) (type port : UInt8)
  deriving DecidableEq, Repr

/-- A task is between reading and writing, or no longer. -/
def Sys.hold (s : Sys) (t : Nat) (x : Option (UInt8 × UInt8 × BitVec 32)) : Nat → Option (UInt8 × UInt8 × BitVec 32) :=
  fun u => if u = t then x else s.pend u

/-- The steps of tasks on known counters. -/
inductive Step : Sys → Ev → Sys → Prop
  | read {s t ty p v} : s.pend t = none → getCounter s.regs ty p = some v → Step s (.read t ty p) ⟨s.regs, s.hold t (some (ty, p, v))⟩
  | write {s t ty p v r} : s.pend t = some (ty, p, v) → writeBack s.regs ty p v = some r → Step s (.write t ty p) ⟨r, s.hold t none⟩
  | clear {s t ty p r} : s.pend t = none → Verif.Counters.clear s.regs ty p = some r → Step s (.clear t ty p) ⟨r, s.pend⟩

/-- Histories that start with registers `r`. -/
inductive Reach (r : Regs) : List Ev → Sys → Prop
  | start : Reach r [] ⟨r, fun _ => none⟩
  | next {evs s e s'} : Reach r evs s → Step s e s' → Reach r (evs ++ [e]) s'

end Verif.Counters
