import Verif.SpiFlash.Model
/-! What a caller relies on. -/
namespace Verif.SpiFlash
open Verif.Flash (Mem bytesAt program)

/-- Driver and device agree on the number of address bytes for a command, and these bytes can hold the addresses. -/
structure Fits (d : Drv) (v : Chip) (c : Cmd) : Prop where
  bytes : d.sends4 c = v.expects4 c
  reach : d.sends4 c = false → d.size ≤ 2 ^ 24

/-- Driver and device agree: on all commands, and on the size. -/
structure Sync (d : Drv) (v : Chip) : Prop where
  rd : Fits d v d.rd
  wr : Fits d v d.wr
  sector : Fits d v d.sector
  block : Fits d v d.block
  size : d.size ≤ v.size
  range : d.size < 2 ^ 32

/-- Nothing but the contents at the addresses in `R` changed, and the device got only commands that it expects. -/
structure Only (R : Nat → Prop) (s t : St) : Prop where
  drv : t.drv = s.drv
  bad : t.bad = s.bad
  size : t.dev.size = s.dev.size
  mode : t.dev.mode4 = s.dev.mode4
  reset : t.dev.onReset = s.dev.onReset
  mem : ∀ i, ¬ R i → t.dev.mem i = s.dev.mem i

/-- An operation of the driver. -/
inductive Op
  | read (a len : Nat)
  | write (a : Nat) (d : Bytes)
  | sectorErase (a : Nat)
  | blockErase (a : Nat)
  | chipErase
  | enable4 (four : Bool)
  | detect
  | reset

/-- An operation, without its result. -/
def Op.run (env : Env) : Op → St → St
  | .read a len, s => (SpiFlash.read env a len s).2
  | .write a d, s => (SpiFlash.write env a d s).2
  | .sectorErase a, s => (SpiFlash.sectorErase env a s).2
  | .blockErase a, s => (SpiFlash.blockErase env a s).2
  | .chipErase, s => (SpiFlash.chipErase env s).2
  | .enable4 f, s => (SpiFlash.enable4 env f s).2
  | .detect, s => (SpiFlash.detect env s).2
  | .reset, s => (SpiFlash.reset env s).2

/-- Operations one after the other. -/
def runs (env : Env) (l : List Op) (s : St) : St := l.foldl (fun s o => o.run env s) s

/-- Addresses and lengths of an operation fit into `size_t`. -/
def Op.fits (env : Env) : Op → Prop
  | .read a len => a + len < 2 ^ env.w
  | .write a d => a + d.length < 2 ^ env.w
  | _ => True

/-- The operation does not switch the address mode while the device is busy. -/
def Op.calm (s : St) : Op → Prop
  | .enable4 _ => s.dev.busy = 0
  | _ => True

/-- All operations of a history are calm in their state. -/
def Calm (env : Env) : List Op → St → Prop
  | [], _ => True
  | o :: l, s => o.calm s ∧ Calm env l (o.run env s)

/-- The tables of the device tell the truth: which address modes it has (a device with one is always in it, also after a reset), and addresses of 3 bytes reach all of a
device that has only these. -/
structure Truth (t : Sfdp) (v : Chip) : Prop where
  size : t.size ≤ v.size ∧ t.size < 2 ^ 32
  some : (t.cap3 && !t.fixed4) = true ∨ (t.cap4 && !t.only3) = true
  only3 : (t.cap4 && !t.only3) = false → v.mode4 = false ∧ (v.onReset = none ∨ v.onReset = .some false) ∧ t.size ≤ 2 ^ 24
  only4 : (t.cap3 && !t.fixed4) = false → v.mode4 = true ∧ (v.onReset = none ∨ v.onReset = .some true)

/-- The driver knows how a device that can be switched behaves at a reset. -/
structure KnowsReset (d : Drv) (v : Chip) : Prop where
  both : d.cap3 = true → d.cap4 = true → d.instr = false → (d.reset3 = true ↔ v.onReset ≠ none)
  instr : d.cap3 = true → d.cap4 = true → d.instr = true → v.mode4 = false ∧ (v.onReset = none ∨ v.onReset = .some false)

end Verif.SpiFlash
