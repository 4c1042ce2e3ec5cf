import Verif.Common.Bytes
/-!
What a PCD (platform configuration data) says, and its elements, independent of the code that reads them.
-/
namespace Verif.PcdFlash.Spec
open Verif

/-- An element of a manifest: type, type of its parent (0xFF for none), version of its format, contents. -/
structure Elem where
  ty : UInt8
  parent : UInt8
  fmt : UInt8
  data : Bytes
deriving DecidableEq, Repr

/-! ### The RoT -/

/-- Times in ms, and a number of retries. -/
structure Times where
  success : Nat
  fail : Nat
  discovery : Nat
  ctrl : Nat
  table : Nat
  bridge : Nat
  notReady : Nat
  retries : UInt8
deriving DecidableEq, Repr

/-- What holds for a RoT without times. -/
def Times.dflt : Times := ⟨86400000, 10000, 10000, 2000, 3000, 0, 1000, 3⟩

/-- `times`: none in the first version of the format. -/
structure Rot where
  acRot : Bool
  ports : UInt8
  components : UInt8
  addr : UInt8
  eid : UInt8
  bridgeAddr : UInt8
  bridgeEid : UInt8
  times : Option Times
deriving DecidableEq, Repr

def Times.bytes (t : Times) : Bytes :=
  toLE 4 t.success ++ toLE 4 t.fail ++ toLE 4 t.discovery ++ toLE 4 t.ctrl ++ toLE 4 t.table ++ toLE 4 t.bridge ++ toLE 4 t.notReady ++ [t.retries, 0, 0, 0]

def Times.ok (t : Times) : Prop :=
  t.success < 2 ^ 32 ∧ t.fail < 2 ^ 32 ∧ t.discovery < 2 ^ 32 ∧ t.ctrl < 2 ^ 32 ∧ t.table < 2 ^ 32 ∧ t.bridge < 2 ^ 32 ∧ t.notReady < 2 ^ 32

def Rot.bytes (r : Rot) : Bytes :=
  [if r.acRot then 1 else 0, r.ports, r.components, r.addr, r.eid, r.bridgeAddr, r.bridgeEid, 0] ++ (match r.times with | none => [] | some t => t.bytes)

def Rot.elem (r : Rot) : Elem := ⟨0x40, 0xff, if r.times = none then 1 else 2, r.bytes⟩

/-- The times that hold. -/
def Rot.time (r : Rot) : Times := r.times.getD Times.dflt

/-! ### Ports -/

structure Port where
  id : UInt8
  reset : Nat
  mode : Nat
  runtime : Bool
  watchdog : Bool
  hostReset : Bool
  policy : UInt8
  pulse : UInt8
  freq : Nat
deriving DecidableEq, Repr

def Port.ok (p : Port) : Prop := p.reset < 4 ∧ p.mode < 4 ∧ p.freq < 2 ^ 32

def bit (b : Bool) (n : Nat) : Nat := if b then n else 0

def Port.bytes (p : Port) : Bytes :=
  [p.id, UInt8.ofNat (p.reset + 4 * p.mode + bit p.runtime 16 + bit p.watchdog 32 + bit p.hostReset 64), p.policy, p.pulse] ++ toLE 4 p.freq

def Port.elem (p : Port) : Elem := ⟨0x41, 0x40, 1, p.bytes⟩

/-! ### I2C and the power controller -/

structure I2c where
  muxes : Nat
  mode : Nat
  bus : UInt8
  addr : UInt8
  eid : UInt8
deriving DecidableEq, Repr

def I2c.ok (i : I2c) : Prop := i.muxes < 16 ∧ i.mode < 4

def I2c.bytes (i : I2c) : Bytes := [UInt8.ofNat (i.muxes + 16 * i.mode), i.bus, i.addr, i.eid]

/-! ### Components -/

/-- PCI IDs of a device behind an MCTP bridge. -/
structure Pci where
  device : Nat
  vendor : Nat
  subDevice : Nat
  subVendor : Nat
deriving DecidableEq, Repr

def Pci.ok (p : Pci) : Prop := p.device < 65536 ∧ p.vendor < 65536 ∧ p.subDevice < 65536 ∧ p.subVendor < 65536

/-- How a component is connected. -/
inductive Conn where
  | direct (i : I2c)
  | bridge (p : Pci) (eid : UInt8)
  | tcgLog
deriving DecidableEq, Repr

/-- An allowed type of component: its ID in the CFM and how many there have to be and may be. -/
structure Kind where
  id : Nat
  min : UInt8
  max : UInt8
deriving DecidableEq, Repr

/-- `v3`: the element has the format with a list of allowed types. -/
structure Comp where
  v3 : Bool
  policy : UInt8
  powerReg : UInt8
  powerMask : UInt8
  count : UInt8
  id : Nat
  kinds : List Kind
  conn : Conn
deriving DecidableEq, Repr

def Conn.ok : Conn → Prop
  | .direct i => i.ok
  | .bridge p _ => p.ok
  | .tcgLog => True

def Conn.ty : Conn → UInt8
  | .direct _ => 0x43
  | .bridge .. => 0x44
  | .tcgLog => 0x45

/-- `n`: what is in the place of the number of devices. -/
def Conn.bytes (n : UInt8) : Conn → Bytes
  | .direct i => i.bytes
  | .bridge p eid => toLE 2 p.device ++ toLE 2 p.vendor ++ toLE 2 p.subDevice ++ toLE 2 p.subVendor ++ [n, eid, 0, 0]
  | .tcgLog => []

def Kind.bytes (k : Kind) : Bytes := toLE 4 k.id ++ [k.min, k.max, 0, 0]

def Comp.bytes (c : Comp) : Bytes :=
  if c.v3 then [c.policy, c.powerReg, c.powerMask, c.count] ++ toLE 4 c.id ++ [UInt8.ofNat c.kinds.length, 0, 0, 0] ++ c.kinds.flatMap Kind.bytes ++ c.conn.bytes 0
  else [c.policy, c.powerReg, c.powerMask, 0] ++ toLE 4 c.id ++ c.conn.bytes c.count

def Comp.elem (c : Comp) : Elem := ⟨c.conn.ty, 0xff, if c.v3 then 3 else 2, c.bytes⟩

/-- Sizes fit their fields; in the old format there are no lists of types, and a number of devices only behind a bridge. -/
def Comp.ok (c : Comp) : Prop :=
  c.id < 2 ^ 32 ∧ c.conn.ok ∧ c.kinds.length < 256 ∧ (∀ k ∈ c.kinds, k.id < 2 ^ 32) ∧ (c.v3 = false → c.kinds = [] ∧ (c.conn.ty ≠ 0x44 → c.count = 1))

/-- Types of device allowed for a component: those of its list, or the one with its own ID and any number. -/
def Comp.allowed (c : Comp) : List Kind := if c.kinds = [] then [⟨c.id, 0, 0⟩] else c.kinds

/-- Entry of a component in the list of the components: ID and number of devices. -/
def Comp.entry (c : Comp) : Bytes := toLE 4 c.id ++ [c.count]

/-- Is the element one of a component? -/
def isComp (e : Elem) : Bool := e.ty == 0x43 || e.ty == 0x44 || e.ty == 0x45

end Verif.PcdFlash.Spec
