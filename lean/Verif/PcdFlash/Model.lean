import Verif.PcdFlash.Spec
import Verif.BufferUtil.Model
/-!
Model of `core/manifest/pcd/pcd_flash.c`.

The manifest is the list of the elements of its table of contents; that they are read as they were signed is `ManifestFlash`. Failures of the flash and of the hash engine are errors and are
not modelled, nor are extensions of the table, null arguments and a PCD that is not valid. `stack` is what was in a local variable before.
-/
namespace Verif.PcdFlash
open Verif
open Spec (Elem Times I2c Pci Kind)

/-- `notFound` `MANIFEST_ELEMENT_NOT_FOUND`, `childNotFound` `MANIFEST_CHILD_NOT_FOUND`, `wrongParent` `MANIFEST_WRONG_PARENT`, `malformed` `PCD_MALFORMED_*`, `invalidPort`
`PCD_INVALID_PORT`, `noMemory` `PCD_NO_MEMORY`; `oob` is an access outside of a buffer, `null` one through a null pointer. -/
inductive Err where
  | notFound | childNotFound | wrongParent | malformed | invalidPort | noMemory | oob | null
deriving DecidableEq, Repr

/-- The search of `manifest_flash_read_element_data_common`, manifest_flash.c:905-908, 966-1007 and 1057-1063, in the entries from the start on; the index of the element and the element. -/
def find (tys : List UInt8) (parent : UInt8) : List Elem → Nat → Except Err (Nat × Elem)
  | [], _ => .error (if parent = 0xff then .notFound else .childNotFound)
  | e :: es, i =>
    if parent ≠ 0xff ∧ e.parent = 0xff then .error .childNotFound
    else if e.ty ∈ tys then
      if e.parent ≠ 0xff ∧ e.parent ≠ parent then .error .wrongParent else .ok (i, e)
    else find tys parent es (i + 1)

/-- A local variable of `n` bytes. -/
def local_ (stack : Nat → UInt8) (n : Nat) : Bytes := (List.range n).map stack

/-! ### The RoT -/

/-- `pcd_flash_get_rot_element_ptr`, pcd_flash.c:111-130: index, format, and the variable of 40 bytes. -/
def rotElement (stack : Nat → UInt8) (es : List Elem) : Except Err (Nat × UInt8 × Bytes) :=
  match find [0x40] 0xff es 0 with
  | .error e => .error e
  | .ok (i, e) =>
    let status := min e.data.length 40
    if (e.fmt = 1 ∧ status < 8) ∨ (2 ≤ e.fmt ∧ status < 40) then .error .malformed
    else .ok (i, e.fmt, writeAt (local_ stack 40) 0 (window e.data 0 40))

/-- `struct pcd_rot_info`, pcd.h. -/
structure RotInfo where
  isPaRot : Bool
  ports : UInt8
  components : UInt8
  addr : UInt8
  eid : UInt8
  bridgeAddr : UInt8
  bridgeEid : UInt8
  times : Times
deriving DecidableEq, Repr

/-- `pcd_flash_get_rot_info`, pcd_flash.c:132-185, the defaults from pcd_flash.h. -/
def rotInfo (stack : Nat → UInt8) (es : List Elem) : Except Err RotInfo :=
  match rotElement stack es with
  | .error e => .error e
  | .ok (_, fmt, b) =>
    let t : Times :=
      if fmt = 1 then ⟨86400000, 10000, 10000, 2000, 3000, 0, 1000, 3⟩
      else ⟨leNat (window b 8 4), leNat (window b 12 4), leNat (window b 16 4), leNat (window b 20 4), leNat (window b 24 4), leNat (window b 28 4), leNat (window b 32 4), b.getD 36 0⟩
    .ok ⟨decide ((b.getD 0 0).toNat % 2 = 0), b.getD 1 0, b.getD 2 0, b.getD 3 0, b.getD 4 0, b.getD 5 0, b.getD 6 0, t⟩

/-! ### Ports -/

/-- `struct pcd_port_info`, pcd.h. -/
structure PortInfo where
  freq : Nat
  mode : Nat
  reset : Nat
  runtime : Nat
  watchdog : Nat
  hostReset : Nat
  policy : UInt8
  pulse : UInt8
deriving DecidableEq, Repr

/-- The information taken from a port element, pcd_flash.c:237-244 and the masks of pcd_format.h:88-150. -/
def portInfo (b : Bytes) : PortInfo :=
  let f := (b.getD 1 0).toNat
  ⟨leNat (window b 4 4), f / 4 % 4, f % 4, f / 16 % 2, f / 32 % 2, f / 64 % 2, b.getD 2 0, b.getD 3 0⟩

/-- The loop of `pcd_flash_get_port_info`, pcd_flash.c:219-249, with the turns left. The variable is not used after a short read. -/
def portLoop (es : List Elem) (id : UInt8) : Nat → Nat → Except Err PortInfo
  | 0, _ => .error .invalidPort
  | k + 1, start =>
    match find [0x41] 0x40 (es.drop start) start with
    | .error e => .error (if e = .childNotFound then .invalidPort else e)
    | .ok (i, e) =>
      if min e.data.length 8 < 8 then .error .malformed
      else if e.data.getD 0 0 ≠ id then portLoop es id k (i + 1)
      else .ok (portInfo (window e.data 0 8))

/-- `pcd_flash_get_port_info`, pcd_flash.c:187-250. -/
def getPort (stack : Nat → UInt8) (es : List Elem) (id : UInt8) : Except Err PortInfo :=
  match rotElement stack es with
  | .error e => .error e
  | .ok (i, _, b) => if (b.getD 1 0).toNat = 0 then .error .invalidPort else portLoop es id (b.getD 1 0).toNat (i + 1)

/-! ### I2C and the power controller -/

/-- The fields of a `struct pcd_i2c_interface`; the number of muxes is in the low bits. -/
def i2c (b : Bytes) : I2c := ⟨(b.getD 0 0).toNat % 16, (b.getD 0 0).toNat / 16 % 4, b.getD 1 0, b.getD 2 0, b.getD 3 0⟩

/-- `pcd_flash_get_power_controller_info`, pcd_flash.c:252-282. -/
def power (stack : Nat → UInt8) (es : List Elem) : Except Err I2c :=
  match find [0x42] 0xff es 0 with
  | .error e => .error e
  | .ok (_, e) => .ok (i2c (writeAt (local_ stack 4) 0 (window e.data 0 4)))

/-! ### The list of the components -/

/-- The switch of `pcd_flash_buffer_supported_components`, pcd_flash.c:342-385; `n` bytes have been read to the variable `b`. -/
def supportedEntry (ty fmt : UInt8) (n : Nat) (b : Bytes) : Except Err Bytes :=
  if ty = 0x43 then if n < 12 then .error .malformed else .ok (window b 4 4 ++ [1])
  else if ty = 0x45 then if n < 8 then .error .malformed else .ok (window b 4 4 ++ [1])
  else if n < 20 then .error .malformed
  else .ok (window b 4 4 ++ [if fmt ≤ 2 then b.getD 16 0 else b.getD 3 0])

/-- The loop, pcd_flash.c:330-391, with the components left; `buf` is the variable `component_data`. -/
def supportedLoop (es : List Elem) : Nat → Nat → Bytes → BufferUtil.Cursor → Except Err Bytes
  | 0, _, _, c => .ok c.out
  | k + 1, start, buf, c =>
    if c.destLength = 0 then .ok c.out
    else match find [0x43, 0x44, 0x45] 0xff (es.drop start) start with
      | .error e => .error e
      | .ok (i, e) =>
        let buf := writeAt buf 0 (window e.data 0 20)
        match supportedEntry e.ty e.fmt (min e.data.length 20) buf with
        | .error e => .error e
        | .ok s => supportedLoop es k (i + 1) buf (BufferUtil.bufferCopy s c).2

/-- `pcd_flash_buffer_supported_components`, pcd_flash.c:294-394; `length` is not 0. -/
def supported (stack : Nat → UInt8) (es : List Elem) (offset length : Nat) : Except Err Bytes :=
  match rotInfo stack es with
  | .error e => .error e
  | .ok r => supportedLoop es r.components.toNat 0 (local_ stack 20) ⟨offset, length, []⟩

/-! ### The components -/

/-- How a component is connected; `struct pcd_component_info` has no EID for a device behind a bridge. -/
inductive Details where
  | direct (i : I2c)
  | bridge (p : Pci)
  | tcgLog
deriving DecidableEq, Repr

/-- `struct pcd_component_info`, pcd.h, without the context. -/
structure Info where
  id : Nat
  count : UInt8
  kinds : List Kind
  details : Details
deriving DecidableEq, Repr

/-- Reading a field of the element, which is in a buffer of its length. -/
def field (d : Bytes) (off len : Nat) : Except Err Bytes := if off + len ≤ d.length then .ok (window d off len) else .error .oob

/-- `pcd_flash_allocate_component_types`, pcd_flash.c:415-438: how many types there is memory for afterwards, and whether it failed. `mem`: the allocation succeeds. -/
def allocate (mem : Bool) (alloc n : Nat) : Bool × Nat := if n ≤ alloc then (true, alloc) else if mem then (true, n) else (false, 0)

/-- `pcd_flash_read_v2_component_common`, pcd_flash.c:448-467. -/
def common2 (mem : Bool) (alloc : Nat) (d : Bytes) : Except Err Info × Nat :=
  let a := allocate mem alloc 1
  (if a.1 = false then .error .noMemory
   else if a.2 < 1 then .error .oob
   else do
    let id ← field d 4 4
    .ok ⟨leNat id, 1, [⟨leNat id, 0, 0⟩], .tcgLog⟩, a.2)

/-- The loop of `pcd_flash_read_v3_component_common`, pcd_flash.c:504-509. -/
def kindLoop (alloc : Nat) (d : Bytes) : Nat → Nat → Except Err (List Kind)
  | 0, _ => .ok []
  | k + 1, i =>
    if alloc ≤ i then .error .oob
    else do
      let t ← field d (12 + 8 * i) 8
      let r ← kindLoop alloc d k (i + 1)
      .ok (⟨leNat (window t 0 4), t.getD 4 0, t.getD 5 0⟩ :: r)

/-- `pcd_flash_read_v3_component_common`, pcd_flash.c:477-513. -/
def common3 (mem : Bool) (alloc : Nat) (d : Bytes) : Except Err Info × Nat :=
  match field d 0 12 with
  | .error e => (.error e, alloc)
  | .ok h =>
    let n := (h.getD 8 0).toNat
    let a := allocate mem alloc (if n = 0 then 1 else n)
    (if a.1 = false then .error .noMemory
     else if n = 0 then if a.2 < 1 then .error .oob else .ok ⟨leNat (window h 4 4), h.getD 3 0, [⟨leNat (window h 4 4), 0, 0⟩], .tcgLog⟩
     else do
      let ks ← kindLoop a.2 d n 0
      .ok ⟨leNat (window h 4 4), h.getD 3 0, ks, .tcgLog⟩, a.2)

/-- `pcd_component_common_v3_length`, pcd_format.h. -/
def length3 (d : Bytes) : Nat := 12 + 8 * (d.getD 8 0).toNat

/-- `pcd_flash_read_direct_component`, pcd_flash.c:526-590. -/
def readDirect (mem : Bool) (alloc : Nat) (fmt : UInt8) (d : Bytes) : Except Err Info × Nat :=
  if fmt ≤ 2 then
    if d.length < 12 then (.error .malformed, alloc)
    else
      let r := common2 mem alloc d
      (do let c ← r.1; let b ← field d 8 4; .ok { c with details := .direct (i2c b) }, r.2)
  else if d.length < 12 then (.error .malformed, alloc)
  else if d.length < length3 d + 4 then (.error .malformed, alloc)
  else
    let r := common3 mem alloc d
    (do let c ← r.1; let b ← field d (length3 d) 4; .ok { c with details := .direct (i2c b) }, r.2)

/-- The PCI IDs, pcd_flash.c:633-638 and 659-664. -/
def pci (b : Bytes) : Pci := ⟨leNat (window b 0 2), leNat (window b 2 2), leNat (window b 4 2), leNat (window b 6 2)⟩

/-- `pcd_flash_read_mctp_bridge_component`, pcd_flash.c:604-670. -/
def readBridge (mem : Bool) (alloc : Nat) (fmt : UInt8) (d : Bytes) : Except Err Info × Nat :=
  if fmt ≤ 2 then
    if d.length < 20 then (.error .malformed, alloc)
    else
      let r := common2 mem alloc d
      (do let c ← r.1; let b ← field d 8 12; .ok { c with count := b.getD 8 0, details := .bridge (pci b) }, r.2)
  else if d.length < 12 then (.error .malformed, alloc)
  else if d.length < length3 d + 12 then (.error .malformed, alloc)
  else
    let r := common3 mem alloc d
    (do let c ← r.1; let b ← field d (length3 d) 12; .ok { c with details := .bridge (pci b) }, r.2)

/-- `pcd_flash_read_tcg_log_component`, pcd_flash.c:683-734. -/
def readTcg (mem : Bool) (alloc : Nat) (fmt : UInt8) (d : Bytes) : Except Err Info × Nat :=
  if fmt ≤ 2 then if d.length < 8 then (.error .malformed, alloc) else common2 mem alloc d
  else if d.length < 12 then (.error .malformed, alloc)
  else if d.length < length3 d then (.error .malformed, alloc)
  else common3 mem alloc d

/-- What a container for components has: a context or none, where the next search starts, and how many types there is memory for. -/
structure Ctx where
  live : Bool
  start : Nat
  alloc : Nat
deriving DecidableEq, Repr

/-- `pcd_flash_get_next_component` from pcd_flash.c:787 on; the read of the element itself does not fail. -/
def nextFrom (first mem : Bool) (es : List Elem) (c : Ctx) : Except Err Info × Ctx :=
  if c.live = false then (.error .null, c)
  else match find [0x43, 0x44, 0x45] 0xff (es.drop c.start) c.start with
    | .error e => (.error e, c)
    | .ok (i, e) =>
      let r := if e.ty = 0x43 then readDirect mem c.alloc e.fmt e.data
        else if e.ty = 0x44 then readBridge mem c.alloc e.fmt e.data
        else readTcg mem c.alloc e.fmt e.data
      match r.1 with
      | .ok v => (.ok v, ⟨true, i + 1, r.2⟩)
      | .error x => (.error x, if first then ⟨false, 0, 0⟩ else ⟨true, i, r.2⟩)

/-- `pcd_flash_get_next_component`, pcd_flash.c:753-837. `ctxMem`: there is memory for the context, `mem`: for the types. -/
def next (first ctxMem mem : Bool) (es : List Elem) (c : Ctx) : Except Err Info × Ctx :=
  if first then if ctxMem then nextFrom true mem es ⟨true, 0, 0⟩ else (.error .noMemory, ⟨false, 0, 0⟩)
  else nextFrom false mem es c

/-- A caller that asks for one component after another, at most `n` times, until there is an error. -/
def iterate (es : List Elem) : Nat → Bool → Ctx → List Info × Option Err
  | 0, _, _ => ([], none)
  | n + 1, first, c =>
    match next first true true es c with
    | (.error e, _) => ([], some e)
    | (.ok v, c) => let r := iterate es n false c; (v :: r.1, r.2)

end Verif.PcdFlash
