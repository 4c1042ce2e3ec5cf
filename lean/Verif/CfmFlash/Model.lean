import Verif.CfmFlash.Spec
import Verif.BufferUtil.Model
/-!
Model of `core/manifest/cfm/cfm_flash.c`.

The manifest is the list of the elements of its table of contents; that they are read as they were signed is `ManifestFlash`. Failures of the flash and of the hash engine are errors and are
not modelled, nor are extensions of the table and null arguments. Allocations succeed if they are not of zero bytes. A result is given only for success: after an error other than the end
of a list nothing is said about where a list goes on.
-/
namespace Verif.CfmFlash
open Verif
open Spec (Elem)

/-- `notFound` `MANIFEST_ELEMENT_NOT_FOUND`, `childNotFound` `MANIFEST_CHILD_NOT_FOUND`, `wrongParent` `MANIFEST_WRONG_PARENT`, `malformed` `CFM_MALFORMED_*`, `hashType`
`CFM_INVALID_*_HASH_TYPE`, `unknownHash` `HASH_ENGINE_UNKNOWN_HASH`, `noMemory` `CFM_NO_MEMORY`, `entryNotFound` `CFM_ENTRY_NOT_FOUND`, `itemNotFound` `CFM_PMR_NOT_FOUND`,
`CFM_PMR_DIGEST_NOT_FOUND` and `CFM_ROOT_CA_NOT_FOUND`. -/
inductive Err where
  | notFound | childNotFound | wrongParent | malformed | hashType | unknownHash | noMemory | entryNotFound | itemNotFound
deriving DecidableEq, Repr

/-- `hash_get_hash_length` of `manifest_convert_manifest_hash_type`, hash.c:182-200. -/
def hashLen : Nat → Option Nat
  | 0 => some 32
  | 1 => some 48
  | 2 => some 64
  | _ => none

/-! ### Elements -/

/-- The search of `manifest_flash_read_element_data`, manifest_flash.c:905-908, 966-1007 and 1057-1059, in the entries from the start on; the index of the element and the element. -/
def find (ty parent : UInt8) : List Elem → Nat → Except Err (Nat × Elem)
  | [], _ => .error (if parent = 0xff then .notFound else .childNotFound)
  | e :: es, i =>
    if parent ≠ 0xff ∧ e.parent = 0xff then .error .childNotFound
    else if e.ty = ty then
      if e.parent ≠ 0xff ∧ e.parent ≠ parent then .error .wrongParent else .ok (i, e)
    else find ty parent es (i + 1)

/-- Reading a part of an element, manifest_flash.c:1073-1113; `none`: there are fewer bytes than asked for. -/
def read (e : Elem) (off len : Nat) : Option Bytes :=
  if (window e.data off len).length < len then none else some (window e.data off len)

/-- Number of children by `manifest_flash_get_child_elements_info`, manifest_flash.c:1253-1464. -/
def childCount (ty parent child : UInt8) : List Elem → Nat
  | [] => 0
  | e :: es =>
    if e.parent = parent ∨ e.ty = parent then 0
    else if e.parent = ty ∧ e.ty = child then childCount ty parent child es + 1
    else childCount ty parent child es

/-- Index of the first child by the same function; 0 if there is none, which is what the function sets before it fails, manifest_flash.c:1298-1304, 1376-1391, 1406-1410. -/
def childFirst (ty parent child : UInt8) : List Elem → Nat → Nat
  | [], _ => 0
  | e :: es, i =>
    if e.parent = parent ∨ e.ty = parent then 0
    else if e.parent = ty ∧ e.ty = child then i
    else childFirst ty parent child es (i + 1)

/-! ### Components -/

/-- `struct cfm_component_device_element`, cfm_format.h. -/
structure Device where
  slot : UInt8
  protocol : UInt8
  transcript : Nat
  hash : Nat
  id : Nat
deriving DecidableEq, Repr

/-- The fields of the element; the hash types have three bits each. -/
def device (d : Bytes) : Device :=
  ⟨d.getD 0 0, d.getD 1 0, (d.getD 2 0).toNat % 8, (d.getD 2 0).toNat / 8 % 8, leNat (window d 4 4)⟩

/-- `cfm_flash_get_component_device_with_starting_entry`, cfm_flash.c:111-152, with the search of each turn: the component and the index behind it. -/
def component (id : Nat) : List Elem → Nat → Except Err (Device × Nat)
  | [], _ => .error .notFound
  | e :: es, i =>
    if e.ty ≠ 0x70 then component id es (i + 1)
    else if e.parent ≠ 0xff then .error .wrongParent
    else if e.data.length < 8 then .error .malformed
    else if (device e.data).transcript > 2 then .error .hashType
    else if (device e.data).hash > 2 then .error .hashType
    else if (device e.data).id = id then .ok (device e.data, i + 1)
    else component id es (i + 1)

/-- The loop of `cfm_flash_get_pmr_id_list`, cfm_flash.c:190-212. -/
def pmrLoop (es : List Elem) : Nat → Nat → Except Err (List UInt8)
  | 0, _ => .ok []
  | k + 1, entry =>
    match find 0x72 0x70 (es.drop entry) entry with
    | .error e => .error (if e = .childNotFound then .entryNotFound else e)
    | .ok (i, e) => if e.data.length < 4 then .error .malformed else (pmrLoop es k (i + 1)).map (e.data.getD 0 0 :: ·)

/-- `cfm_flash_get_component_device`, cfm_flash.c:223-258: the component and its PMRs. -/
def getDevice (es : List Elem) (id : Nat) : Except Err (Device × List UInt8) := do
  let (d, entry) ← component id es 0
  let ids ← pmrLoop es (childCount 0x70 0xff 0x72 (es.drop entry)) entry
  .ok (d, ids)

/-- The loop of `cfm_flash_buffer_supported_components`, cfm_flash.c:289-311. -/
def supportedLoop (length : Nat) : List Elem → BufferUtil.Cursor → Except Err Bytes
  | es, c =>
    if length ≤ c.out.length then .ok c.out
    else match es with
      | [] => if c.out.length ≠ 0 then .ok c.out else .error .notFound
      | e :: es =>
        if e.ty ≠ 0x70 then supportedLoop length es c
        else if e.parent ≠ 0xff then .error .wrongParent
        else if e.data.length < 8 then .error .malformed
        else supportedLoop length es (BufferUtil.bufferCopy (window e.data 4 4) c).2

/-- `cfm_flash_buffer_supported_components`, cfm_flash.c:269-316; `length` is not 0. -/
def supported (es : List Elem) (offset length : Nat) : Except Err Bytes := supportedLoop length es ⟨offset, length, []⟩

/-- `cfm_flash_get_next_element`, cfm_flash.c:340-405, from an entry other than 0: the element and the entry behind it. -/
def nextElem (es : List Elem) (ty : UInt8) (entry : Nat) : Except Err (Elem × Nat) :=
  if childCount 0x70 0xff ty (es.drop entry) = 0 then .error .entryNotFound
  else match find ty 0x70 (es.drop entry) entry with
    | .error e => .error (if e = .childNotFound then .entryNotFound else e)
    | .ok (i, e) => .ok (e, i + 1)

/-! ### PMRs and root CAs -/

/-- `cfm_flash_populate_digests`, cfm_flash.c:517-554. `heap`: what is in the memory that is allocated; the number of bytes read is not checked. -/
def populate (e : Elem) (count hash : Nat) (heap : Nat → UInt8) : Except Err Bytes :=
  match hashLen hash with
  | none => .error .unknownHash
  | some n =>
    if n * count = 0 then .error .noMemory
    else .ok (writeAt ((List.range (n * count)).map heap) 0 (window e.data 4 (n * count)))

/-- The loop of `cfm_flash_get_component_pmr`, cfm_flash.c:436-463. `buf`: the union with the element, of which only the bytes of the element are overwritten. `k` bounds the turns. -/
def pmrSearch (es : List Elem) (pmr : UInt8) (n : Nat) : Nat → Nat → Bytes → Except Err Bytes
  | 0, _, _ => .error .itemNotFound
  | k + 1, entry, buf =>
    match nextElem es 0x71 entry with
    | .error e => .error (if e = .entryNotFound then .itemNotFound else e)
    | .ok (e, entry) =>
      let buf := writeAt buf 0 (window e.data 0 68)
      if buf.getD 0 0 = pmr then .ok (window buf 4 n) else pmrSearch es pmr n k entry buf

/-- `cfm_flash_get_component_pmr`, cfm_flash.c:407-464: hash type and initial value. `stack`: the union before. -/
def getPmr (es : List Elem) (id : Nat) (pmr : UInt8) (stack : Bytes) : Except Err (Nat × Bytes) := do
  let (d, entry) ← component id es 0
  match hashLen d.hash with
  | none => .error .unknownHash
  | some n => do
    let v ← pmrSearch es pmr n es.length entry (writeAt stack 0 (((es.drop (entry - 1)).headD ⟨0, 0, []⟩).data.take 8))
    .ok (d.hash, v)

/-- The loop of `cfm_flash_get_component_pmr_digest`, cfm_flash.c:706-730. -/
def pmrDigestSearch (es : List Elem) (pmr : UInt8) (hash : Nat) (heap : Nat → UInt8) : Nat → Nat → Except Err Bytes
  | 0, _ => .error .itemNotFound
  | k + 1, entry =>
    match nextElem es 0x72 entry with
    | .error e => .error (if e = .entryNotFound then .itemNotFound else e)
    | .ok (e, entry) =>
      if e.data.length < 4 then .error .malformed
      else if e.data.getD 0 0 = pmr then populate e (e.data.getD 1 0).toNat hash heap
      else pmrDigestSearch es pmr hash heap k entry

/-- `cfm_flash_get_component_pmr_digest`, cfm_flash.c:678-731: hash type and digests. -/
def getPmrDigest (es : List Elem) (id : Nat) (pmr : UInt8) (heap : Nat → UInt8) : Except Err (Nat × Bytes) := do
  let (d, entry) ← component id es 0
  let v ← pmrDigestSearch es pmr d.hash heap es.length entry
  .ok (d.hash, v)

/-- `cfm_flash_get_root_ca_digest`, cfm_flash.c:1387-1434. -/
def getRootCa (es : List Elem) (id : Nat) (heap : Nat → UInt8) : Except Err (Nat × Bytes) := do
  let (d, entry) ← component id es 0
  match nextElem es 0x7a entry with
  | .error e => .error (if e = .entryNotFound then .itemNotFound else e)
  | .ok (e, _) =>
    if e.data.length < 4 then .error .malformed
    else do
      let v ← populate e (e.data.getD 0 0).toNat d.hash heap
      .ok (d.hash, v)

/-! ### Measurements -/

/-- `struct cfm_allowable_digests`, cfm.h. -/
structure DigestSet where
  version : Nat
  hash : Nat
  count : Nat
  digests : Bytes
deriving DecidableEq, Repr

/-- `struct cfm_measurement_container`, cfm.h:135-146. -/
inductive Cont where
  | digest (pmr id : UInt8) (sets : List DigestSet)
  | data (pmr id : UInt8) (checks : List Spec.Check)
  | aggregated (mask : Bytes) (pmr : UInt8) (hash : Nat) (sets : List DigestSet)
deriving DecidableEq

/-- `cfm_flash_populate_allowable_digests`, cfm_flash.c:574-667. -/
def digestSets (agg : Bool) (dflt : Nat) (e : Elem) : Nat → Nat → Except Err (List DigestSet)
  | 0, _ => .ok []
  | k + 1, off =>
    match read e off 4 with
    | none => .error .malformed
    | some h =>
      if (h.getD 3 0).toNat % 2 ≠ 0 ∧ agg then .error .malformed
      else
        let hash := if (h.getD 3 0).toNat % 2 ≠ 0 then (h.getD 3 0).toNat / 2 else dflt
        match hashLen hash with
        | none => .error .unknownHash
        | some n =>
          if (h.getD 2 0).toNat = 0 then .error .malformed
          else match read e (off + 4) ((h.getD 2 0).toNat * n) with
            | none => .error .malformed
            | some d => (digestSets agg dflt e k (off + 4 + (h.getD 2 0).toNat * n)).map (⟨leNat (window h 0 2), hash, (h.getD 2 0).toNat, d⟩ :: ·)

/-- `cfm_flash_get_next_measurement`, cfm_flash.c:743-790. -/
def nextDigest (es : List Elem) (dflt entry : Nat) : Except Err (Cont × Nat) := do
  let (e, entry) ← nextElem es 0x73 entry
  if e.data.length < 4 then .error .malformed
  else if (e.data.getD 2 0).toNat = 0 then .error .noMemory
  else do
    let s ← digestSets false dflt e (e.data.getD 2 0).toNat 4
    .ok (.digest (e.data.getD 0 0) (e.data.getD 1 0) s, entry)

/-- `cfm_flash_get_next_aggregated_measurement`, cfm_flash.c:803-860. -/
def nextAggregated (es : List Elem) (entry : Nat) : Except Err (Cont × Nat) := do
  let (e, entry) ← nextElem es 0x7b entry
  if e.data.length < 36 ∨ e.data.getD 34 0 = 0 then .error .malformed
  else if (e.data.getD 33 0).toNat > 2 then .error .hashType
  else do
    let s ← digestSets true (e.data.getD 33 0).toNat e (e.data.getD 34 0).toNat 36
    .ok (.aggregated (window e.data 0 32) (e.data.getD 32 0) (e.data.getD 33 0).toNat s, entry)

/-- `(length + 3) & ~3`. -/
def align4 (n : Nat) : Nat := (n + 3) / 4 * 4

/-- The loop over the values of a check, cfm_flash.c:1084-1132. -/
def values (e : Elem) : Nat → Nat → Except Err (List (Nat × Bytes))
  | 0, _ => .ok []
  | k + 1, off =>
    match read e off 4 with
    | none => .error .malformed
    | some h =>
      if leNat (window h 2 2) = 0 then .error .noMemory
      else match read e (off + 4) (leNat (window h 2 2)) with
        | none => .error .malformed
        | some d => (values e k (off + 4 + align4 (leNat (window h 2 2)))).map ((leNat (window h 0 2), d) :: ·)

/-- Reading a check, cfm_flash.c:1017-1132. Each read searches for the element again and finds the same one. -/
def check (e : Elem) : Except Err Spec.Check :=
  match read e 0 4 with
  | none => .error .malformed
  | some h =>
    match (if leNat (window h 2 2) = 0 then some [] else read e 4 (leNat (window h 2 2))) with
    | none => .error .malformed
    | some mask =>
      if (h.getD 1 0).toNat = 0 then .error .noMemory
      else (values e (h.getD 1 0).toNat (4 + align4 (leNat (window h 2 2)))).map fun v =>
        ⟨(h.getD 0 0).toNat % 8, decide ((h.getD 0 0).toNat / 128 = 1), mask, v⟩

/-- The loop over the checks, cfm_flash.c:1015-1136: the checks and the entry behind them. -/
def checks (es : List Elem) : Nat → Nat → Except Err (List Spec.Check × Nat)
  | 0, entry => .ok ([], entry)
  | k + 1, entry =>
    match find 0x75 0x74 (es.drop entry) entry with
    | .error e => .error (if e = .childNotFound then .entryNotFound else e)
    | .ok (i, e) =>
      match check e with
      | .error x => .error x
      | .ok c => (checks es k (i + 1)).map fun r => (c :: r.1, r.2)

/-- `cfm_flash_get_next_measurement_data`, cfm_flash.c:957-1144. -/
def nextData (es : List Elem) (entry : Nat) : Except Err (Cont × Nat) := do
  let (e, entry) ← nextElem es 0x74 entry
  if e.data.length < 4 then .error .malformed
  else if childCount 0x74 0x70 0x75 (es.drop entry) = 0 then .error .noMemory
  else do
    let r ← checks es (childCount 0x74 0x70 0x75 (es.drop entry)) entry
    .ok (.data (e.data.getD 0 0) (e.data.getD 1 0) r.1, r.2)

/-- `struct cfm_flash_measurement_context`, cfm_flash.c:1149-1155, and the current type, as the type of its element. -/
structure Ctx where
  hash : Nat
  entry : Nat
  first73 : Nat
  first74 : Nat
  first7b : Nat
  cur : UInt8
deriving DecidableEq

/-- `cfm_flash_select_next_measurement_container_type`, cfm_flash.c:1211-1260. The first entries are never `INT_MAX`, and below it. -/
def select (c : Ctx) : Option UInt8 :=
  let s : Option (UInt8 × Nat) := if c.first73 ≥ c.entry then some (0x73, c.first73) else none
  let s := if (∀ x ∈ s, c.first74 < x.2) ∧ c.first74 ≥ c.entry then some (0x74, c.first74) else s
  let s := if (∀ x ∈ s, c.first7b < x.2) ∧ c.first7b ≥ c.entry then some (0x7b, c.first7b) else s
  s.map (·.1)

/-- The next one of the current type, cfm_flash.c:1336-1347 and 1355-1366. -/
def nextOf (es : List Elem) (hash : Nat) (ty : UInt8) (entry : Nat) : Except Err (Cont × Nat) :=
  if ty = 0x73 then nextDigest es hash entry else if ty = 0x74 then nextData es entry else nextAggregated es entry

/-- The part of `cfm_flash_get_next_measurement_or_measurement_data` that follows, cfm_flash.c:1333-1374. -/
def step (es : List Elem) (c : Ctx) : Except Err (Cont × Ctx) :=
  match nextOf es c.hash c.cur c.entry with
  | .ok (r, entry) => .ok (r, { c with entry := entry })
  | .error e =>
    if e = .entryNotFound then
      match select c with
      | none => .error .entryNotFound
      | some ty =>
        match nextOf es c.hash ty c.entry with
        | .ok (r, entry) => .ok (r, { c with entry := entry, cur := ty })
        | .error e => .error e
    else .error e

/-- `cfm_flash_determine_version_set_element`, cfm_flash.c:1274-1298, with `cfm_flash_get_first_measurement_child_entries`, cfm_flash.c:1167-1199. -/
def start (es : List Elem) (id : Nat) : Except Err Ctx := do
  let (d, entry) ← component id es 0
  let f := fun ty => childFirst 0x70 0xff ty (es.drop entry) entry
  let c : Ctx := ⟨d.hash, entry, f 0x73, f 0x74, f 0x7b, 0x73⟩
  match select c with
  | none => .error .childNotFound
  | some ty => .ok { c with cur := ty }

/-- A caller that asks for the next measurement until there is none: `CFM_ENTRY_NOT_FOUND`. `none`: more than `k`. -/
def collect (es : List Elem) : Nat → Ctx → Option (Except Err (List Cont))
  | 0, _ => none
  | k + 1, c =>
    match step es c with
    | .ok (r, c') => (collect es k c').map fun x => x.map (r :: ·)
    | .error e => some (if e = .entryNotFound then .ok [] else .error e)

/-- All measurements of a component. -/
def measurements (es : List Elem) (id : Nat) (k : Nat) : Option (Except Err (List Cont)) :=
  match start es id with
  | .error e => some (.error e)
  | .ok c => collect es k c

/-! ### Allowed manifests -/

/-- `struct cfm_manifest`, cfm.h. -/
structure Manifest where
  index : UInt8
  platform : Bytes
  checks : List Spec.IdCheck
deriving DecidableEq

/-- Reading a check of identifiers, cfm_flash.c:1542-1593; the processor is little-endian. -/
def idCheck (e : Elem) : Except Err Spec.IdCheck :=
  match read e 0 4 with
  | none => .error .malformed
  | some h =>
    let n := (h.getD 1 0).toNat
    let big := decide ((h.getD 0 0).toNat / 128 = 1)
    if n = 0 then .error .noMemory
    else match read e 4 (4 * n) with
      | none => .error .malformed
      | some d => .ok ⟨(h.getD 0 0).toNat % 8, big, (List.range n).map fun i => (if big then beNat else leNat) (window d (4 * i) 4)⟩

/-- The loop over the checks, cfm_flash.c:1540-1596. -/
def idChecks (es : List Elem) (ty : UInt8) : Nat → Nat → Except Err (List Spec.IdCheck × Nat)
  | 0, entry => .ok ([], entry)
  | k + 1, entry =>
    match find 0x79 ty (es.drop entry) entry with
    | .error e => .error (if e = .childNotFound then .entryNotFound else e)
    | .ok (i, e) =>
      match idCheck e with
      | .error x => .error x
      | .ok c => (idChecks es ty k (i + 1)).map fun r => (c :: r.1, r.2)

/-- The string that is copied, cfm_flash.c:1517-1520: up to the terminator. `buf`: the element on the stack, 258 bytes. -/
def platformOf (buf : Bytes) : Bytes := (window buf 2 (buf.getD 1 0).toNat).takeWhile (· ≠ 0)

/-- `cfm_flash_get_next_manifest`, cfm_flash.c:1469-1604. `entry` 0: the first one. `stack`: the buffer of the element before it is read; the length of the element is not checked. -/
def nextManifest (es : List Elem) (id : Nat) (ty : UInt8) (stack : Bytes) (entry : Nat) : Except Err (Manifest × Nat) := do
  let entry ← if entry = 0 then (component id es 0).map (·.2) else .ok entry
  let (e, entry) ← nextElem es ty entry
  let buf := writeAt stack 0 (window e.data 0 258)
  if childCount ty 0x70 0x79 (es.drop entry) = 0 then .error .noMemory
  else do
    let r ← idChecks es ty (childCount ty 0x70 0x79 (es.drop entry)) entry
    .ok (⟨buf.getD 0 0, platformOf buf, r.1⟩, r.2)

/-- A caller that asks for all of them. -/
def manifests (es : List Elem) (id : Nat) (ty : UInt8) (stack : Bytes) : Nat → Nat → Option (Except Err (List Manifest))
  | 0, _ => none
  | k + 1, entry =>
    match nextManifest es id ty stack entry with
    | .ok (r, entry') => (manifests es id ty stack k entry').map fun x => x.map (r :: ·)
    | .error e => some (if e = .entryNotFound then .ok [] else .error e)

end Verif.CfmFlash
