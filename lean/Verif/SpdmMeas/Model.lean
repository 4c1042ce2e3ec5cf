import Verif.SpdmMeas.Spec
/-!
Model of `core/spdm/spdm_measurements.c`, `core/spdm/spdm_measurements_discovery.c` and
`core/spdm/spdm_discovery.c`, over the model of the PCR store (`Pcr`).

Null arguments and unknown hash types are not modelled. Lengths are below 2^31, so that they are not
taken for errors. Integers are little-endian. Every access takes the lock of its PCR for itself; where
that matters the store is given twice, as it is at the first and at the second access.
-/
namespace Verif.SpdmMeas
open Verif

/-- Errors, spdm_measurements.h. -/
inductive Err
  | tooSmall
  | noBitStream
  | noHash
  | reservedId
  | sameEngine
  | engine
  | pcr (e : Pcr.Err)
deriving DecidableEq, Repr

/-- A result of the PCR store. -/
def ofPcr {α : Type} : Res Pcr.Err α → Res Err α
  | .ok a => .ok a
  | .err e => .err (.pcr e)
  | .oob => .oob

/-- `spdm_measurements_get_bit_stream_length`, spdm_measurements.c:51-62. -/
def bitStreamLength (b : Pcr.Bank) (j : Nat) : Res Err Nat :=
  match Pcr.dataLength b j with
  | .ok n => .ok n
  | .err e => if e = .notAvailable then .err .noBitStream else .err (.pcr e)
  | .oob => .oob

/-- The PCR of a measurement type; the store checks its number in every call (pcr_store.c). -/
def bankOf (st : List Pcr.Bank) (p : Nat) : Res Err Pcr.Bank :=
  match st[p]? with
  | some b => .ok b
  | none => .err (.pcr .invalidPcr)

/-- The value, spdm_measurements.c:101-137. `s` is the store when the length is read, `s'` when the data are. -/
def blockValue (H : Pcr.Hash) (fail : Bool) (s s' : List Pcr.Bank) (p j : Nat) (raw : Bool) (ty : Pcr.HashType) (max : Nat) :
    Res Err Bytes :=
  if raw then
    Res.bind (bankOf s p) fun b =>
    Res.bind (bitStreamLength b j) fun n =>
    if n > max then .err .tooSmall
    else Res.bind (bankOf s' p) fun b => Res.bind (ofPcr (Pcr.getData b j 0 max)) fun r => .ok r.1
  else
    Res.bind (bankOf s' p) fun b =>
    match Pcr.hashData H fail b j ty max with
    | .ok v => .ok v
    | .err e => if e = .smallOutput then .err .tooSmall else if e = .notAvailable then .err .noHash else .err (.pcr e)
    | .oob => .oob

/-- `pcr_store_get_dmtf_value_type` at spdm_measurements.c:89, 99: the type stays `RESERVED` (11) on an error. -/
def valueType (s : List Pcr.Bank) (p j : Nat) : Nat :=
  match Res.bind (bankOf s p) fun b => ofPcr (Pcr.getDmtf b j) with
  | .ok t => t
  | _ => 11

/-- The headers, spdm_measurements.c:139-147; the fields have 16 and 7 bits. -/
def header (id : UInt8) (raw : Bool) (type n : Nat) : Bytes :=
  id :: 1 :: (toLE 2 ((3 + n) % 65536) ++ UInt8.ofNat (type % 128 + if raw then 128 else 0) :: toLE 2 (n % 65536))

/-- `spdm_measurements_build_measurement_block`, spdm_measurements.c:81-148. -/
def buildBlock (H : Pcr.Hash) (fail : Bool) (s s' : List Pcr.Bank) (id : UInt8) (p j : Nat) (raw : Bool) (ty : Pcr.HashType)
    (length : Nat) : Res Err Bytes :=
  if length < 7 then .err .tooSmall
  else Res.bind (blockValue H fail s s' p j raw ty (length - 7)) fun v => .ok (header id raw (valueType s p j) v.length ++ v)

/-- `spdm_measurements_get_measurement_count`, spdm_measurements.c:11-18. -/
def count (s : List Pcr.Bank) : Nat := Pcr.totalMeasurements s

/-- `spdm_measurements_get_measurement_type`, spdm_measurements.c:28-41. -/
def typeOf (s : List Pcr.Bank) (id : UInt8) : Res Err (Nat × Nat) :=
  if id = 0 ∨ id = 0xff then .err .reservedId else ofPcr (Pcr.measurementType s 0 (id.toNat - 1))

/-- `spdm_measurements_get_measurement_block`, spdm_measurements.c:150-171. -/
def getBlock (H : Pcr.Hash) (fail : Bool) (s s' : List Pcr.Bank) (id : UInt8) (raw : Bool) (ty : Pcr.HashType) (length : Nat) :
    Res Err Bytes :=
  Res.bind (typeOf s id) fun t => buildBlock H fail s s' id t.1 t.2 raw ty length

/-- `spdm_measurements_get_measurement_block_length`, spdm_measurements.c:173-190. -/
def blockLength (s : List Pcr.Bank) (id : UInt8) : Res Err Nat :=
  Res.bind (typeOf s id) fun t => Res.bind (bankOf s t.1) fun b => Res.bind (bitStreamLength b t.2) fun n => .ok (7 + n)

/-- The order of the loops in spdm_measurements.c:209-217, 260-266 and 363-371. -/
def order : Nat → List Pcr.Bank → List (Nat × Nat)
  | _, [] => []
  | p, b :: bs => (List.range (Pcr.num b)).map (fun j => (p, j)) ++ order (p + 1) bs

/-- One turn of the loop, spdm_measurements.c:219-227: the digest if there is no bit stream. -/
def eitherBlock (H : Pcr.Hash) (fail : Bool) (s : List Pcr.Bank) (id : UInt8) (t : Nat × Nat) (raw : Bool) (ty : Pcr.HashType)
    (length : Nat) : Res Err Bytes :=
  match buildBlock H fail s s id t.1 t.2 raw ty length with
  | .err .noBitStream => buildBlock H fail s s id t.1 t.2 false ty length
  | r => r

/-- The loop, spdm_measurements.c:211-234. The index has 8 bits. -/
def allLoop (H : Pcr.Hash) (fail : Nat × Nat → Bool) (s : List Pcr.Bank) (raw : Bool) (ty : Pcr.HashType) :
    List (Nat × Nat) → UInt8 → Nat → Res Err Bytes
  | [], _, _ => .ok []
  | t :: ts, id, length =>
    Res.bind (eitherBlock H (fail t) s id t raw ty length) fun b =>
    Res.bind (allLoop H fail s raw ty ts (id + 1) (length - b.length)) fun r => .ok (b ++ r)

/-- `spdm_measurements_get_all_measurement_blocks`, spdm_measurements.c:192-237. -/
def allBlocks (H : Pcr.Hash) (fail : Nat × Nat → Bool) (s : List Pcr.Bank) (raw : Bool) (ty : Pcr.HashType) (length : Nat) :
    Res Err Bytes := allLoop H fail s raw ty (order 0 s) 1 length

/-- The size of one block, spdm_measurements.c:268-283. -/
def sizeOf1 (s : List Pcr.Bank) (raw : Bool) (ty : Pcr.HashType) (t : Nat × Nat) : Res Err Nat :=
  if raw then
    match Res.bind (bankOf s t.1) fun b => bitStreamLength b t.2 with
    | .err .noBitStream => .ok (7 + ty.len)
    | .err e => .err e
    | .oob => .oob
    | .ok n => .ok (7 + n)
  else .ok (7 + ty.len)

/-- `spdm_measurements_get_all_measurement_blocks_length`, spdm_measurements.c:239-288. -/
def allLength (s : List Pcr.Bank) (raw : Bool) (ty : Pcr.HashType) : Res Err Nat :=
  let rec go : List (Nat × Nat) → Res Err Nat
    | [] => .ok 0
    | t :: ts => Res.bind (sizeOf1 s raw ty t) fun n => Res.bind (go ts) fun r => .ok (n + r)
  go (order 0 s)

/-- `pcr_store_is_measurement_in_tcb` as a condition, spdm_measurements.c:373: an error counts as true. -/
def inTcb (s : List Pcr.Bank) (t : Nat × Nat) : Bool :=
  match Res.bind (bankOf s t.1) fun b => ofPcr (Pcr.inTcb b t.2) with
  | .ok x => x
  | _ => true

/-- `spdm_measurements_update_summary_hash`, spdm_measurements.c:349-390: what the hash is given. The
buffer has room for the longest digest (64 bytes). -/
def summaryLoop (H : Pcr.Hash) (fail : Nat × Nat → Bool) (s : List Pcr.Bank) (ty : Pcr.HashType) (onlyTcb : Bool) :
    List (Nat × Nat) → UInt8 → Res Err Bytes
  | [], _ => .ok []
  | t :: ts, id =>
    if !onlyTcb || inTcb s t then
      Res.bind (buildBlock H (fail t) s s id t.1 t.2 false ty 71) fun b =>
      Res.bind (summaryLoop H fail s ty onlyTcb ts (id + 1)) fun r => .ok (b ++ r)
    else summaryLoop H fail s ty onlyTcb ts (id + 1)

/-- `spdm_measurements_start_summary_hash`, spdm_measurements.c:303-333. `engine` says whether a call on the
summary hash fails. -/
def startSummary (same engine : Bool) (sty : Pcr.HashType) (length : Nat) : Res Err Unit :=
  if same then .err .sameEngine else if engine then .err .engine else if length < sty.len then .err .tooSmall else .ok ()

/-- `spdm_measurements_get_measurement_summary_hash`, spdm_measurements.c:392-417. -/
def summary (H : Pcr.Hash) (fail : Nat × Nat → Bool) (same engine engine2 : Bool) (s : List Pcr.Bank) (sty ty : Pcr.HashType)
    (onlyTcb : Bool) (length : Nat) : Res Err Bytes :=
  Res.bind (startSummary same engine sty length) fun _ =>
  Res.bind (summaryLoop H fail s ty onlyTcb (order 0 s) 1) fun r =>
  if engine2 then .err .engine else .ok (H sty r)

/-! ### Discovery -/

/-- `spdm_discovery_device_id_init`, spdm_discovery.c:19-45, as bytes (packed, spdm_discovery.h:48-85). -/
def deviceIdInit (vendor device subVendor subsystem : UInt16) : Bytes :=
  [0] ++ toLE 4 24 ++ [4] ++
  (toLE 2 0x0000 ++ toLE 2 2 ++ toLE 2 vendor.toNat) ++
  (toLE 2 0x0100 ++ toLE 2 2 ++ toLE 2 device.toNat) ++
  (toLE 2 0x0101 ++ toLE 2 2 ++ toLE 2 subVendor.toNat) ++
  (toLE 2 0x0102 ++ toLE 2 2 ++ toLE 2 subsystem.toNat)

/-- `spdm_measurements_discovery_build_device_id_block`, spdm_measurements_discovery.c:32-81. -/
def buildDevice (H : Pcr.Hash) (fail : Bool) (d : Bytes) (raw : Bool) (ty : Pcr.HashType) (length : Nat) : Res Err Bytes :=
  if length < 7 then .err .tooSmall
  else if raw then
    if length - 7 < d.length then .err .tooSmall else .ok (header 0xef true 2 d.length ++ d)
  else if fail then .err .engine
  else if length - 7 < ty.len then .err .tooSmall
  else .ok (header 0xef false 2 (H ty d).length ++ H ty d)

/-- `spdm_measurements_discovery_get_measurement_count`, spdm_measurements_discovery.c:10-18. -/
def dCount (s : List Pcr.Bank) : Nat := count s + 1

/-- `spdm_measurements_discovery_get_measurement_block`, spdm_measurements_discovery.c:83-101. -/
def dGetBlock (H : Pcr.Hash) (fail : Bool) (d : Bytes) (s s' : List Pcr.Bank) (id : UInt8) (raw : Bool) (ty : Pcr.HashType)
    (length : Nat) : Res Err Bytes :=
  match getBlock H fail s s' id raw ty length with
  | .err (.pcr .invalidSequentialId) =>
    if id = 0xef then buildDevice H fail d raw ty length else .err (.pcr .invalidSequentialId)
  | r => r

/-- `spdm_measurements_discovery_get_measurement_block_length`, spdm_measurements_discovery.c:103-116. -/
def dBlockLength (d : Bytes) (s : List Pcr.Bank) (id : UInt8) : Res Err Nat :=
  if id = 0xef then .ok (7 + d.length) else blockLength s id

/-- `spdm_measurements_discovery_get_all_measurement_blocks`, spdm_measurements_discovery.c:118-138. -/
def dAllBlocks (H : Pcr.Hash) (fail : Nat × Nat → Bool) (failD : Bool) (d : Bytes) (s : List Pcr.Bank) (raw : Bool)
    (ty : Pcr.HashType) (length : Nat) : Res Err Bytes :=
  Res.bind (allBlocks H fail s raw ty length) fun r =>
  Res.bind (buildDevice H failD d raw ty (length - r.length)) fun x => .ok (r ++ x)

/-- `spdm_measurements_discovery_get_all_measurement_blocks_length`, spdm_measurements_discovery.c:140-160. -/
def dAllLength (d : Bytes) (s : List Pcr.Bank) (raw : Bool) (ty : Pcr.HashType) : Res Err Nat :=
  Res.bind (allLength s raw ty) fun n => .ok (n + (7 + if raw then d.length else ty.len))

/-- `spdm_measurements_discovery_get_measurement_summary_hash`, spdm_measurements_discovery.c:162-206. -/
def dSummary (H : Pcr.Hash) (fail : Nat × Nat → Bool) (failD same engine engine2 : Bool) (d : Bytes) (s : List Pcr.Bank)
    (sty ty : Pcr.HashType) (onlyTcb : Bool) (length : Nat) : Res Err Bytes :=
  Res.bind (startSummary same engine sty length) fun _ =>
  Res.bind (summaryLoop H fail s ty onlyTcb (order 0 s) 1) fun r =>
  Res.bind (if onlyTcb then .ok [] else buildDevice H failD d false ty 71) fun x =>
  if engine2 then .err .engine else .ok (H sty (r ++ x))

end Verif.SpdmMeas
