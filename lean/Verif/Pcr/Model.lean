import Verif.Common.Res
import Verif.BufferUtil.Model
/-! Model of `core/attestation/pcr.c` and `core/attestation/pcr_store.c`.

Calls are taken to be atomic. The code changes a bank only under its lock; `pcr_update_buffer_common` (the event type), `pcr_get_measurement`
and the getters of single fields read it without the lock, so what they see when they race with an update is not modelled. NULL checks of the
arguments, failing allocations and mutexes are not modelled; hash engines are functions with a failure chosen by the environment.
The `digest` and `measurement` fields are arrays of 64 bytes of which only the first `hash_length` are ever used; the model keeps just those.
Integers in logs are little-endian, as on all supported targets. `size_t` has 32 bits. -/
namespace Verif.Pcr

/-- The hash algorithms `pcr_init` accepts, pcr.c:35-47 (with the default `PCR_MAX_DIGEST_LENGTH` and all of them enabled). -/
inductive Algo | sha256 | sha384 | sha512
deriving DecidableEq, Repr

/-- `hash_get_hash_length`, crypto/hash.c. -/
def Algo.len : Algo → Nat
  | .sha256 => 32
  | .sha384 => 48
  | .sha512 => 64

/-- The algorithms that can be asked for in `pcr_hash_measurement_data`: those with a known length, crypto/hash.c:`hash_get_hash_length`. The
SHA-3 variants, which no hash engine can start, are left out. -/
inductive HashType | sha1 | sha2 (a : Algo)
deriving DecidableEq, Repr

def HashType.len : HashType → Nat
  | .sha1 => 20
  | .sha2 a => a.len

/-- TCG algorithm ids, pcr.h:`PCR_TCG_SHA256_ALG_ID` and following. -/
def Algo.id : Algo → Nat
  | .sha256 => 0x0b
  | .sha384 => 0x0c
  | .sha512 => 0x0d

/-- `struct pcr_measured_data`, pcr_data.h: a value of 1, 2, 4 or 8 bytes, a memory buffer, a range of a flash device, or callbacks.
`rd` is the flash read function (`none`: the read fails), `get` the callback for the data with its total length, `hash` the callback that
feeds the data to a hash (`none`: not set; `some none`: fails; `some (some d)`: feeds `d`). A NULL memory buffer counts as an empty one. -/
inductive Data
  | value (b : Bytes)
  | memory (b : Bytes)
  | flash (rd : Nat → Nat → Option Bytes) (addr len : Nat)
  | callback (get : Nat → Nat → Option (Bytes × Nat)) (hash : Option (Option Bytes))

/-- `struct pcr_measurement`, pcr.h. -/
structure Meas where
  digest : Bytes
  measurement : Bytes
  data : Option Data
  event : Nat
  version : UInt8
  config : UInt8
  dmtf : Nat
  notTcb : Bool

/-- `struct pcr_bank`; `config.num_measurements` is the length of the list. -/
structure Bank where
  list : List Meas
  explicit : Bool
  algo : Algo

inductive Err
  | invalidArgument | invalidIndex | incorrectDigestLength | constantMeasurement | smallOutput | invalidValueType | invalidPcr
  | notAvailable | noHashCallback | invalidSequentialId | hash | flash | callback
deriving DecidableEq, Repr

/-- `PCR_MEASUREMENT_FLAG_*` in `measurement_config`, pcr.h. -/
def flagEvent : UInt8 := 1
def flagVersion : UInt8 := 2
def flagConstant : UInt8 := 0x80

def Meas.isEvent (m : Meas) : Bool := m.config &&& flagEvent ≠ 0
def Meas.isVersion (m : Meas) : Bool := m.config &&& flagVersion ≠ 0
def Meas.isConstant (m : Meas) : Bool := m.config &&& flagConstant ≠ 0

/-- `size_t` arithmetic. -/
def sizeMod : Nat := 2 ^ 32

def zeroMeas (a : Algo) : Meas := ⟨List.replicate a.len 0, List.replicate a.len 0, none, 0, 0, 0, 0, false⟩

/-- `pcr_init`, pcr.c:26-73, for a supported algorithm. -/
def init (num : Nat) (a : Algo) : Bank := ⟨List.replicate (if num = 0 then 1 else num) (zeroMeas a), num = 0, a⟩

/-- `pcr_get_num_measurements`, lines 96-107. -/
def num (b : Bank) : Nat := if b.explicit then 0 else b.list.length

/-- An access to `measurement_list[i]`. -/
def at' (b : Bank) (i : Nat) : Res Err Meas :=
  match b.list[i]? with
  | some m => .ok m
  | none => .oob

def setMeas (b : Bank) (i : Nat) (m : Meas) : Bank := { b with list := b.list.set i m }

/-- Hash function of an algorithm. -/
abbrev Hash := HashType → Bytes → Bytes

/-- `pcr_set_tcg_event_type`, lines 171-188. -/
def setEvent (b : Bank) (i ev : Nat) : Bank × Res Err Unit :=
  if i ≥ b.list.length then (b, .err .invalidIndex)
  else match at' b i with
    | .ok m => (setMeas b i { m with event := ev }, .ok ())
    | .err e => (b, .err e)
    | .oob => (b, .oob)

/-- `pcr_set_dmtf_value_type`, lines 225-248. -/
def setDmtf (b : Bank) (i ty : Nat) (notTcb : Bool) : Bank × Res Err Unit :=
  if i ≥ b.list.length then (b, .err .invalidIndex)
  else if ty ≥ 5 then (b, .err .invalidValueType)
  else match at' b i with
    | .ok m => (setMeas b i { m with dmtf := ty, notTcb := notTcb }, .ok ())
    | .err e => (b, .err e)
    | .oob => (b, .oob)

/-- `pcr_update_digest_common`, lines 308-343. -/
def updateDigestCommon (b : Bank) (i : Nat) (digest : Bytes) (config version : UInt8) : Bank × Res Err Unit :=
  if digest.length ≠ b.algo.len then (b, .err .incorrectDigestLength)
  else if i ≥ b.list.length then (b, .err .invalidIndex)
  else match at' b i with
    | .ok m => if m.isConstant then (b, .err .constantMeasurement)
      else (setMeas b i { m with digest := digest, config := config, version := version }, .ok ())
    | .err e => (b, .err e)
    | .oob => (b, .oob)

/-- `measurement_config` as it is put together in `pcr_update_buffer_common`. -/
def mkConfig (event version const : Bool) : UInt8 :=
  (if event then flagEvent else 0) ||| (if version then flagVersion else 0) ||| (if const then flagConstant else 0)

/-- The event type included in the hash, lines 398-407. -/
def eventBytes (b : Bank) (i : Nat) (event : Bool) : Res Err Bytes :=
  if event then match at' b i with
    | .ok m => .ok (toLE 4 m.event)
    | .err e => .err e
    | .oob => .oob
  else .ok []

/-- `pcr_update_buffer_common`, lines 379-442. `fail1`: starting the hash fails; `fail2`: a later hash call fails. `version = none`: not
included. -/
def updateBufferCommon (H : Hash) (fail1 fail2 : Bool) (b : Bank) (i : Nat) (buf : Bytes) (event : Bool) (version : Option UInt8) (const : Bool) :
    Bank × Res Err Unit :=
  if event = false ∧ version = none ∧ buf.length = 0 then (b, .err .invalidArgument)
  else if fail1 then (b, .err .hash)
  else match eventBytes b i event with
    | .oob => (b, .oob)
    | .err e => (b, .err e)
    | .ok ev =>
      if fail2 then (b, .err .hash)
      else updateDigestCommon b i (H (.sha2 b.algo) (ev ++ version.toList ++ buf))
        (mkConfig event version.isSome const) (version.getD 0)

/-- `pcr_invalidate_measurement`, lines 574-603. -/
def invalidate (b : Bank) (i : Nat) : Bank × Res Err Unit :=
  if i ≥ b.list.length then (b, .err .invalidIndex)
  else match at' b i with
    | .ok m => if m.isConstant then (b, .err .constantMeasurement)
      else (setMeas b i { m with digest := List.replicate b.algo.len 0 }, .ok ())
    | .err e => (b, .err e)
    | .oob => (b, .oob)

/-- The loop of `pcr_compute`, lines 644-667. `fail = some n`: hashing fails at the `n`-th measurement. -/
def computeLoop (h : Bytes → Bytes) : List Meas → Bytes → Option Nat → List Meas × Option Bytes
  | [], prev, _ => ([], some prev)
  | m :: ms, prev, fail =>
    if fail = some 0 then (m :: ms, none)
    else
      let v := h (prev ++ m.digest)
      let r := computeLoop h ms v (fail.map (· - 1))
      ({ m with measurement := v } :: r.1, r.2)

/-- `pcr_compute`, lines 621-689; `length`: the size of the output buffer, `none` for no output. -/
def compute (H : Hash) (fail : Option Nat) (b : Bank) (length : Option Nat) : Bank × Res Err Bytes :=
  if length.any (· < b.algo.len) then (b, .err .smallOutput)
  else if b.explicit then
    match at' b 0 with
    | .ok m => (b, .ok m.digest)
    | .err e => (b, .err e)
    | .oob => (b, .oob)
  else
    let r := computeLoop (H (.sha2 b.algo)) b.list (List.replicate b.algo.len 0) fail
    ({ b with list := r.1 }, match r.2 with | some v => .ok v | none => .err .hash)

/-- `pcr_get_measurement`, lines 701-716. -/
def getMeasurement (b : Bank) (i : Nat) : Res Err Meas :=
  if i ≥ b.list.length then .err .invalidIndex else at' b i

/-- The getters `pcr_check_measurement_index` (117-128), `pcr_get_tcg_event_type` (199-212), `pcr_get_dmtf_value_type` (259-273),
`pcr_is_measurement_in_tcb` (283-294) and `pcr_is_measurement_data_available` (746-757). -/
def checkIndex (b : Bank) (i : Nat) : Res Err Unit := if i ≥ b.list.length then .err .invalidIndex else .ok ()
def getEvent (b : Bank) (i : Nat) : Res Err Nat := if i ≥ b.list.length then .err .invalidIndex else Res.bind (at' b i) fun m => .ok m.event
def getDmtf (b : Bank) (i : Nat) : Res Err Nat := if i ≥ b.list.length then .err .invalidIndex else Res.bind (at' b i) fun m => .ok m.dmtf
def inTcb (b : Bank) (i : Nat) : Res Err Bool := if i ≥ b.list.length then .err .invalidIndex else Res.bind (at' b i) fun m => .ok (!m.notTcb)
def hasData (b : Bank) (i : Nat) : Res Err Bool := if i ≥ b.list.length then .err .invalidIndex else Res.bind (at' b i) fun m => .ok m.data.isSome

/-- `pcr_set_measurement_data`, lines 768-812. The refusal of a descriptor with an unknown type, no flash device or no callback is left out:
`Data` has no such values. -/
def setData (b : Bank) (i : Nat) (d : Option Data) : Bank × Res Err Unit :=
  if i ≥ b.list.length then (b, .err .invalidIndex)
  else match at' b i with
    | .ok m => (setMeas b i { m with data := d }, .ok ())
    | .err e => (b, .err e)
    | .oob => (b, .oob)

/-- `memcpy (buffer, data + offset, n)`. Bytes behind the end of `data` are whatever is there in memory (0xa5 here), so that reading too far
shows in the result. -/
def copyFrom (data : Bytes) (offset n : Nat) : Bytes := (data.drop offset).take n ++ List.replicate (n - (data.length - offset)) 0xa5

/-- `pcr_read_measurement_data_bytes`, lines 826-840. -/
def readBytes (data : Bytes) (offset length : Nat) : Bytes :=
  if data.length = 0 ∨ length = 0 ∨ offset > data.length - 1 then []
  else copyFrom data offset (if data.length - offset > length then length else data.length - offset)

/-- Lines 885-901 and 903-918: a fixed part in front of the data. Result: the bytes read, the new offset and length, the size of the part. -/
def readPart (incl : Bool) (src : Bytes) (offset length : Nat) : Bytes × Nat × Nat × Nat :=
  if incl then
    if offset < src.length then
      let r := readBytes src offset length
      (r, 0, length - r.length, src.length)
    else ([], offset - src.length, length, src.length)
  else ([], offset, length, 0)

/-- The `switch` of lines 920-994: bytes read and size of the data. -/
def readSource (d : Data) (offset length : Nat) : Res Err (Bytes × Nat) :=
  match d with
  | .value b => .ok (readBytes b offset length, b.length)
  | .memory b => .ok (readBytes b offset length, b.length)
  | .flash rd addr len =>
    if offset > (len + sizeMod - 1) % sizeMod then .ok ([], len)
    else
      let rest := (len + sizeMod - offset) % sizeMod
      match rd ((addr + offset) % sizeMod) (if rest > length then length else rest) with
      | some r => .ok (r, len)
      | none => .err .flash
  | .callback get _ =>
    match get offset length with
    | some r => .ok r
    | none => .err .callback

/-- `pcr_get_measurement_data_internal`, lines 858-997, for the measurement `m`: the bytes read and `*total_len`. -/
def readData (m : Meas) (offset length : Nat) : Res Err (Bytes × Nat) :=
  match m.data with
  | none => .ok ([], 0)
  | some d =>
    let (b1, o1, l1, t1) := readPart m.isEvent (toLE 4 m.event) offset length
    let (b2, o2, l2, t2) := readPart m.isVersion [m.version] o1 l1
    match readSource d o2 l2 with
    | .ok (b3, t3) => .ok (b1 ++ b2 ++ b3, (t1 + t2 + t3) % sizeMod)
    | .err e => .err e
    | .oob => .oob

/-- `pcr_get_measurement_data`, lines 1016-1033. -/
def getData (b : Bank) (i offset length : Nat) : Res Err (Bytes × Nat) :=
  if i ≥ b.list.length then .err .invalidIndex
  else match at' b i with
    | .ok m => readData m offset length
    | .err e => .err e
    | .oob => .oob

/-- What the `switch` of lines 1120-1161 feeds to the hash. The flash content is hashed in pieces (`flash_hash_update_contents`, proved in
`Flash` to be the same as hashing the whole range). -/
def feedSource (d : Data) : Res Err Bytes :=
  match d with
  | .value b => .ok b
  | .memory b => .ok b
  | .flash rd addr len => match rd addr len with | some r => .ok r | none => .err .flash
  | .callback _ none => .err .noHashCallback
  | .callback _ (some none) => .err .callback
  | .callback _ (some (some d)) => .ok d

/-- `pcr_hash_measurement_data`, lines 1052-1181. -/
def hashData (H : Hash) (fail : Bool) (b : Bank) (i : Nat) (ty : HashType) (length : Nat) : Res Err Bytes :=
  if i ≥ b.list.length then .err .invalidIndex
  else if length < ty.len then .err .smallOutput
  else match at' b i with
    | .err e => .err e
    | .oob => .oob
    | .ok m =>
      if ty = .sha2 b.algo then .ok m.digest
      else match m.data with
        | none => .err .notAvailable
        | some d =>
          if fail then .err .hash
          else match feedSource d with
            | .ok s => .ok (H ty ((if m.isEvent then toLE 4 m.event else []) ++ (if m.isVersion then [m.version] else []) ++ s))
            | .err e => .err e
            | .oob => .oob

/-- `struct pcr_tcg_event2_header` with digest and event size, pcr.h. -/
def tcgEntry (pcr : Nat) (a : Algo) (m : Meas) (size : Nat) : Bytes :=
  toLE 4 pcr ++ toLE 4 m.event ++ toLE 4 1 ++ toLE 2 a.id ++ m.digest ++ toLE 4 size

/-- `entry_total_len`, lines 1231-1262. -/
def tcgEntryLen (a : Algo) : Nat := 14 + a.len + 4

/-- The loop of `pcr_get_tcg_log`, lines 1266-1315: the bytes written and `*total_len`. -/
def tcgLoop (pcr : Nat) (a : Algo) : List Meas → Nat → Nat → Res Err (Bytes × Nat)
  | [], _, _ => .ok ([], 0)
  | m :: ms, offset, length =>
    if length = 0 then .ok ([], 0)
    else
      let tl := tcgEntryLen a
      let elen := if offset ≥ tl then 0 else min (tl - offset) length
      let off1 := if offset ≥ tl then offset - tl else 0
      let len1 := length - elen
      match readData m off1 len1 with
      | .err e => .err e
      | .oob => .oob
      | .ok (d, size) =>
        let off2 := if d.length > 0 then 0 else (off1 + sizeMod - size) % sizeMod
        match tcgLoop pcr a ms off2 (len1 - d.length) with
        | .err e => .err e
        | .oob => .oob
        | .ok (rest, total) => .ok (((tcgEntry pcr a m size).drop offset).take elen ++ d ++ rest, (tl + size + total) % sizeMod)

/-- `pcr_get_tcg_log`, lines 1197-1326. -/
def tcgLog (b : Bank) (pcr offset length : Nat) : Res Err (Bytes × Nat) :=
  if b.explicit then .ok ([], 0) else tcgLoop pcr b.algo b.list offset length

/-! ### The store -/

/-- `pcr_store_check_measurement_type` and the other entry points split a measurement type: pcr_store.c:16-21, 94-108. -/
def pcrOf (t : Nat) : Nat := t / 256 % 256
def idxOf (t : Nat) : Nat := t % 256

/-- The shape of every call of the store on one measurement, for example `pcr_store_update_digest`, lines 367-382: `f` is the call on the bank. -/
def onBank (st : List Bank) (t : Nat) (f : Bank → Nat → Bank × Res Err Unit) : List Bank × Res Err Unit :=
  if pcrOf t ≥ st.length then (st, .err .invalidPcr)
  else match st[pcrOf t]? with
    | some b => (st.set (pcrOf t) (f b (idxOf t)).1, (f b (idxOf t)).2)
    | none => (st, .oob)

/-- `pcr_store_get_measurement_data_length`, lines 757-780, for the bank the type selects. -/
def dataLength (b : Bank) (i : Nat) : Res Err Nat :=
  match getData b i 0 0 with
  | .err e => .err e
  | .oob => .oob
  | .ok (r, total) => if r.length ≠ 0 then .ok r.length else if total = 0 then .err .notAvailable else .ok total

/-- `pcr_store_get_measurement_type`, pcr_store.c:134-168: bank and index. -/
def measurementType : List Bank → Nat → Nat → Res Err (Nat × Nat)
  | [], _, _ => .err .invalidSequentialId
  | b :: bs, pcr, id =>
    if num b = 0 then measurementType bs (pcr + 1) id
    else if id ≥ num b then measurementType bs (pcr + 1) (id - num b)
    else .ok (pcr, id)

/-- `pcr_store_get_num_total_measurements`, lines 193-207. -/
def totalMeasurements (st : List Bank) : Nat := (st.map num).sum

/-- The size of one entry of the attestation log: header, info, digest, size, measurement (pcr_store.h, logging.h). -/
def attEntryLen (a : Algo) : Nat := 7 + 14 + a.len + 4 + a.len

/-- `pcr_store_get_attestation_log_size`, lines 790-827. -/
def attLogSize (st : List Bank) : Nat := (st.map (fun b => num b * attEntryLen b.algo)).sum

/-- The entry put together in lines 932-944. -/
def attEntry (id pcr i : Nat) (a : Algo) (m : Meas) : Bytes :=
  toLE 1 0xcb ++ toLE 2 (attEntryLen a) ++ toLE 4 id ++ toLE 4 m.event ++ toLE 4 (pcr * 256 + i) ++ toLE 4 1 ++ toLE 2 a.id ++
  m.digest ++ toLE 4 a.len ++ m.measurement

/-- The loop of lines 931-952. -/
def attBank (pcr : Nat) (a : Algo) : List Meas → Nat → Nat → BufferUtil.Cursor → Nat × BufferUtil.Cursor
  | [], _, id, c => (id, c)
  | m :: ms, i, id, c =>
    if c.destLength = 0 then (id, c)
    else attBank pcr a ms (i + 1) (id + 1) (BufferUtil.bufferCopy (attEntry id pcr i a m) c).2

/-- The loop of lines 873-956. `fails`: the hash failure of each `pcr_compute`. The measurements are those of the bank, lines 892-928. -/
def attLoop (H : Hash) : List Bank → List (Option Nat) → Nat → Nat → BufferUtil.Cursor → List Bank × Res Err Bytes
  | [], _, _, _, c => ([], .ok c.out)
  | b :: bs, fails, pcr, id, c =>
    if c.destLength = 0 then (b :: bs, .ok c.out)
    else if num b = 0 then
      let r := attLoop H bs fails.tail (pcr + 1) id c
      (b :: r.1, r.2)
    else match compute H (fails.headD none) b none with
      | (b, .err e) => (b :: bs, .err e)
      | (b, .oob) => (b :: bs, .oob)
      | (b, .ok _) =>
        let (id, c) := attBank pcr b.algo b.list 0 id c
        let r := attLoop H bs fails.tail (pcr + 1) id c
        (b :: r.1, r.2)

/-- `pcr_store_get_attestation_log`, lines 844-959. -/
def attLog (H : Hash) (st : List Bank) (fails : List (Option Nat)) (offset length : Nat) : List Bank × Res Err Bytes :=
  attLoop H st fails 0 0 ⟨offset, length, []⟩

/-- The algorithms found so far in lines 1005-1045 with the bits of `algo_added`. -/
def addAlgo (l : List Algo) (a : Algo) : List Algo := if a ∈ l then l else l ++ [a]

/-- The log header, lines 993-1048. "Spec ID Event03". The last byte stands for `vendor_info_size`. With fewer than three algorithms the code
copies the byte that follows the used part of `digest_size`, which is zero as well. -/
def tcgHeader (st : List Bank) : Bytes :=
  let algs := st.foldl (fun l b => addAlgo l b.algo) []
  [0x53, 0x70, 0x65, 0x63, 0x20, 0x49, 0x44, 0x20, 0x45, 0x76, 0x65, 0x6e, 0x74, 0x30, 0x33, 0] ++ toLE 4 1 ++ [0, 2, 0, 1] ++ toLE 4 algs.length ++
  (algs.map (fun a => toLE 2 a.id ++ toLE 2 a.len)).flatten ++ [0]

/-- The event in front of the header, lines 1051-1055. -/
def tcgEvent1 (size : Nat) : Bytes := toLE 4 0 ++ toLE 4 3 ++ List.replicate 20 0 ++ toLE 4 size

/-- The loop of lines 1069-1086. -/
def storeTcgLoop : List Bank → Nat → Nat → Nat → Res Err Bytes
  | [], _, _, _ => .ok []
  | b :: bs, i, offset, length =>
    if length = 0 then .ok []
    else match tcgLog b i offset length with
      | .err e => .err e
      | .oob => .oob
      | .ok (r, total) =>
        let offset := if r.length = 0 then (offset + sizeMod - total) % sizeMod else 0
        match storeTcgLoop bs (i + 1) offset (length - r.length) with
        | .err e => .err e
        | .oob => .oob
        | .ok rest => .ok (r ++ rest)

/-- `pcr_store_get_tcg_log`, lines 974-1089. -/
def storeTcgLog (st : List Bank) (offset length : Nat) : Res Err Bytes :=
  let h := tcgHeader st
  let c : BufferUtil.Cursor := ⟨offset, length, []⟩
  let c := (BufferUtil.bufferCopy (tcgEvent1 h.length) c).2
  let c := (BufferUtil.bufferCopy h c).2
  match storeTcgLoop st 0 c.offset c.destLength with
  | .err e => .err e
  | .oob => .oob
  | .ok r => .ok (c.out ++ r)

end Verif.Pcr
