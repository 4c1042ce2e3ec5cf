import Verif.Pcr.Model
/-! What the PCR properties C35-C40 and C57 are about, stated without the code's loops. -/
namespace Verif.Pcr

/-! ### Histories -/

/-- The calls that can change a bank. `fail…` are failures of the hash engine chosen by the environment. -/
inductive Op
  | setEvent (i ev : Nat)
  | setDmtf (i ty : Nat) (notTcb : Bool)
  | updateDigest (i : Nat) (digest : Bytes) (const : Bool)
  | updateBuffer (fail1 fail2 : Bool) (i : Nat) (buf : Bytes) (event : Bool) (version : Option UInt8) (const : Bool)
  | invalidate (i : Nat)
  | setData (i : Nat) (d : Option Data)
  | compute (fail : Option Nat) (length : Option Nat)

/-- A call on a bank. `pcr_update_digest` (355-359) and `pcr_const_update_digest` (506-511), `pcr_update_buffer`, `pcr_update_versioned_buffer`,
`pcr_const_update_buffer` and `pcr_const_update_versioned_buffer` (457-564) only choose arguments. -/
def step (H : Hash) (b : Bank) : Op → Bank × Res Err Unit
  | .setEvent i ev => Pcr.setEvent b i ev
  | .setDmtf i ty n => Pcr.setDmtf b i ty n
  | .updateDigest i d const => updateDigestCommon b i d (if const then flagConstant else 0) 0
  | .updateBuffer f1 f2 i buf event version const => updateBufferCommon H f1 f2 b i buf event version const
  | .invalidate i => Pcr.invalidate b i
  | .setData i d => Pcr.setData b i d
  | .compute f n => ((Pcr.compute H f b n).1, Res.bind (Pcr.compute H f b n).2 fun _ => .ok ())

def run (H : Hash) (b : Bank) (ops : List Op) : Bank := ops.foldl (fun b op => (step H b op).1) b

/-- The measurement a call names. -/
def Op.index : Op → Option Nat
  | .setEvent i _ | .setDmtf i _ _ | .updateDigest i _ _ | .updateBuffer _ _ i _ _ _ _ | .invalidate i | .setData i _ => some i
  | .compute _ _ => none

/-- The call reads the event type of a measurement before it checks the index. -/
def Op.readsEvent : Op → Bool
  | .updateBuffer _ _ _ _ event _ _ => event
  | _ => false

/-- The calls that read a measurement. -/
inductive Query
  | check | event | dmtf | tcb | hasData | measurement | length
  | data (offset length : Nat)
  | hash (fail : Bool) (ty : HashType) (length : Nat)

/-- A query reduced to whether it succeeds, is refused, or reads outside the bank. -/
def ask (H : Hash) (b : Bank) (i : Nat) : Query → Res Err Unit
  | .check => checkIndex b i
  | .event => Res.bind (getEvent b i) fun _ => .ok ()
  | .dmtf => Res.bind (getDmtf b i) fun _ => .ok ()
  | .tcb => Res.bind (inTcb b i) fun _ => .ok ()
  | .hasData => Res.bind (Pcr.hasData b i) fun _ => .ok ()
  | .measurement => Res.bind (getMeasurement b i) fun _ => .ok ()
  | .length => Res.bind (dataLength b i) fun _ => .ok ()
  | .data o l => Res.bind (getData b i o l) fun _ => .ok ()
  | .hash f ty l => Res.bind (hashData H f b i ty l) fun _ => .ok ()

/-- The hash engine returns digests of the right length. -/
def GoodHash (H : Hash) : Prop := ∀ t x, (H t x).length = t.len

/-- Shape of a bank: at least one measurement, exactly one in an explicit bank, digests of the right length. -/
structure WF (b : Bank) : Prop where
  pos : 0 < b.list.length
  one : b.explicit = true → b.list.length = 1
  digest : ∀ m ∈ b.list, m.digest.length = b.algo.len

/-! ### Measured data -/

/-- The outcome is `v`, or an error if failures are possible. -/
def Out {α : Type} (fail : Bool) (r : Res Err α) (v : α) : Prop := r = .ok v ∨ (fail = true ∧ ∃ e, r = .err e)

/-- The data source stands for the byte string `s`: the flash holds it, the callbacks give windows of it. With `fail`, reads may fail. -/
def Denotes (fail : Bool) : Data → Bytes → Prop
  | .value b, s => s = b
  | .memory b, s => s = b
  | .flash rd addr len, s => s.length = len ∧ 0 < len ∧ addr + len ≤ 2 ^ 32 ∧
      ∀ a n, addr ≤ a → a + n ≤ addr + len → rd a n = some (window s (a - addr) n) ∨ (fail = true ∧ rd a n = none)
  | .callback get h, s => (∀ off n, get off n = some (window s off n, s.length) ∨ (fail = true ∧ get off n = none)) ∧
      (match h with
        | none => True
        | some none => fail = true
        | some (some d) => d = s)

/-- The raw data of a measurement: event type if included, version if included, data. -/
def Raw (fail : Bool) (m : Meas) (s : Bytes) : Prop :=
  s.length < 2 ^ 32 ∧
  match m.data with
  | none => s = []
  | some d => ∃ x, Denotes fail d x ∧ s = (if m.isEvent then toLE 4 m.event else []) ++ (if m.isVersion then [m.version] else []) ++ x

/-! ### PCR values and logs -/

/-- Extending digests into a value. -/
def extend (h : Bytes → Bytes) (start : Bytes) (digests : List Bytes) : Bytes := digests.foldl (fun v d => h (v ++ d)) start

/-- The value of a PCR after its first `k` measurements. -/
def valueAfter (H : Hash) (b : Bank) (k : Nat) : Bytes :=
  extend (H (.sha2 b.algo)) (List.replicate b.algo.len 0) ((b.list.take k).map (·.digest))

/-- A TCG event for a measurement with raw data `s`. -/
def tcgEventOf (pcr : Nat) (a : Algo) (m : Meas) (s : Bytes) : Bytes :=
  toLE 4 pcr ++ toLE 4 m.event ++ toLE 4 1 ++ toLE 2 a.id ++ m.digest ++ toLE 4 s.length ++ s

/-- The events of one bank with the raw data of its measurements. -/
def bankEvents (pcr : Nat) (a : Algo) (l : List (Meas × Bytes)) : Bytes := (l.map fun x => tcgEventOf pcr a x.1 x.2).flatten

def bankLog (pcr : Nat) (b : Bank) (raws : List Bytes) : Bytes := if b.explicit then [] else bankEvents pcr b.algo (b.list.zip raws)

/-- The events of all banks, numbered from `i`. -/
def banksLog : Nat → List Bank → List (List Bytes) → Bytes
  | i, b :: bs, r :: rs => bankLog i b r ++ banksLog (i + 1) bs rs
  | _, _, _ => []

/-- The "Spec ID Event03" header with each algorithm once. -/
def specHeader (st : List Bank) : Bytes :=
  let algs := (st.map (·.algo)).eraseDups
  "Spec ID Event03".toUTF8.data.toList ++ [0] ++ toLE 4 1 ++ [0, 2, 0, 1] ++ toLE 4 algs.length ++
    (algs.map fun a => toLE 2 a.id ++ toLE 2 a.len).flatten ++ [0]

/-- The whole TCG log of a store. -/
def fullTcgLog (st : List Bank) (raws : List (List Bytes)) : Bytes :=
  toLE 4 0 ++ toLE 4 3 ++ List.replicate 20 0 ++ toLE 4 (specHeader st).length ++ specHeader st ++ banksLog 0 st raws

/-- The raw data of all measurements of a bank. -/
def AllRaw (fail : Bool) : List Meas → List Bytes → Prop
  | [], [] => True
  | m :: ms, s :: ss => Raw fail m s ∧ AllRaw fail ms ss
  | _, _ => False

/-- The raw data of all measurements of a store. -/
def StoreRaw (fail : Bool) : List Bank → List (List Bytes) → Prop
  | [], [] => True
  | b :: bs, r :: rs => AllRaw fail b.list r ∧ StoreRaw fail bs rs
  | _, _ => False

/-- An entry of the attestation log. -/
def entryOf (id pcr i : Nat) (a : Algo) (event : Nat) (digest value : Bytes) : Bytes :=
  [0xcb] ++ toLE 2 (25 + 2 * a.len) ++ toLE 4 id ++
  toLE 4 event ++ toLE 4 (pcr * 256 + i) ++ toLE 4 1 ++ toLE 2 a.id ++
  digest ++ toLE 4 a.len ++ value

/-- The entries of one bank: entry `i` carries the value of the PCR after measurement `i`. -/
def bankEntries (H : Hash) (pcr id : Nat) (b : Bank) : List Bytes :=
  if b.explicit then [] else b.list.mapIdx fun i m => entryOf (id + i) pcr i b.algo m.event m.digest (valueAfter H b (i + 1))

/-- The entries of a store, with consecutive ids. -/
def storeEntries (H : Hash) : Nat → Nat → List Bank → List Bytes
  | _, _, [] => []
  | pcr, id, b :: bs => bankEntries H pcr id b ++ storeEntries H (pcr + 1) (id + (bankEntries H pcr id b).length) bs

/-- A reader that asks for chunks of the given sizes one after another and continues behind what it received. -/
def readChunks {σ : Type} (read : σ → Nat → Nat → σ × Res Err Bytes) : σ → Nat → List Nat → σ × Res Err Bytes
  | s, _, [] => (s, .ok [])
  | s, off, n :: ns =>
    match read s off n with
    | (s, .err e) => (s, .err e)
    | (s, .oob) => (s, .oob)
    | (s, .ok r) =>
      match readChunks read s (off + r.length) ns with
      | (s, .ok rest) => (s, .ok (r ++ rest))
      | (s, .err e) => (s, .err e)
      | (s, .oob) => (s, .oob)

/-- All measurements of the non-explicit banks in order: bank number and index. -/
def allTypes : Nat → List Bank → List (Nat × Nat)
  | _, [] => []
  | p, b :: bs => (if b.explicit then [] else (List.range b.list.length).map fun i => (p, i)) ++ allTypes (p + 1) bs

end Verif.Pcr
