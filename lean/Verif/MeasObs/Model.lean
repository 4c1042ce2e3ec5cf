import Verif.MeasObs.Spec
/-!
Model of `core/manifest/manifest_pcr.c`, `core/recovery/recovery_image_observer_pcr.c` and
`core/host_fw/host_processor_observer_pcr.c`, on the PCR store of `Verif.Pcr`. Log entries and NULL arguments are not modelled.
-/
namespace Verif.MeasObs
open Verif Pcr

/-- A manifest as these functions see it: the answers of `get_hash`, `get_id` and `get_platform_id`, with the platform identifier
as it is in the buffer before the terminator. -/
structure Manifest where
  hash : Except Int Bytes
  id : Except Int Nat
  platform : Except Int Bytes

/-- Errors: of the manifest, of the store, or of the check of the types. -/
inductive MErr where
  | manifest (code : Int)
  | pcr (e : Pcr.Err)
  | notUnique
deriving DecidableEq, Repr

/-- Failures of the hash engine in one update: at the start, or later. -/
abbrev Fail := Bool × Bool

/-- `pcr_store_update_versioned_buffer`, pcr_store.c:431-448, with the event type and version 0, as all callers here use it. -/
def update (H : Hash) (f : Fail) (st : List Bank) (t : Nat) (buf : Bytes) : List Bank × Res Err Unit :=
  onBank st t fun b i => updateBufferCommon H f.1 f.2 b i buf true (some 0) false

/-- `pcr_store_check_measurement_type`, pcr_store.c:94-108. -/
def checkType (st : List Bank) (t : Nat) : Res MErr Unit :=
  if pcrOf t ≥ st.length then .err (.pcr .invalidPcr)
  else match st[pcrOf t]? with
    | none => .oob
    | some b => match checkIndex b (idxOf t) with
      | .ok _ => .ok ()
      | .err e => .err (.pcr e)
      | .oob => .oob

/-- `manifest_pcr_init` and `manifest_pcr_check_measurements`, manifest_pcr.c:29-40, 62-93. -/
def init (st : List Bank) (mt it pt : Nat) : Res MErr Unit :=
  if mt = it ∨ mt = pt ∨ it = pt then .err .notUnique
  else match checkType st mt with
    | .ok _ => match checkType st it with
      | .ok _ => checkType st pt
      | e => e
    | e => e

/-- A status of the store as one of `manifest_pcr_measure_manifest`. -/
def lift : Res Err Unit → Res MErr Unit
  | .ok _ => .ok ()
  | .err e => .err (.pcr e)
  | .oob => .oob

/-- `strlen (s) + 1` bytes of the string `s`, whose buffer ends with a terminator. -/
def cString (p : Bytes) : Bytes := p.takeWhile (· ≠ 0) ++ [0]

/-- The digest that is measured, manifest_pcr.c:132-148. -/
def digestOf : Option Manifest → Except Int Bytes
  | none => .ok (List.replicate 32 0)
  | some m => m.hash

/-- The identifier that is measured, manifest_pcr.c:159-173. -/
def idOf : Option Manifest → Except Int Bytes
  | none => .ok (List.replicate 5 0)
  | some m => match m.id with
    | .ok v => .ok (1 :: toLE 4 v)
    | .error e => .error e

/-- The platform identifier that is measured, manifest_pcr.c:184-198. -/
def platformOf : Option Manifest → Except Int Bytes
  | none => .ok (cString [])
  | some m => match m.platform with
    | .ok p => .ok (cString p)
    | .error e => .error e

/-- One of the three steps: the data is read, then measured. -/
def measure (H : Hash) (f : Fail) (st : List Bank) (t : Nat) (d : Except Int Bytes) : List Bank × Res MErr Unit :=
  match d with
  | .error e => (st, .err (.manifest e))
  | .ok d => ((update H f st t d).1, lift (update H f st t d).2)

/-- `manifest_pcr_measure_manifest`, manifest_pcr.c:128-209 (`manifest_pcr_record_manifest_measurement`, 104-109, passes its types).
`f 0`, `f 1` and `f 2` are the failures of the hash engine in the three updates. -/
def record (H : Hash) (f : Nat → Fail) (st : List Bank) (mt it pt : Nat) (active : Option Manifest) : List Bank × Res MErr Unit :=
  match measure H (f 0) st mt (digestOf active) with
  | (st1, .ok _) => match measure H (f 1) st1 it (idOf active) with
    | (st2, .ok _) => measure H (f 2) st2 pt (platformOf active)
    | r => r
  | r => r

/-- `pfm_observer_pcr_on_pfm_activated` and `pfm_observer_pcr_on_clear_active`, pfm_observer_pcr.c:11-24, and the same functions
for CFM and PCD: the status is dropped. -/
def onActivated (H : Hash) (f : Nat → Fail) (st : List Bank) (mt it pt : Nat) (active : Option Manifest) : List Bank :=
  (record H f st mt it pt active).1

/-- `recovery_image_observer_pcr_on_recovery_image_activated`, recovery_image_observer_pcr.c:13-36, and `…_deactivated`, lines 38-42.
The image is the answer of its `get_hash`, of 32 bytes. -/
def onRecoveryImage (H : Hash) (f : Fail) (st : List Bank) (t : Nat) (active : Option (Except Int Bytes)) : List Bank :=
  match active with
  | none => (update H f st t (List.replicate 32 0)).1
  | some (.ok h) => (update H f st t h).1
  | some (.error _) => st

/-- `HOST_PROCESSOR_OBSERVER_PCR_*`, host_processor_observer_pcr.h:18-22. -/
def pcrInit : Nat := 0xffffffff
def pcrValid : Nat := 0
def pcrBypass : Nat := 1
def pcrRecovery : Nat := 2
def pcrNotValidated : Nat := 3

/-- The observer of a host: the store and `*state`. -/
structure Host where
  st : List Bank
  state : Nat

/-- `host_processor_observer_pcr_update`, host_processor_observer_pcr.c:19-32. -/
def hostUpdate (H : Hash) (f : Fail) (t : Nat) (h : Host) (event : Nat) : Host :=
  { st := (update H f h.st t (toLE 4 event)).1, state := event }

/-- The handlers of events, host_processor_observer_pcr.c:34-60. -/
def hostEvent (H : Hash) (f : Fail) (t : Nat) (h : Host) : Spec.HostEvent → Host
  | .bypass => hostUpdate H f t h pcrBypass
  | .active => hostUpdate H f t h pcrValid
  | .recovery => hostUpdate H f t h pcrRecovery
  | .dirty d => if d then hostUpdate H f t h pcrNotValidated else h

/-- `host_processor_observer_pcr_init_state`, host_processor_observer_pcr.c:108-120. -/
def hostInit (H : Hash) (f : Fail) (t : Nat) (h : Host) : Host × Res Err Unit :=
  ({ h with st := (update H f h.st t (toLE 4 h.state)).1 }, (update H f h.st t (toLE 4 h.state)).2)

/-- A history of events, each with the failures of the hash engine. -/
def hostRun (H : Hash) (t : Nat) (h : Host) (es : List (Fail × Spec.HostEvent)) : Host :=
  es.foldl (fun h e => hostEvent H e.1 t h e.2) h

end Verif.MeasObs
