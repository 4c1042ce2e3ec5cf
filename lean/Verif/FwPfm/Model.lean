import Verif.FwPfm.Spec
import Verif.BufferUtil.Model
/-!
Model of `core/firmware/firmware_pfm_verify.c`, with `manifest_pcr_measure_manifest`
(`core/manifest/manifest_pcr.c`) and the measured data of `core/manifest/manifest_manager.c`.

Null arguments are not modelled. Every call on the PFM and every recorded measurement has a status
chosen by the environment. Statuses are the 32 bits of an `int`; 0 is success. Verification of images
and PCR store are the models `HostFw` and `Pcr`. The RSA engine is null, so the engine given to
`HostFw` is one that accepts no signature.
-/
namespace Verif.FwPfm
open Verif

/-- `ROT_ERROR (ROT_MODULE_FIRMWARE_PFM_VERIFY, code)`, rot_status.h:13-21, module_id.h:163. -/
def errOf (code : UInt32) : UInt32 := 0x7f009700 ||| code
/-- `FIRMWARE_PFM_VERIFY_NOT_VERIFIED`. -/
def notVerified : UInt32 := errOf 2
/-- `FIRMWARE_PFM_VERIFY_PFM_MULTI_FW`. -/
def multiFw : UInt32 := errOf 3
/-- `FIRMWARE_PFM_VERIFY_EMPTY_PFM`. -/
def emptyPfm : UInt32 := errOf 4
/-- `FIRMWARE_PFM_VERIFY_PFM_MULTI_VERSION`. -/
def multiVersion : UInt32 := errOf 5
/-- `FIRMWARE_PFM_VERIFY_PFM_NO_VERSION`. -/
def noVersion : UInt32 := errOf 6
/-- `FIRMWARE_PFM_VERIFY_PFM_NO_IMAGE`. -/
def noImage : UInt32 := errOf 7
/-- `FIRMWARE_PFM_VERIFY_UNSUPPORTED_ID`. -/
def unsupportedId : UInt32 := errOf 8

/-- The instance, firmware_pfm_verify.h:46-60. -/
structure Env where
  pfm : Pfm
  dev : Flash.Dev
  eg : HostFw.Engine
  /-- what is on the stack behind a digest -/
  stack : Bytes
  /-- status for a failed verification of images -/
  hostErr : HostFw.Err → UInt32
  H : Pcr.Hash
  maxVersion : Nat
  tResult : Nat
  tVersion : Nat
  tPfm : Nat
  tId : Nat
  tPlatform : Nat

/-- State: result, version buffer, PCR store. -/
structure St where
  result : UInt32
  version : Bytes
  store : List Pcr.Bank

/-- Status of the calls on the PFM and failures while measurements are recorded. -/
structure Faults where
  verify : UInt32 := 0
  getId : UInt32 := 0
  isEmpty : UInt32 := 0
  firmware : UInt32 := 0
  versions : UInt32 := 0
  images : UInt32 := 0
  recResult : Bool := false
  recVersion : Bool := false
  getHash : Bool := false
  recPfm : Bool := false
  measureId : Bool := false
  recId : Bool := false
  platform : Bool := false
  recPlatform : Bool := false

/-- `strlen (s) + 1` bytes of a string buffer. -/
def strBytes (s : Bytes) : Bytes := s.takeWhile (· ≠ 0) ++ [0]

/-- `pcr_store_update_versioned_buffer (…, true, 0)`, pcr_store.c:431-448. -/
def record (env : Env) (fail : Bool) (t : Nat) (buf : Bytes) (store : List Pcr.Bank) : List Pcr.Bank × Res Pcr.Err Unit :=
  Pcr.onBank store t fun b i => Pcr.updateBufferCommon env.H fail false b i buf true (some 0) false

/-- Go on if the measurement was recorded. -/
def next (r : List Pcr.Bank × Res Pcr.Err Unit) (k : List Pcr.Bank → List Pcr.Bank × Bool) : List Pcr.Bank × Bool :=
  match r with
  | (s, .ok ()) => k s
  | (s, _) => (s, false)

/-- `manifest_pcr_measure_manifest`, manifest_pcr.c:127-209: the store and whether everything was
recorded. -/
def measureManifest (env : Env) (f : Faults) (active : Bool) (s : List Pcr.Bank) : List Pcr.Bank × Bool :=
  if active && f.getHash then (s, false)
  else next (record env f.recPfm env.tPfm (if active then env.pfm.digest else List.replicate 32 0) s) fun s =>
    if active && f.measureId then (s, false)
    else next (record env f.recId env.tId (if active then 1 :: toLE 4 env.pfm.id.toNat else List.replicate 5 0) s) fun s =>
      if active && f.platform then (s, false)
      else next (record env f.recPlatform env.tPlatform (if active then strBytes (env.pfm.platform ++ [0]) else [0]) s)
        fun s => (s, true)

/-- `firmware_pfm_verify_update_measurements`, firmware_pfm_verify.c:23-61. -/
def updateMeasurements (env : Env) (f : Faults) (st : St) : St × Bool :=
  let st := if st.result = 0 then st else { st with version := List.replicate env.maxVersion 0 }
  let r := next (record env f.recResult env.tResult (toLE 4 st.result.toNat) st.store) fun s =>
    next (record env f.recVersion env.tVersion (strBytes st.version) s) fun s =>
      measureManifest env f (st.result = 0) s
  ({ st with store := r.1 }, r.2)

/-- `firmware_pfm_verify_init_state`, firmware_pfm_verify.c:125-136: the state, and whether the call
succeeds. `version` is what the buffer holds before. -/
def initState (env : Env) (f : Faults) (version : Bytes) (store : List Pcr.Bank) : St × Bool :=
  updateMeasurements env f ⟨notVerified, version, store⟩

/-- `strncpy` and the terminator, firmware_pfm_verify.c:255-257. -/
def copyVersion (n : Nat) (v : Bytes) : Bytes := (v.take n ++ List.replicate (n - v.length) 0).take (n - 1) ++ [0]

/-- The images, firmware_pfm_verify.c:233-248: the status and the version to keep. -/
def checkImages (env : Env) (f : Faults) (v : Bytes) (fs : Flash.FS) : UInt32 × Flash.FS :=
  if f.images ≠ 0 then (f.images, fs)
  else if count (env.pfm.images v) = 0 then (noImage, fs)
  else
    match HostFw.verifyImages env.dev env.eg env.stack 0 [env.pfm.images v] fs with
    | (.ok (), fs) => (0, fs)
    | (.error e, fs) => (env.hostErr e, fs)

/-- The verification before anything is stored, firmware_pfm_verify.c:171-258. -/
def verifyFirmware (env : Env) (f : Faults) (expected : Option UInt32) (fs : Flash.FS) : UInt32 × Option Bytes × Flash.FS :=
  if f.verify ≠ 0 then (f.verify, none, fs)
  else if expected.isSome ∧ f.getId ≠ 0 then (f.getId, none, fs)
  else if expected.any (env.pfm.id ≠ ·) then (unsupportedId, none, fs)
  else if f.isEmpty ≠ 0 then (if f.isEmpty = 1 then emptyPfm else f.isEmpty, none, fs)
  else if env.pfm.empty then (emptyPfm, none, fs)
  else if f.firmware ≠ 0 then (f.firmware, none, fs)
  else if env.pfm.firmware > 1 then (multiFw, none, fs)
  else if f.versions ≠ 0 then (f.versions, none, fs)
  else
    match env.pfm.versions with
    | [] => (noVersion, none, fs)
    | [v] =>
      match checkImages env f v fs with
      | (s, fs) => (s, if s = 0 then some v else none, fs)
    | _ => (multiVersion, none, fs)

/-- `firmware_pfm_verify_run_verification`, firmware_pfm_verify.c:158-268. The last component says
whether all measurements were recorded, which the function does not report. -/
def run (env : Env) (f : Faults) (expected : Option UInt32) (st : St) (fs : Flash.FS) : UInt32 × St × Flash.FS × Bool :=
  match verifyFirmware env f expected fs with
  | (status, v, fs) =>
    let st := match v with
      | some v => { st with version := copyVersion env.maxVersion v }
      | none => st
    let r := updateMeasurements env f { st with result := status }
    (status, r.1, fs, r.2)

/-! ### Measured data -/

/-- The part of `data` a reader asks for, and its length in total (`buffer_copy`). -/
def part (data : Bytes) (offset length : Nat) : Bytes × Nat := ((BufferUtil.bufferCopy data ⟨offset, length, []⟩).2.out, data.length)

/-- `firmware_pfm_verify_get_fw_version_measured_data`, firmware_pfm_verify.c:283-293. -/
def getVersion (st : St) (offset length : Nat) : Bytes × Nat := part (strBytes st.version) offset length

/-- `firmware_pfm_verify_hash_fw_version_measured_data`, firmware_pfm_verify.c:303-311: the bytes hashed. -/
def hashVersion (st : St) : Bytes := strBytes st.version

/-- The active PFM, as in firmware_pfm_verify.c:333-340. -/
def active (env : Env) (st : St) : Option Pfm := if st.result = 0 then some env.pfm else none

/-- `manifest_manager_get_manifest_digest_measured_data`, manifest_manager.c:79-100; the hash variant
(113-135) feeds the same bytes. -/
def digestBytes : Option Pfm → Bytes
  | some p => p.digest
  | none => List.replicate 32 0

/-- `manifest_manager_construct_id_measurement_data`, manifest_manager.c:145-162. -/
def idBytes : Option Pfm → Bytes
  | some p => 1 :: toLE 4 p.id.toNat
  | none => List.replicate 5 0

/-- `manifest_manager_get_platform_id_measured_data`, manifest_manager.c:235-270; the hash variant is
280-308. -/
def platformBytes : Option Pfm → Bytes
  | some p => strBytes (p.platform ++ [0])
  | none => [0]

/-- A read of measured data: a failure of the PFM is reported. -/
def readPfm (fail : UInt32) (env : Env) (st : St) (bytes : Option Pfm → Bytes) (offset length : Nat) : Except UInt32 (Bytes × Nat) :=
  if st.result = 0 ∧ fail ≠ 0 then .error fail else .ok (part (bytes (active env st)) offset length)

end Verif.FwPfm
