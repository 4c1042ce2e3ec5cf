import Verif.Common.Bytes
/-! Firmware updates: `core/firmware/firmware_update.c`, the event handler `firmware_update_handler.c` and `core/flash/flash_updater.c`. Null arguments,
status notifications and log entries are not modelled.

Flash regions hold images at the image offset; what is in front of the offset is not modelled. While a region is being erased or programmed its contents
are arbitrary, and so they are after a failure; the device may lose power in any of these states (`St.trace`). -/
namespace Verif.FwUpdate

/-- The regions of `struct firmware_flash_map`, firmware_update.h:25-41. They do not overlap. -/
inductive Reg | active | recovery | staging | backup | recBackup
  deriving DecidableEq, Repr

/-- What survives a power loss: the regions and the revocation state, the lowest manifest id that is allowed. -/
structure Dev where
  mem : Reg → Bytes
  rev : Nat

/-- The device with new contents of a region. -/
def Dev.set (d : Dev) (r : Reg) (c : Bytes) : Dev := { d with mem := fun x => if x = r then c else d.mem x }

/-- A `struct firmware_image` with its key manifest (firmware_image.h, key_manifest.h), which are interfaces for the platform: functions of the contents of
a region. -/
structure Fw where
  /-- `load` and `get_image_size`. -/
  size : Bytes → Option Nat
  /-- The signatures of the image. -/
  sigOk : Bytes → Bool
  /-- The revocation id of the key manifest. -/
  keyId : Bytes → Nat
  /-- The recovery revision in the firmware header, if there is one. -/
  header : Bytes → Option Nat

/-- `verify` succeeds: the signatures are good and the manifest is not revoked. -/
def Fw.boots (fw : Fw) (rev : Nat) (c : Bytes) : Bool := fw.sigOk c && decide (rev ≤ fw.keyId c)

/-- What does not change: `struct firmware_update` (firmware_update.h), and of the handler whether the recovery image is kept equal to the active one
(`force_recovery_update`) and whether the active image is left alone after a boot from recovery (`skip_active_restore`). `hash` is the hash function. -/
structure Cfg where
  fw : Fw
  hash : Nat → Bytes → Bytes
  hasRecovery : Bool
  hasBackup : Bool
  hasRecBackup : Bool
  requireDigest : Bool
  noFwHeader : Bool
  /-- `security_policy_enforce_anti_rollback`. -/
  antiRollback : Bool
  minRev : Nat
  maxSize : Nat
  forceRecoveryUpdate : Bool
  skipActiveRestore : Bool

/-- `struct firmware_update_state` with the counters of the flash updater; `loaded` is the image that the firmware image object refers to, `gen` counts
the calls of `load`. `recoveryRev = none` is -1. -/
structure Ram where
  recoveryBad : Bool
  recoveryRev : Option Nat
  imgLength : Nat
  digest : Option (Nat × Bytes)
  remaining : Int
  writeOffset : Nat
  loaded : Bytes
  gen : Nat

/-- The whole state: `n` counts the choices of the environment, `trace` the states of the device since the operation started, `stale` is set when a key
manifest is used after another image was loaded, which firmware_image.h:61-71 does not allow. -/
structure St where
  dev : Dev
  ram : Ram
  n : Nat
  trace : List Dev
  stale : Bool

/-- The environment of one operation: which of the calls fail, in particular which queries of the page size, and what is left in the regions. -/
structure Env where
  fails : Nat → Bool
  page : Nat → Bool
  junk : Nat → Bytes

/-- Errors. `failed` is any error of a flash device, an engine or a hook. -/
inductive Err
  | failed | incomplete | extraData | digestMismatch | badImage | rollback | noHeader | notAuthorized | tooLarge | outOfSpace | noRecovery | notNeeded | badDigest | noExpected
  deriving DecidableEq, Repr

/-- Computations that can fail. -/
def M (α : Type) : Type := St → Except Err α × St

/-- A result. -/
def M.pure {α : Type} (a : α) : M α := fun s => (.ok a, s)
/-- A failure. -/
def M.throw {α : Type} (x : Err) : M α := fun s => (.error x, s)
/-- One after the other, up to the first failure. -/
def M.bind {α β : Type} (m : M α) (f : α → M β) : M β := fun s =>
  match m s with
  | (.ok a, s') => f a s'
  | (.error x, s') => (.error x, s')
/-- The status of a computation, which is not passed on. -/
def M.attempt {α : Type} (m : M α) : M (Except Err α) := fun s => (.ok (m s).1, (m s).2)

instance : Monad M where
  pure := M.pure
  bind := M.bind

/-- The state. -/
def get : M St := fun s => (.ok s, s)
/-- A change of the volatile state. -/
def setRam (f : Ram → Ram) : M Unit := fun s => (.ok (), { s with ram := f s.ram })
/-- A change of the device, which is then a state in which power can be lost. -/
def setDev (f : Dev → Dev) : M Unit := fun s => (.ok (), { s with dev := f s.dev, trace := s.trace ++ [f s.dev] })

/-- A step that is done under a condition. -/
def M.onlyIf (b : Bool) (m : M Unit) : M Unit := if b then m else M.pure ()

section
variable (c : Cfg) (e : Env)

/-- A call that fails if the environment says so. -/
def call : M Unit := fun s => (if e.fails s.n then .error .failed else .ok (), { s with n := s.n + 1 })
/-- `get_page_size` of a flash device. -/
def pageSize : M Unit := fun s => (if e.page s.n then .error .failed else .ok (), { s with n := s.n + 1 })
/-- A choice of the environment: some bytes. -/
def choose : M Bytes := fun s => (.ok (e.junk s.n), { s with n := s.n + 1 })

/-- `flash_erase_region_and_verify`: whatever the contents are afterwards, nothing is assumed about them. -/
def erase (r : Reg) : M Unit := do
  let j ← choose e
  setDev fun d => d.set r j
  call e

/-- `flash_copy_ext_to_blank_and_verify` and `flash_copy_ext_and_verify` (flash_util.c) of `len` bytes: if they succeed the destination holds the bytes of
the source. Also `firmware_update_program_bootable`, firmware_update.c:559-579, which copies the first page last. -/
def copy (dest src : Reg) (len : Nat) : M Unit := do
  let j ← choose e
  setDev fun d => d.set dest j
  call e
  let t ← choose e
  setDev fun d => d.set dest ((d.mem src).take len ++ t)

/-- `load` of the firmware image for a region. -/
def load (r : Reg) : M Unit := do
  call e
  let s ← get
  if c.fw.size (s.dev.mem r) = none then M.throw .failed
  else setRam fun m => { m with loaded := s.dev.mem r, gen := m.gen + 1 }

/-- `get_image_size` of the loaded image. -/
def imageSize : M Nat := do
  call e
  let s ← get
  match c.fw.size s.ram.loaded with
  | some n => pure n
  | none => M.throw .failed

/-- `verify` of the loaded image. -/
def verify : M Unit := do
  call e
  let s ← get
  if c.fw.boots s.dev.rev s.ram.loaded then pure () else M.throw .badImage

/-- The checks on received data, firmware_update.c:320-354. -/
def checkBytes (r : Reg) : M Unit := do
  let s ← get
  if s.ram.remaining > 0 then M.throw .incomplete
  else if s.ram.remaining < 0 then M.throw .extraData
  else
    match s.ram.digest with
    | none => pure ()
    | some (alg, dig) => do
      call e
      if c.hash alg ((s.dev.mem r).take s.ram.imgLength) = dig then pure () else M.throw .digestMismatch

/-- The revision of the loaded image, firmware_update.c:397-430; `old` is kept for images without header. -/
def checkRevision (checkRollback : Bool) (old : Option Nat) : M (Option Nat) := do
  let s ← get
  match c.fw.header s.ram.loaded with
  | some v => do
    call e
    if checkRollback && c.antiRollback && decide (v < c.minRev) then M.throw .rollback else pure (some v)
  | none => if c.noFwHeader then pure old else M.throw .noHeader

/-- The size, if the caller asks for it, firmware_update.c:384-394. -/
def askSize (want : Bool) : M Nat := if want then imageSize c e else M.pure 0

/-- `firmware_update_load_and_verify_image`, firmware_update.c:311-433: size and revision of the image. `bytes`, `bootImage` and `rollback` are the flags;
`wantSize` and `wantRev` are whether the caller asks for the size and the revision, `old` is what its variable for the revision held before. -/
def loadAndVerify (r : Reg) (bytes bootImage rollback wantSize wantRev : Bool) (old : Option Nat) : M (Nat × Option Nat) := do
  (checkBytes c e r).onlyIf bytes
  load c e r
  verify c e
  (call e).onlyIf bootImage
  let n ← askSize c e wantSize
  if wantRev then do
    let v ← checkRevision c e rollback old
    pure (n, v)
  else pure (n, old)

/-- The backup of `firmware_update_write_image`, firmware_update.c:640-664; returns the length. -/
def makeBackup (dest b : Reg) : M Nat := do
  load c e dest
  let n ← imageSize c e
  copy e b dest n
  pure n

/-- Restoring from the backup, firmware_update.c:698-707. -/
def restoreBackup (dest b : Reg) (n : Nat) : M Unit := do
  erase e dest
  copy e dest b n
  call e

/-- The new image into the region, firmware_update.c:688-693; the last call is the `finalize_image` hook. -/
def install (dest src : Reg) (len : Nat) : M Unit := do
  copy e dest src len
  call e

/-- The part of `firmware_update_write_image` after the backup, firmware_update.c:666-719. `bk` is the backup region with the length of the backup. -/
def writeRest (dest : Reg) (bk : Option (Reg × Nat)) (src : Reg) (len : Nat) : M (Option Err × Bool) := do
  match ← (pageSize e).attempt with
  | .error x => pure (some x, true)
  | .ok () =>
    match ← (erase e dest).attempt with
    | .error x => pure (some x, false)
    | .ok () =>
      match ← (install e dest src len).attempt with
      | .ok () => pure (none, true)
      | .error x =>
        match bk with
        | none => pure (some x, false)
        | some (b, n) =>
          match ← (restoreBackup e dest b n).attempt with
          | .ok () => pure (some x, true)
          | .error _ => pure (some x, false)

/-- `firmware_update_write_image`, firmware_update.c:625-720: the status and `img_good`. -/
def writeImage (dest : Reg) (backup : Option Reg) (src : Reg) (len : Nat) : M (Option Err × Bool) :=
  match backup with
  | none => writeRest e dest none src len
  | some b => do
    match ← (makeBackup c e dest b).attempt with
    | .error x => pure (some x, true)
    | .ok n => writeRest e dest (some (b, n)) src len

/-- Turning a status into a failure. -/
def orFail : Option Err → M Unit
  | none => pure ()
  | some x => M.throw x

/-- `firmware_update_restore_image`, firmware_update.c:735-753. -/
def restoreImage (dest src : Reg) (wantRev : Bool) : M (Option Nat) := do
  let r ← loadAndVerify c e src false false false true wantRev none
  let w ← writeImage c e dest none src r.1
  orFail w.1
  pure r.2

/-- `firmware_update_restore_recovery_image`, firmware_update.c:764-799. -/
def restoreRecovery : M Unit := do
  if c.hasRecovery = false then M.throw .noRecovery
  else do
    let s ← get
    if s.ram.recoveryBad then do
      let v ← restoreImage c e .recovery .active true
      setRam fun m => { m with recoveryBad := false, recoveryRev := v }
    else M.throw .notNeeded

/-- `firmware_update_restore_active_image`, firmware_update.c:811-837. -/
def restoreActive : M Unit := do
  if c.hasRecovery = false then M.throw .noRecovery
  else do
    let _ ← restoreImage c e .active .recovery false
    pure ()

/-- `firmware_update_validate_recovery_image`, firmware_update.c:448-466. -/
def validateRecovery : M Unit :=
  if c.hasRecovery = false then pure ()
  else do
    let s ← get
    match ← (loadAndVerify c e .recovery false true false false true s.ram.recoveryRev).attempt with
    | .ok r => setRam fun m => { m with recoveryBad := false, recoveryRev := r.2 }
    | .error _ => setRam fun m => { m with recoveryBad := true }

/-- The part of `firmware_update_recovery_matches_active_image` that reads both images, firmware_update.c:867-907: whether they are the same, and the
revision. -/
def compareImages : M (Bool × Option Nat) := do
  load c e .active
  let n ← imageSize c e
  let s ← get
  let h := c.fw.header s.ram.loaded
  (call e).onlyIf h.isSome
  load c e .recovery
  let k ← imageSize c e
  if n ≠ k then pure (false, none)
  else do
    call e
    pure (decide ((s.dev.mem .active).take n = (s.dev.mem .recovery).take n), h)

/-- `firmware_update_recovery_matches_active_image`, firmware_update.c:854-923: 0 is `true`. -/
def recoveryMatches : M Bool :=
  if c.hasRecovery = false then pure true
  else do
    let r ← compareImages c e
    if r.1 then do
      setRam fun m => { m with recoveryBad := false, recoveryRev := if r.2 = none then m.recoveryRev else r.2 }
      pure true
    else pure false

/-- The image digest is forgotten: `firmware_update_clear_image_digest`, firmware_update.c:538-544. -/
def clearDigest (m : Ram) : Ram := { m with digest := none, imgLength := 0 }

/-- A good recovery image before the active one is erased, firmware_update.c:1042-1055: whether it was updated. -/
def ensureRecovery (len : Nat) : M Bool := do
  let s ← get
  if c.hasRecovery && s.ram.recoveryBad then do
    let w ← writeImage c e .recovery none .staging len
    orFail w.1
    setRam fun m => { m with recoveryBad := !w.2 }
    pure true
  else pure false

/-- `firmware_update_apply_update`, firmware_update.c:1016-1069: whether the recovery image was updated. The two calls are the observers and saving the
context. -/
def applyUpdate (len : Nat) : M Bool := do
  call e
  call e
  let u ← ensureRecovery c e len
  let w ← writeImage c e .active (if c.hasBackup then some .backup else none) .staging len
  orFail w.1
  setRam clearDigest
  pure u

/-- The region that the recovery image is saved to, firmware_update.c:1117-1129. -/
def recoveryBackup (m : Ram) : Option Reg :=
  if m.recoveryBad then none else if c.hasRecBackup then some .recBackup else if c.hasBackup then some .backup else none

/-- The update of the recovery image in `firmware_update_process_manifest_revocation`, firmware_update.c:1116-1139. -/
def updateRecovery (src : Reg) (len : Nat) : M Unit := do
  let s ← get
  let w ← writeImage c e .recovery (recoveryBackup c s.ram) src len
  setRam fun m => { m with recoveryBad := !w.2 }
  orFail w.1

/-- `update_revocation` of the key manifest that was taken from the image object when `gen` calls of `load` had been made. The manifest belongs to the
image object, so that it is the one of the image loaded last. A failing update may have been done or not. -/
def revoke (gen : Nat) : M Unit := fun s =>
  let d : Dev := { s.dev with rev := max s.dev.rev (c.fw.keyId s.ram.loaded) }
  let s' : St := { s with n := s.n + 1, stale := s.stale || decide (s.ram.gen ≠ gen) }
  if e.fails s.n then
    (.error .failed, if e.page s.n then { s' with dev := d, trace := s.trace ++ [d] } else s')
  else (.ok (), { s' with dev := d, trace := s.trace ++ [d] })

/-- `firmware_update_process_manifest_revocation`, firmware_update.c:1089-1161; the first two calls are the queries to the manifest. -/
def processRevocation (src : Reg) (len : Nat) (newRev : Option Nat) (recoveryUpdated : Bool) : M Unit := do
  call e
  call e
  let s ← get
  let revoked := decide (s.dev.rev < c.fw.keyId s.ram.loaded)
  if revoked || s.ram.recoveryBad || decide (s.ram.recoveryRev ≠ newRev) then do
    (updateRecovery c e src len).onlyIf (c.hasRecovery && !recoveryUpdated)
    setRam fun m => { m with recoveryRev := newRev }
    (revoke c e s.ram.gen).onlyIf revoked
  else pure ()

/-- `firmware_update_run_update`, firmware_update.c:1180-1235. -/
def runUpdate : M Unit := do
  let s ← get
  let r ← loadAndVerify c e .staging true false true true true s.ram.recoveryRev
  let u ← applyUpdate c e r.1
  load c e .active
  processRevocation c e .staging r.1 r.2 u

/-- `firmware_update_run_update_no_revocation`, firmware_update.c:1259-1304. -/
def runUpdateNoRevocation : M Unit := do
  let s ← get
  (restoreRecovery c e).onlyIf (c.hasRecovery && s.ram.recoveryBad)
  let r ← loadAndVerify c e .staging true false true true true none
  let _ ← applyUpdate c e r.1
  pure ()

/-- `firmware_update_run_revocation`, firmware_update.c:1325-1355. -/
def runRevocation : M Unit := do
  let s ← get
  let r ← loadAndVerify c e .active false false false true true s.ram.recoveryRev
  processRevocation c e .active r.1 r.2 false

/-- `flash_updater_prepare_for_update`, flash_updater.c:135-174. -/
def prepareFlash (size : Nat) : M Unit := do
  if size > c.maxSize then M.throw .tooLarge
  else do
    (erase e .staging).onlyIf (decide (size ≠ 0))
    setRam fun m => { m with remaining := size, writeOffset := 0 }

/-- `firmware_update_prepare_staging`, firmware_update.c:1371-1404; the first call is the observers. -/
def prepareStaging (size : Nat) : M Unit := do
  call e
  let r ← (prepareFlash c e size).attempt
  setRam fun m => { clearDigest m with imgLength := size }
  match r with
  | .ok () => pure ()
  | .error x => M.throw x

/-- `firmware_update_set_image_digest`, firmware_update.c:502-531; the algorithms are supported. -/
def setDigest (alg : Nat) (dig : Bytes) : M Unit := do
  let s ← get
  if dig = [] ∨ 64 < dig.length then M.throw .badDigest
  else if s.ram.imgLength = 0 then M.throw .noExpected
  else setRam fun m => { m with digest := some (alg, dig) }

/-- `firmware_update_write_to_staging`, firmware_update.c:1418-1443, and `flash_updater_write_update_data`, flash_updater.c:207-230. Simplification: the
contents of the staging region are arbitrary after a write, and `written` of the `len` bytes were written. -/
def writeStaging (len written : Nat) : M Unit := do
  let s ← get
  if c.requireDigest && s.ram.digest.isNone then M.throw .notAuthorized
  else if s.ram.writeOffset + len > c.maxSize then M.throw .outOfSpace
  else do
    let j ← choose e
    setDev fun d => d.set .staging j
    call e
    setRam fun m => { m with remaining := m.remaining - (min written len : Nat), writeOffset := m.writeOffset + min written len }
    if written < len then M.throw .failed else pure ()

/-- Checking the recovery image after a boot from the active image, firmware_update_handler.c:174-192. -/
def checkRecovery : M Unit := do
  let s ← get
  if s.ram.recoveryBad then pure ()
  else if c.forceRecoveryUpdate then do
    match ← (recoveryMatches c e).attempt with
    | .ok true => pure ()
    | _ => setRam fun m => { m with recoveryBad := true }
  else validateRecovery c e

/-- `firmware_update_handler_prepare` with `firmware_update_handler_prepare_for_updates`, firmware_update_handler.c:161-206, run once after boot, before
any request. `recoveryBoot` is whether the device runs from the recovery image. -/
def handlerPrepare (recoveryBoot : Bool) : M Unit :=
  if recoveryBoot then do
    setRam fun m => { m with recoveryBad := false }
    if c.skipActiveRestore then pure ()
    else do
      let _ ← (restoreActive c e).attempt
      pure ()
  else do
    checkRecovery c e
    let _ ← (restoreRecovery c e).attempt
    pure ()

end

/-- `firmware_update_init_state`, firmware_update.c:167-205: the volatile state after a boot. -/
def initRam : Ram := ⟨false, none, 0, none, 0, 0, [], 0⟩

/-- The requests to the handler; each is run to its end by the event task. -/
inductive Op
  | prepareStaging (size : Nat)
  | setDigest (alg : Nat) (dig : Bytes)
  | writeStaging (len written : Nat)
  | runUpdate
  | runUpdateNoRevocation
  | runRevocation
  deriving DecidableEq, Repr

/-- A request. -/
def exec (c : Cfg) (e : Env) : Op → M Unit
  | .prepareStaging n => prepareStaging c e n
  | .setDigest a d => setDigest a d
  | .writeStaging l w => writeStaging c e l w
  | .runUpdate => runUpdate c e
  | .runUpdateNoRevocation => runUpdateNoRevocation c e
  | .runRevocation => runRevocation c e

/-- The state at the start of an operation: the states passed through before no longer matter. -/
def St.fresh (s : St) : St := { s with n := 0, trace := [] }

end Verif.FwUpdate
