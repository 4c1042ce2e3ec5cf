import Verif.Recovery.Model
/-! Model of `core/recovery/recovery_image_manager.c` for one or two flash regions, and of what an observer that records the measurement is told (`core/recovery/recovery_image_observer_pcr.c`).

Both regions are in the same flash device (on different devices they cannot disturb each other). NULL arguments and failures of `observable_init` and `platform_mutex_init` are not modelled. Each
operation is one step except where a function reads shared state after it released the lock: these parts are functions of their own. -/
namespace Verif.Recovery
open Flash (Mem Dev FS Updater)

inductive Reg | r1 | r2
deriving DecidableEq, Repr

def Reg.other : Reg → Reg
  | .r1 => .r2
  | .r2 => .r1

/-- `struct recovery_image_manager_flash_region` with the part of `struct recovery_image` that changes: the digest in its cache, if valid. -/
structure Region where
  valid : Bool
  ref : Nat
  upd : Updater
  cache : Option Bytes

/-- What is given at initialization: one or two regions, their base addresses and the size. -/
structure Layout where
  two : Bool
  base : Reg → Nat
  max : Nat

/-- `struct recovery_image_manager`, the host state (active region now, and the value that is in flash and comes back after a reset), the flash, and what the measurement observer was last told.
`up` is false if initialization failed. -/
structure Mgr where
  up : Bool
  r : Reg → Region
  active : Reg
  saved : Reg
  updating : Option Reg
  fs : FS
  told : Bytes

def Mgr.set (s : Mgr) (g : Reg) (x : Region) : Mgr := { s with r := fun h => if h = g then x else s.r h }

inductive MErr
  | down | inUse | notCleared | incomplete | nonePending
  | flash (st : Flash.Status)
  | image (e : Err)
deriving DecidableEq, Repr

/-- The digest of nothing: what is measured without an active image. -/
def zeros : Bytes := List.replicate 32 0

variable (lay : Layout) (dv : Dev) (env : Env)

/-- `recovery_image_manager_get_region` and `recovery_image_manager_get_region_two_region`, recovery_image_manager.c:24-52. -/
def region (s : Mgr) (active : Bool) : Reg :=
  if lay.two then (if active then s.active else s.active.other) else .r1

/-- The errors that `recovery_image_manager_verify_recovery_image` accepts, recovery_image_manager.c:92-103. -/
def tolerated : Err → Bool
  | .badSignature | .malformed | .incompatible | .notMinimumSize | .badMarker | .tooLong | .badFormatLength | .badPlatformId | .badVersionId | .badImageLength
  | .sectionAddress => true
  | _ => false

/-- The first half of `recovery_image_manager_get_active_recovery_image`, recovery_image_manager.c:183-190. -/
def acquire (s : Mgr) : Reg × Mgr :=
  let g := region lay s true
  (g, if (s.r g).valid then s.set g { s.r g with ref := (s.r g).ref + 1 } else s)

/-- The second half, recovery_image_manager.c:192: the image returned, after the lock was released. -/
def acquired (s : Mgr) (g : Reg) : Option Reg := if (s.r g).valid then some g else none

/-- `recovery_image_manager_get_active_recovery_image`, recovery_image_manager.c:174-193. -/
def getActive (s : Mgr) : Option Reg × Mgr := (acquired (acquire lay s).2 (acquire lay s).1, (acquire lay s).2)

/-- `recovery_image_manager_free_recovery_image`, recovery_image_manager.c:240-266. -/
def free (s : Mgr) (g : Reg) : Mgr := if (s.r g).ref > 0 then s.set g { s.r g with ref := (s.r g).ref - 1 } else s

/-- recovery_image_manager.c:231: `flash_updater_prepare_for_update` of the region. -/
def prepareRegion (s : Mgr) (g : Reg) (size : Nat) : Except MErr Unit × Mgr :=
  match Flash.prepare dv (s.r g).upd s.fs size size with
  | (.ok, u, fs) => (.ok (), { s with fs := fs }.set g { s.r g with upd := u })
  | (st, u, fs) => (.error (.flash st), { s with fs := fs }.set g { s.r g with upd := u })

/-- The measurement observer is told that there is no image, recovery_image_observer_pcr.c:41-45. -/
def deactivated (b : Bool) (s : Mgr) : Mgr := if b then { s with told := zeros } else s

/-- `recovery_image_manager_clear_recovery_image_region`, recovery_image_manager.c:195-238. -/
def clear (s : Mgr) (size : Nat) : Except MErr Unit × Mgr :=
  let g := region lay s false
  if (s.r g).ref ≠ 0 then (.error .inUse, s)
  else if Flash.checkUpdateSize (s.r g).upd size ≠ .ok then (.error (.flash (Flash.checkUpdateSize (s.r g).upd size)), s)
  else
    match prepareRegion dv ({ s with updating := some g }.set g { s.r g with valid := false }) g size with
    | (r, t) => (r, deactivated (!lay.two && (s.r g).valid) t)

/-- `recovery_image_manager_write_recovery_image_data`, recovery_image_manager.c:268-280. -/
def writeData (s : Mgr) (d : Bytes) : Except MErr Unit × Mgr :=
  match s.updating with
  | none => (.error .notCleared, s)
  | some g =>
    match Flash.writeUpdate env.w dv (s.r g).upd s.fs d with
    | (.ok, u, fs) => (.ok (), { s with fs := fs }.set g { s.r g with upd := u })
    | (st, u, fs) => (.error (.flash st), { s with fs := fs }.set g { s.r g with upd := u })

/-- `flash_updater_get_remaining_bytes` of the current update, flash_updater.c:257-265. -/
def remaining (s : Mgr) : Int :=
  match s.updating with
  | none => 0
  | some g => (s.r g).upd.updateSize

/-- recovery_image_manager.c:160-171. -/
def makeActive (s : Mgr) (g : Reg) : Mgr :=
  if g ≠ region lay s true then { s with active := s.active.other }.set s.active { s.r s.active with valid := false } else s

/-- `recovery_image_manager_update_active_region`, recovery_image_manager.c:153-172. -/
def updateActive (s : Mgr) (g : Reg) : Mgr := makeActive lay (s.set g { s.r g with valid := true }) g

/-- The notification of the measurement observer after an activation, recovery_image_manager.c:62-70 and recovery_image_observer_pcr.c:13-39. The reference taken for it is given back. -/
def activated (s : Mgr) : Mgr :=
  match getActive lay s with
  | (none, t) => { t with told := zeros }
  | (some g, t) =>
    match getHash env t.fs.mem (lay.base g) (t.r g).cache with
    | .ok h => free { t with told := h } g
    | .error _ => free t g

/-- `recovery_image_manager_activate_recovery_image`, recovery_image_manager.c:282-330. -/
def activate (s : Mgr) (fuel : Nat) : Except MErr Unit × Mgr :=
  if remaining s > 0 then (.error .incomplete, s)
  else
    let g := region lay s false
    if (s.r g).valid then (.ok (), { s with updating := none })
    else if s.updating = none then (.error .nonePending, s)
    else
      match verify env s.fs.mem fuel (lay.base g) with
      | (.error e, c) => (.error (.image e), { s with updating := none }.set g { s.r g with cache := c })
      | (.ok _, c) => (.ok (), activated lay env { updateActive lay (s.set g { s.r g with cache := c }) g with updating := none })

/-- `recovery_image_manager_erase_recovery_region`, recovery_image_manager.c:349-360. -/
def eraseRecovery (s : Mgr) (g : Reg) : Except MErr Unit × Mgr :=
  if (s.r g).ref ≠ 0 then (.error .inUse, s)
  else
    match Flash.eraseRegion dv dv.block s.fs (s.r g).upd.base (s.r g).upd.maxSize with
    | (.ok, fs) => (.ok (), { s with fs := fs }.set g { s.r g with valid := false })
    | (st, fs) => (.error (.flash st), { s with fs := fs }.set g { s.r g with valid := false })

/-- `recovery_image_manager_erase_all_recovery_regions`, recovery_image_manager.c:362-399. -/
def eraseAll (s : Mgr) : Except MErr Unit × Mgr :=
  let g1 := region lay s false
  match eraseRecovery dv s g1 with
  | (.error e, t) => (.error e, deactivated (s.r g1).valid t)
  | (.ok _, t) =>
    let g2 := region lay t true
    if g1 ≠ g2 then
      match eraseRecovery dv { t with updating := none } g2 with
      | (r, u) => (r, deactivated ((s.r g1).valid || (t.r g2).valid) u)
    else (.ok (), deactivated (s.r g1).valid { t with updating := none })

/-- A region after initialization. -/
def fresh (base max block : Nat) (valid : Bool) (cache : Option Bytes) : Region := ⟨valid, 0, ⟨base, max, block, 0, 0⟩, cache⟩

/-- The region that is verified by initialization: recovery_image_manager.c:437 or 515-524. -/
def bootRegion (s : Mgr) : Reg := if lay.two then s.saved else .r1

/-- The manager after initialization. The measurement observer starts with the value of the active image. -/
def booted (s : Mgr) (up valid : Bool) (c : Option Bytes) : Mgr :=
  { s with up := up, active := s.saved, updating := none, told := if valid then c.getD zeros else zeros,
           r := fun h => if h = bootRegion lay s then fresh (lay.base h) lay.max dv.block valid c else fresh (lay.base h) lay.max dv.block false none }

/-- Reset: `recovery_image_manager_init` (recovery_image_manager.c:413-470) or `recovery_image_manager_init_two_region` (487-566) with the host state restored from flash. Only the active region is verified. -/
def reset (s : Mgr) (fuel : Nat) : Except MErr Unit × Mgr :=
  match verify env s.fs.mem fuel (lay.base (bootRegion lay s)) with
  | (.ok _, c) => (.ok (), booted lay dv s true true c)
  | (.error e, c) => if tolerated e then (.ok (), booted lay dv s true false c) else (.error (.image e), booted lay dv s false false c)

/-- `recovery_image_manager_get_measured_data`, recovery_image_manager.c:626-658: the bytes copied (the total length is always 32). -/
def measuredData (s : Mgr) (offset length : Nat) : Except MErr Bytes × Mgr :=
  if offset > 31 then (.ok [], s)
  else
    match getActive lay s with
    | (none, t) => (.ok ((zeros.drop offset).take (min (32 - offset) length)), t)
    | (some g, t) =>
      match getHash env t.fs.mem (lay.base g) (t.r g).cache with
      | .error e => (.error (.image e), free t g)
      | .ok h => (.ok ((h.drop offset).take (min (32 - offset) length)), free t g)

/-- `recovery_image_manager_hash_measured_data`, recovery_image_manager.c:673-694: the bytes given to the hash. -/
def hashMeasuredData (s : Mgr) : Except MErr Bytes × Mgr :=
  match getActive lay s with
  | (none, t) => (.ok zeros, t)
  | (some g, t) =>
    match getHash env t.fs.mem (lay.base g) (t.r g).cache with
    | .error e => (.error (.image e), free t g)
    | .ok h => (.ok h, free t g)

end Verif.Recovery
