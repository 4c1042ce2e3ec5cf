import Verif.HostFw.Model
/-! Model of `core/host_fw/host_flash_manager.c`: validating host flash with a platform firmware manifest (PFM), and the same with the help of a
PFM that is known to be good.

The flash device, hash and RSA engines and the functions of `host_fw_util.c` are those of `Verif.HostFw`. The lists that a PFM gives out are
objects on the heap; the model tracks which of them are allocated. Null checks of arguments are left out. -/
namespace Verif.HostFlash
open Verif.Flash Verif.HostFw

/-- `struct pfm`, pfm.h:107-213, as far as it is used here; `none` is an error. The PFM does not change during the operation, and every question is
asked once, so errors of its flash are part of it. Firmware and versions are named by strings. -/
structure Pfm where
  firmware : Option (List Bytes)                  -- `get_firmware`
  versions : Bytes → Option (List Version)        -- `get_supported_versions`
  images : Bytes → Bytes → Option ImageList       -- `get_firmware_images`
  rw : Bytes → Bytes → Option (List Region)       -- `get_read_write_regions`

/-- Objects on the heap: the list of firmware, the arrays `fw_images` and `writable`, and for the `i`-th firmware its versions, images and read/write
regions; `known` is `fw_images_good`. -/
inductive Obj
  | firmware | imageArray | rwArray
  | versions (i : Nat) | images (i : Nat) | rw (i : Nat) | known (i : Nat)
deriving DecidableEq, Repr

/-- Why a function fails. `noMemory` is HOST_FLASH_MGR_NO_MEMORY; `undefined` is no error code: freed or uninitialised memory is used; `endless`: a loop
of `host_fw_util.c` has not ended within the `fuel`. -/
inductive Err | pfm | noMemory | fw (e : HostFw.Err) | undefined | endless
deriving DecidableEq, Repr

/-- The flash, which objects are allocated, and whether an object was freed that is not allocated, or allocated without the old one being freed. -/
structure St where
  fs : FS
  live : Obj → Bool
  bad : Bool

/-- A function of the program. -/
abbrev M (α : Type) := St → Except Err α × St

/-- No effect. -/
def M.pure (a : α) : M α := fun s => (.ok a, s)

/-- One after the other, up to an error. -/
def M.bind (m : M α) (f : α → M β) : M β := fun s =>
  match m s with
  | (.ok a, s) => f a s
  | (.error e, s) => (.error e, s)

instance : Monad M where
  pure := M.pure
  bind := M.bind

/-- Fail. -/
def fail (e : Err) : M α := fun s => (.error e, s)

/-- `if (b) { m }`. -/
def doIf (b : Bool) (m : M Unit) : M Unit := if b then m else pure ()

/-- `c` only after an error of `m`: the labels for cleaning up. -/
def onErr (m : M α) (c : M Unit) : M α := fun s =>
  match m s with
  | (.ok a, s) => (.ok a, s)
  | (.error e, s) => (.error e, (c s).2)

/-- `c` after `m`, whether it worked or not. -/
def always (m : M α) (c : M Unit) : M α := fun s =>
  match m s with
  | (r, s) => (r, (c s).2)

/-- `platform_calloc`, or the allocation in a function of the PFM. -/
def alloc (o : Obj) : M Unit := fun s =>
  (.ok (), { s with live := fun x => if x = o then true else s.live x, bad := s.bad || s.live o })

/-- `platform_free`, or a function of the PFM that frees. -/
def free (o : Obj) : M Unit := fun s =>
  (.ok (), { s with live := fun x => if x = o then false else s.live x, bad := s.bad || !s.live o })

/-- A function of the PFM that gives out the object `o`. If it fails, nothing is allocated. -/
def get (o : Obj) (x : Option α) : M α := do
  match x with
  | none => fail .pfm
  | some a => do
    alloc o
    pure a

/-- A function of `host_fw_util.c`. -/
def lift (f : FS → Except HostFw.Err α × FS) : M α := fun s =>
  match f s.fs with
  | (.ok a, fs) => (.ok a, { s with fs := fs })
  | (.error e, fs) => (.error (.fw e), { s with fs := fs })

/-- One that may not end. -/
def liftOpt (f : FS → Option (Except HostFw.Err α × FS)) : M α := fun s =>
  match f s.fs with
  | none => (.error .endless, s)
  | some (.ok a, fs) => (.ok a, { s with fs := fs })
  | some (.error e, fs) => (.error (.fw e), { s with fs := fs })

/-- What the platform gives: the flash device, its size, the engines, the memory after a digest (see `HostFw.verifyHash`), whether the two allocations
succeed, how long loops run, and what is read from memory that held `b` before it was freed (`none`: anything may happen). -/
structure Env where
  dv : Dev
  size : Nat
  eg : Engine
  stack : Bytes
  memImages : Bool
  memRw : Bool
  fuel : Nat
  stale : UInt8 → Option UInt8

/-- What the PFM has for the version of a firmware that is on the flash. `rw` is empty if it is not asked for. -/
structure Entry where
  version : Version
  images : ImageList
  rw : List Region
deriving DecidableEq, Repr

/-- `host_flash_manager_get_image_entry`, host_flash_manager.c:27-64, for the `i`-th firmware. -/
def imageEntry (env : Env) (p : Pfm) (off : Nat) (wantRw : Bool) (i : Nat) (id : Bytes) : M Entry := do
  let vs ← get (.versions i) (p.versions id)
  onErr (do
      let v ← lift (determineVersion env.dv off vs)
      let l ← get (.images i) (p.images id v.id)
      let rw ← onErr (if wantRw then get (.rw i) (p.rw id v.id) else pure []) (free (.images i))
      pure ⟨v, l, rw⟩)
    (free (.versions i))

/-- `host_flash_manager_get_firmware_types`, host_flash_manager.c:76-116. -/
def firmwareTypes (env : Env) (p : Pfm) (wantImages wantRw : Bool) : M (List Bytes) := do
  let ids ← get .firmware p.firmware
  onErr (do
      doIf wantImages (if env.memImages then alloc .imageArray else fail .noMemory)
      doIf wantRw (onErr (if env.memRw then alloc .rwArray else fail .noMemory) (doIf wantImages (free .imageArray)))
      pure ids)
    (free .firmware)

/-- Free an object for each `i` below `n`. -/
def freeEach (f : Nat → Obj) : Nat → M Unit
  | 0 => pure ()
  | n + 1 => do
    freeEach f n
    free (f n)

/-- `host_flash_manager_free_read_write_regions`, host_flash_manager.c:118-136; `n` is `host_rw->count`. -/
def freeRw (n : Nat) : M Unit := do
  freeEach .rw n
  free .rwArray

/-- `host_flash_manager_free_images`, host_flash_manager.c:143-154; `n` is `host_img->count`. -/
def freeImages (n : Nat) : M Unit := do
  freeEach .images n
  free .imageArray

/-- The labels `free_host` of host_flash_manager.c:232-238 and 306-312, after an error; `n` is the number of entries so far. -/
def cleanup (wantRw : Bool) (n : Nat) : M Unit := do
  doIf wantRw (freeRw n)
  freeImages n
  free .firmware

/-- The loop at host_flash_manager.c:208-221 from the `i`-th firmware on, with the jump to `free_host`. The result is the entries. -/
def entriesLoop (env : Env) (p : Pfm) (off : Nat) (wantRw : Bool) : Nat → List Bytes → M (List Entry)
  | _, [] => pure []
  | i, id :: ids => do
    let x ← onErr (imageEntry env p off wantRw i id) (cleanup wantRw i)
    free (.versions i)
    let xs ← entriesLoop env p off wantRw (i + 1) ids
    pure (x :: xs)

/-- `version->blank_byte` at host_flash_manager.c:225: `version` points into the list of versions of the last firmware, which was freed in line 220. If
there is no firmware then `version` is not initialised. -/
def readBlank (env : Env) (xs : List Entry) : M UInt8 := fun s =>
  match xs.getLast? with
  | none => (.error .undefined, s)
  | some x =>
    if s.live (.versions (xs.length - 1)) then (.ok x.version.blank, s)
    else
      match env.stale x.version.blank with
      | none => (.error .undefined, s)
      | some b => (.ok b, s)

/-- host_flash_manager.c:223-230. `wantRw` is whether `host_rw` is not null; `host_rw->writable` is read without a check. -/
def verifyEntries (env : Env) (full wantRw : Bool) (off : Nat) (xs : List Entry) : M Unit :=
  if full then
    if wantRw then do
      let b ← readBlank env xs
      liftOpt (fullVerify env.dv env.eg env.stack (xs.map (·.images)) (xs.map (·.rw)) env.size b env.fuel)
    else fail .undefined
  else lift (verifyImages env.dv env.eg env.stack off (xs.map (·.images)))

/-- The end of host_flash_manager.c:232-240: after a verification the objects are freed, the read/write regions only after an error. Undefined behaviour
does not get here; the model frees also then. -/
def finish (wantRw : Bool) (xs : List Entry) (m : M Unit) : M Unit :=
  always (onErr m (doIf wantRw (freeRw xs.length))) (do
    freeImages xs.length
    free .firmware)

/-- `host_flash_manager_validate_offset_flash`, host_flash_manager.c:192-241, and `host_flash_manager_validate_flash` (169-175) with `off = 0`. The
result is the content of `host_rw`, in the entries. -/
def validateFlash (env : Env) (p : Pfm) (full wantRw : Bool) (off : Nat) : M (List Entry) := do
  let ids ← firmwareTypes env p true wantRw
  let xs ← entriesLoop env p off wantRw 0 ids
  finish wantRw xs (verifyEntries env full wantRw off xs)
  pure xs

/-- host_flash_manager.c:287-296 for the `i`-th firmware: whether its images differ from those that `good` has for that version. `diff` is whether there
was a difference before (`match_status`). -/
def compareEntry (env : Env) (good : Pfm) (i : Nat) (id : Bytes) (x : Entry) (diff : Bool) : M Bool :=
  if diff then pure true
  else
    match good.images id x.version.id with
    | none => pure true
    | some l => do
      alloc (.known i)
      match imagesDifferent env.fuel x.images l with
      | none => fail .endless
      | some d => do
        free (.known i)
        pure d

/-- The loop at host_flash_manager.c:275-299. -/
def compareLoop (env : Env) (p good : Pfm) (wantRw : Bool) : Nat → Bool → List Bytes → M (List Entry × Bool)
  | _, diff, [] => pure ([], diff)
  | i, diff, id :: ids => do
    let x ← onErr (imageEntry env p 0 wantRw i id) (cleanup wantRw i)
    let d ← compareEntry env good i id x diff
    free (.versions i)
    let (xs, r) ← compareLoop env p good wantRw (i + 1) d ids
    pure (x :: xs, r)

/-- `host_flash_manager_validate_pfm`, host_flash_manager.c:257-315. -/
def validatePfm (env : Env) (p good : Pfm) (wantRw : Bool) : M (List Entry) := do
  let ids ← firmwareTypes env p true wantRw
  let (xs, diff) ← compareLoop env p good wantRw 0 false ids
  finish wantRw xs (if diff then verifyEntries env false wantRw 0 xs else pure ())
  pure xs

/-- The loop of `host_flash_manager_get_flash_read_write_regions`, host_flash_manager.c:370-383, with `host_flash_manager_find_flash_version` (328-345) and
the label `free_rw` after an error. -/
def regionsLoop (env : Env) (p : Pfm) : Nat → List Bytes → M (List (List Region))
  | _, [] => pure []
  | i, id :: ids => do
    let rw ← onErr (do
        let vs ← get (.versions i) (p.versions id)
        let v ← onErr (lift (determineVersion env.dv 0 vs)) (free (.versions i))
        always (get (.rw i) (p.rw id v.id)) (free (.versions i)))
      (do freeRw i; free .firmware)
    let l ← regionsLoop env p (i + 1) ids
    pure (rw :: l)

/-- `host_flash_manager_get_flash_read_write_regions`, host_flash_manager.c:356-393. -/
def flashRegions (env : Env) (p : Pfm) : M (List (List Region)) := do
  let ids ← firmwareTypes env p false true
  let l ← regionsLoop env p 0 ids
  free .firmware
  pure l

/-- `validate_read_only_flash` of `host_flash_manager_dual.c`:53-75 and `host_flash_manager_single.c`:44-66. -/
def validateReadOnly (env : Env) (p : Pfm) (good : Option Pfm) (full : Bool) : M (List Entry) :=
  match good, full with
  | some g, false => validatePfm env p g true
  | _, _ => validateFlash env p full true 0

end Verif.HostFlash
