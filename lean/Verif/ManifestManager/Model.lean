import Verif.Common.Bytes
/-! Model of `core/manifest/manifest_manager_flash.c` with the parts of `core/flash/flash_updater.c` and `core/manifest/manifest_flash.c` it uses.

The two flash regions are indexed by `Bool` (`true`: region 1). The contents of a region is a byte string; what an erase or a write leaves in
flash is chosen by the environment, which covers partial and failing operations. Every flash operation is recorded in a trace, together with
the state of the manager at that time. Nothing else writes the regions. The functions are atomic here, see `Conc.lean` for
`manifest_manager_flash_get_manifest_region`; `manifest_manager_flash_clear_pending_region` erases and `…_write_pending_data` writes
without the lock, so calls that race with them are not covered. Mutexes do not fail and the arguments are not NULL. -/
namespace Verif.ManifestManager

/-- What manifest parsing says about the contents of a region: `good` if `manifest->verify` accepts it, the id and platform id of the header,
`empty` for `is_empty`. -/
structure World where
  good : Bytes → Bool
  id : Bytes → Nat
  platform : Bytes → Bytes
  empty : Bytes → Bool
  /-- `sku_upgrade_permitted`. -/
  sku : Bool

/-- `struct manifest_manager_flash_region_state` with the flash contents. `loaded` is what the manifest parser has cached
(`manifest_flash_state`, `manifest_valid` is `loaded.isSome`); `remaining` and `offset` are `update_size` and `write_offset` of the updater. -/
structure Region where
  refs : Nat
  valid : Bool
  content : Bytes
  loaded : Option Bytes
  remaining : Int
  offset : Nat

/-- `active`: `get_active_manifest` of the state manager. `up`: initialization succeeded. -/
structure State where
  up : Bool
  active : Bool
  region : Bool → Region
  updating : Option Bool

inductive Err
  | nonePending | hasPending | notCleared | incompleteUpdate | invalidId | incompatible | pendingInUse | activeInUse
  | tooLarge | outOfSpace | incompleteWrite | noManifest | verifyBad | verifyFailed | emptyFailed | flash | postVerify
deriving DecidableEq, Repr

abbrev Result := Except Err Unit

/-- The flash operations of a call: state of the manager and region that is hit. -/
abbrev Trace := List (State × Bool)

def State.set (s : State) (r : Bool) (x : Region) : State := { s with region := fun q => if q = r then x else s.region q }

/-- `manifest_manager_flash_get_region`, lines 288-300. -/
def State.pick (s : State) (active : Bool) : Bool := if active then s.active else !s.active

/-- `manifest->verify` (`manifest_flash_verify`), which forgets the old manifest first. `fail`: an error that is not about the manifest. -/
inductive Verdict | ok | bad | failed
deriving DecidableEq

def verify (W : World) (s : State) (r : Bool) (fail : Bool) : State × Verdict :=
  let x := s.region r
  if fail then (s.set r { x with loaded := none }, .failed)
  else if W.good x.content then (s.set r { x with loaded := some x.content }, .ok)
  else (s.set r { x with loaded := none }, .bad)

def setValid (s : State) (r v : Bool) : State := s.set r { s.region r with valid := v }

/-- `manifest_manager_flash_verify_manifest`, lines 25-44. -/
def verifyManifest (W : World) (s : State) (r : Bool) (fail : Bool) : State × Result :=
  match verify W s r fail with
  | (s, .ok) => (setValid s r true, .ok ())
  | (s, .bad) => (setValid s r false, .ok ())
  | (s, .failed) => (s, .error .verifyFailed)

/-- `manifest_flash_compare_id`, manifest_flash.c:1510-1530: `true` for 0. -/
def compareId (W : World) (m1 m2 : Option Bytes) : Bool :=
  match m2 with
  | none => false
  | some b =>
    match m1 with
    | none => true
    | some a => W.id a < W.id b

/-- `strcmp`/`strncmp` with the length of the first, manifest_flash.c:1553-1559: `true` for equal. -/
def samePlatform (W : World) (a b : Bytes) : Bool :=
  if W.sku then (W.platform a).isPrefixOf (W.platform b) else W.platform a == W.platform b

/-- `manifest_flash_compare_platform_id`, lines 1542-1560. -/
def comparePlatform (W : World) (m1 m2 : Option Bytes) : Except Err Bool :=
  match m1, m2 with
  | some a, some b => .ok (samePlatform W a b)
  | _, _ => .error .noManifest

/-- `manifest_manager_flash_check_pending_manifest_id`, lines 55-74. -/
def checkId (W : World) (s : State) : State × Result :=
  if (s.region (s.pick true)).valid && (s.region (s.pick false)).valid then
    if compareId W (s.region (s.pick true)).loaded (s.region (s.pick false)).loaded then (s, .ok ())
    else (setValid s (s.pick false) false, .error .invalidId)
  else (s, .ok ())

/-- `manifest_manager_flash_check_pending_platform_id`, lines 84-107. -/
def checkPlatform (W : World) (s : State) : State × Result :=
  if (s.region (s.pick true)).valid && (s.region (s.pick false)).valid then
    match comparePlatform W (s.region (s.pick true)).loaded (s.region (s.pick false)).loaded with
    | .ok true => (s, .ok ())
    | .ok false => (setValid s (s.pick false) false, .error .incompatible)
    | .error e => (setValid s (s.pick false) false, .error e)
  else (s, .ok ())

/-- What an erase leaves in flash and whether it reports success. -/
structure Erase where
  content : Bytes
  ok : Bool

/-- `manifest_manager_flash_clear_manifest`, lines 537-548. -/
def clearManifest (s : State) (r : Bool) (inUse : Err) (e : Erase) : State × Result × Trace :=
  if (s.region r).refs ≠ 0 then (s, .error inUse, [])
  else
    let s := setValid s r false
    (s.set r { s.region r with content := e.content }, if e.ok then .ok () else .error .flash, [(s, r)])

/-- `manifest_manager_flash_clear_all_manifests`, lines 558-583. -/
def clearAll (s : State) (e1 e2 : Erase) : State × Result × Trace :=
  match clearManifest s (s.pick false) .pendingInUse e1 with
  | (s, .error e, t) => (s, .error e, t)
  | (s, .ok (), t) =>
    let s := { s with updating := none }
    match clearManifest s (s.pick true) .activeInUse e2 with
    | (s, r, t2) => (s, r, t ++ t2)

/-- What the environment does during initialization. -/
structure BootEnv where
  active : Bool
  fail1 : Bool
  fail2 : Bool
  emptyFail : Bool
  e1 : Erase
  e2 : Erase

/-- `manifest_manager_flash_check_empty_manifest`, lines 117-137. -/
def checkEmpty (W : World) (s : State) (env : BootEnv) : State × Result × Trace :=
  if (s.region (s.pick false)).valid then
    if env.emptyFail then (s, .error .emptyFailed, [])
    else if W.empty (s.region (s.pick false)).content then clearAll s env.e1 env.e2
    else (s, .ok (), [])
  else (s, .ok (), [])

/-- `memset` of the state, line 205, and new parsers; the flash keeps its contents. -/
def reset (s : State) (active : Bool) : State :=
  { up := false, active := active, updating := none, region := fun r => ⟨0, false, (s.region r).content, none, 0, 0⟩ }

/-- Lines 225-227 and 230-232: an error that ends the initialization. -/
def fatal (r : Result) (ignored : Err) : Option Err :=
  match r with
  | .ok _ => none
  | .error e => if e = ignored then none else some e

/-- Lines 224-251, after both regions were verified. -/
def bootChecks (W : World) (s : State) (env : BootEnv) : State × Result × Trace :=
  let c := checkId W s
  match fatal c.2 .invalidId with
  | some e => (c.1, .error e, [])
  | none =>
    let p := checkPlatform W c.1
    match fatal p.2 .incompatible with
    | some e => (p.1, .error e, [])
    | none =>
      match checkEmpty W p.1 env with
      | (s, .error e, t) => (s, .error e, t)
      | (s, .ok (), t) => ({ s with up := true }, .ok (), t)

/-- `manifest_manager_flash_init_state`, lines 194-266. The updaters are initialized with the reset (their initialization cannot fail here). -/
def boot (W : World) (s : State) (env : BootEnv) : State × Result × Trace :=
  let s := reset s env.active
  match verifyManifest W s true env.fail1 with
  | (s, .error e) => (s, .error e, [])
  | (s, .ok ()) =>
    match verifyManifest W s false env.fail2 with
    | (s, .error e) => (s, .error e, [])
    | (s, .ok ()) => bootChecks W s env

/-- The locked part of `manifest_manager_flash_get_manifest_region`, lines 316-323: the region, and whether it was counted. -/
def getLocked (s : State) (active : Bool) : State × Bool × Bool :=
  let r := s.pick active
  if (s.region r).valid then (s.set r { s.region r with refs := (s.region r).refs + 1 }, r, true) else (s, r, false)

/-- The whole function, lines 311-326, with nothing in between. -/
def get (s : State) (active : Bool) : State × Option Bool :=
  let (s, r, _) := getLocked s active
  (s, if (s.region r).valid then some r else none)

/-- `manifest_manager_flash_free_manifest`, lines 335-357; `none` is a manifest of somebody else. -/
def free (s : State) (r : Option Bool) : State :=
  match r with
  | none => s
  | some r => if (s.region r).refs > 0 then s.set r { s.region r with refs := (s.region r).refs - 1 } else s

/-- `manifest_manager_flash_activate_pending_manifest`, lines 367-401. `save_active_manifest`, whose status is ignored, fails only for a manifest
index that initialization has refused. -/
def activate (s : State) : State × Result :=
  if s.active then
    if !(s.region false).valid then (s, .error .nonePending)
    else (setValid { s with active := false } true false, .ok ())
  else
    if !(s.region true).valid then (s, .error .nonePending)
    else (setValid { s with active := true } false false, .ok ())

/-- `FLASH_BLOCK_SIZE`, the size of a region. -/
def maxSize : Nat := 0x10000

/-- `manifest_manager_flash_clear_pending_region`, lines 411-440, with `flash_updater_prepare_for_update_erase_all`, flash_updater.c:135-191. -/
def clearPending (s : State) (size : Nat) (e : Erase) : State × Result × Trace :=
  let r := s.pick false
  if (s.region r).refs = 0 then
    if size > maxSize then (s, .error .tooLarge, [])
    else
      let s := setValid { s with updating := some r } r false
      let x := { s.region r with content := e.content }
      if e.ok then (s.set r { x with remaining := size, offset := 0 }, .ok (), [(s, r)])
      else (s.set r x, .error .flash, [(s, r)])
  else (s, .error .pendingInUse, [])

/-- `manifest_manager_flash_write_pending_data`, lines 451-463, with `flash_updater_write_update_data`, flash_updater.c:207-230. The environment
gives what is in flash after the write and the number of bytes reported, `none` for an error. -/
def writePending (s : State) (length : Nat) (content : Bytes) (written : Option Nat) : State × Result × Trace :=
  match s.updating with
  | none => (s, .error .notCleared, [])
  | some r =>
    let x := s.region r
    if x.offset + length > maxSize then (s, .error .outOfSpace, [])
    else match written with
      | none => (s.set r { x with content := content }, .error .flash, [(s, r)])
      | some n => (s.set r { x with content := content, remaining := x.remaining - n, offset := x.offset + n },
          if n = length then .ok () else .error .incompleteWrite, [(s, r)])

/-- `flash_updater_get_remaining_bytes`, flash_updater.c:257-265. -/
def remaining (s : State) : Int :=
  match s.updating with
  | none => 0
  | some r => (s.region r).remaining

/-- Lines 485-500. -/
def verifyNew (W : World) (s : State) (fail : Bool) : State × Result :=
  let r := s.pick false
  if !(s.region r).valid then
    if s.updating.isSome then
      match verify W s r fail with
      | (s, .ok) => (setValid s r true, .ok ())
      | (s, .bad) => (s, .error .verifyBad)
      | (s, .failed) => (s, .error .verifyFailed)
    else (s, .error .nonePending)
  else (s, .error .hasPending)

/-- Lines 502-519. -/
def checkNew (W : World) (s : State) (post : Bool) : State × Result :=
  match checkId W s with
  | (s, .error e) => (s, .error e)
  | (s, .ok ()) =>
    match checkPlatform W s with
    | (s, .error e) => (s, .error e)
    | (s, .ok ()) => (s, if post then .ok () else .error .postVerify)

/-- `manifest_manager_flash_verify_pending_manifest`, lines 473-527. `post`: the `post_verify` hook is not set or succeeds. -/
def verifyPending (W : World) (s : State) (fail post : Bool) : State × Result :=
  let (s, r) :=
    if remaining s > 0 then (s, .error .incompleteUpdate)
    else match verifyNew W s fail with
      | (s, .error e) => (s, .error e)
      | (s, .ok ()) => checkNew W s post
  ({ s with updating := none }, r)

end Verif.ManifestManager
