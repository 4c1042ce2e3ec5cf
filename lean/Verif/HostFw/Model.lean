import Verif.Flash.Model
/-! Model of `core/host_fw/host_fw_util.c`: finding the version of the firmware on a host flash, checking its images and its unused
bytes, comparing the lists of two manifests, migrating and restoring data, and giving the host write access to regions of its flash.

Flash devices and the functions of `flash_util.c` are those of `Verif.Flash`. Null checks of arguments are left out. Loops that look for
the next region at or after an address are not bounded by anything in the program; they take `fuel` here, and `none` says that the loop has
not ended after that many rounds. -/
namespace Verif.HostFw
open Verif.Flash

/-- `struct flash_region`, flash_util.h:30. -/
structure Region where
  start : Nat
  len : Nat
deriving DecidableEq, Repr

/-- `region->start_addr + region->length` as it is stored in a `uint32_t`. -/
def Region.stop (r : Region) : Nat := u32 (r.start + r.len)

/-- `a - b` for two `uint32_t`. -/
def sub32 (a b : Nat) : Nat := u32 (a + 2 ^ 32 - b)

/-! ### The version of the firmware -/

/-- `struct pfm_firmware_version`, pfm.h: identifier and address. `blank` is `blank_byte`. -/
structure Version where
  id : Bytes
  addr : Nat
  blank : UInt8
deriving DecidableEq, Repr

/-- Why a function of host_fw_util.c failed. -/
inductive Err
  | unsupported            -- HOST_FW_UTIL_UNSUPPORTED_VERSION
  | badHash                -- HOST_FW_UTIL_BAD_IMAGE_HASH
  | diffCount              -- HOST_FW_UTIL_DIFF_REGION_COUNT
  | diffAddr               -- HOST_FW_UTIL_DIFF_REGION_ADDR
  | diffSize               -- HOST_FW_UTIL_DIFF_REGION_SIZE
  | diffFw                 -- HOST_FW_UTIL_DIFF_FW_COUNT
  | flash (st : Status)    -- a flash function failed
  | engine                 -- a hash or RSA engine or the SPI filter failed
deriving DecidableEq, Repr

/-- The comparison and further reading for a version at the address of the previous one, host_fw_util.c:114-152. `buf` is what is known of
the flash at that address (`version_len` bytes). The result is whether the version matches and the new `buf`; `none` is a read error. The
identifiers hold no null byte before their end, so `strncmp` over at most the length of the identifier is equality of bytes. -/
def matchCached (dv : Dev) (off : Nat) (v : Version) (buf : Bytes) (s : FS) : Option (Bool × Bytes) × FS :=
  if v.id.length < buf.length then (some (v.id == buf.take v.id.length, buf), s)
  else if v.id.take buf.length == buf then
    if v.id.length = buf.length then (some (true, buf), s)
    else
      match read dv s (u32 (v.addr + off + buf.length)) (v.id.length - buf.length) with
      | (none, s) => (none, s)
      | (some d, s) => (some (v.id.drop buf.length == d, buf ++ d), s)
  else (some (false, buf), s)

/-- The first reading at an address, host_fw_util.c:98-112. -/
def matchFresh (dv : Dev) (off : Nat) (v : Version) (s : FS) : Option (Bool × Bytes) × FS :=
  match read dv s (u32 (v.addr + off)) v.id.length with
  | (none, s) => (none, s)
  | (some d, s) => (some (v.id == d, d), s)

/-- Whether the bytes known from the previous version can be used, host_fw_util.c:98-113. -/
def matchOne (dv : Dev) (off : Nat) (prev : Option (Version × Bytes)) (v : Version) (s : FS) : Option (Bool × Bytes) × FS :=
  match prev with
  | some (p, buf) => if v.addr = p.addr then matchCached dv off v buf s else matchFresh dv off v s
  | none => matchFresh dv off v s

/-- The loop at host_fw_util.c:95-157 over the versions from the last to the first (`vs` is reversed). `prev` is the version looked at
before, with the bytes known at its address. -/
def versionLoop (dv : Dev) (off : Nat) : Option (Version × Bytes) → List Version → FS → Except Err Version × FS
  | _, [], s => (.error .unsupported, s)
  | prev, v :: vs, s =>
    match matchOne dv off prev v s with
    | (none, s) => (.error (.flash .flash), s)
    | (some (true, _), s) => (.ok v, s)
    | (some (false, buf), s) => versionLoop dv off (some (v, buf)) vs s

/-- `host_fw_determine_offset_version`, host_fw_util.c:69-167. The allocation does not fail. -/
def determineVersion (dv : Dev) (off : Nat) (allowed : List Version) (s : FS) : Except Err Version × FS :=
  versionLoop dv off none allowed.reverse s

/-! ### The next region -/

/-- The loop of `host_fw_find_next_region`, host_fw_util.c:185-197. -/
def findLoop (last : Nat) (next : Option Region) : List Region → Option Region
  | [] => next
  | r :: rs =>
    if last ≤ r.start then
      if r.start = last then some r
      else if next.all (fun n => r.start < n.start) then findLoop last (some r) rs
      else findLoop last next rs
    else findLoop last next rs

/-- `host_fw_find_next_region`, host_fw_util.c:179-198. -/
def findNext (last : Nat) (rs : List Region) : Option Region := findLoop last none rs

/-- The loops of `host_fw_find_next_img_region` (host_fw_util.c:487-509) and `host_fw_find_next_rw_region` (529-542): the same over
several lists of regions. The two nested loops of the first one go through the images of all firmware one after the other. -/
def findGroupLoop (last : Nat) (next : Option Region) : List (List Region) → Option Region
  | [] => next
  | g :: gs =>
    match findNext last g with
    | some r =>
      if r.start = last then some r
      else if next.all (fun n => r.start < n.start) then findGroupLoop last (some r) gs
      else findGroupLoop last next gs
    | none => findGroupLoop last next gs

/-- `host_fw_find_next_img_region` and `host_fw_find_next_rw_region`. -/
def findGroup (last : Nat) (gs : List (List Region)) : Option Region := findGroupLoop last none gs

/-- `host_fw_find_next_flash_region`, host_fw_util.c:556-579. -/
def findFlash (last : Nat) (imgs rws : List (List Region)) : Option Region :=
  match findGroup last imgs with
  | some n =>
    if n.start = last then some n
    else
      match findGroup last rws with
      | some r => if r.start = last then some r else if r.start < n.start then some r else some n
      | none => some n
  | none => findGroup last rws

/-! ### Images -/

/-- `struct rsa_public_key`, crypto/rsa.h. `modulus` is the whole array. -/
structure RsaKey where
  modulus : Bytes
  modLen : Nat
  exponent : Nat
deriving DecidableEq, Repr

/-- `struct pfm_image_signature`, pfm.h:70-77. `signature` is the whole array. -/
structure SigImage where
  regions : List Region
  key : RsaKey
  signature : Bytes
  sigLen : Nat
  always : UInt8
deriving DecidableEq, Repr

/-- `struct pfm_image_hash`, pfm.h:82-89. `hash` is the whole array. -/
structure HashImage where
  regions : List Region
  hash : Bytes
  hashLen : Nat
  hashType : Nat
  always : UInt8
deriving DecidableEq, Repr

/-- `struct pfm_image_list`, pfm.h:98-102: one of the two lists is there. -/
inductive ImageList
  | sig (l : List SigImage)
  | hash (l : List HashImage)
deriving DecidableEq, Repr

/-- The regions of each image in the list. -/
def ImageList.regions : ImageList → List (List Region)
  | .sig l => l.map (·.regions)
  | .hash l => l.map (·.regions)

/-- Hash and RSA engines. `digest` for a type of hash (`none`: not supported), `verify key signature digest`. `fail n`: the engine fails
when it is used after the `n`-th call of the flash driver. -/
structure Engine where
  digest : Nat → Bytes → Option Bytes
  verify : RsaKey → Bytes → Bytes → Bool
  fail : Nat → Bool

/-- `HASH_TYPE_SHA256`, crypto/hash.h. -/
def sha256 : Nat := 1

/-- `flash_hash_noncontiguous_contents_at_offset`, flash_util.c:390-424, with the parameter check at 396-399 (an image with no regions).
`eg.fail` covers starting and finishing the hash also. -/
def hashFlash (dv : Dev) (eg : Engine) (off : Nat) (rs : List Region) (ty : Nat) (s : FS) : Except Err Bytes × FS :=
  if rs = [] then (.error (.flash .flash), s)
  else if eg.fail s.calls then (.error .engine, s)
  else
    match hashRegions dv eg.fail off s [] (rs.map (fun r => (r.start, r.len))) with
    | (.ok, data, s) =>
      if eg.fail s.calls then (.error .engine, s)
      else
        match eg.digest ty data with
        | some d => (.ok d, s)
        | none => (.error .engine, s)
    | (st, _, s) => (.error (.flash st), s)

/-- One image with a signature, host_fw_util.c:345-353 and `flash_verify_noncontiguous_contents_at_offset` (flash_util.c:110-158). -/
def verifySig (dv : Dev) (eg : Engine) (all : Bool) (off : Nat) (i : SigImage) (s : FS) : Except Err Unit × FS :=
  if all || i.always ≠ 0 then
    if i.sigLen = 0 then (.error (.flash .flash), s)
    else
      match hashFlash dv eg off i.regions sha256 s with
      | (.error e, s) => (.error e, s)
      | (.ok d, s) => if eg.verify i.key (i.signature.take i.sigLen) d then (.ok (), s) else (.error .engine, s)
  else (.ok (), s)

/-- One image with a hash, host_fw_util.c:355-369. `stack` is what the buffer `img_hash` holds after the digest. -/
def verifyHash (dv : Dev) (eg : Engine) (stack : Bytes) (all : Bool) (off : Nat) (i : HashImage) (s : FS) : Except Err Unit × FS :=
  if all || i.always ≠ 0 then
    match hashFlash dv eg off i.regions i.hashType s with
    | (.error e, s) => (.error e, s)
    | (.ok d, s) => if i.hash.take i.hashLen = (d ++ stack).take i.hashLen then (.ok (), s) else (.error .badHash, s)
  else (.ok (), s)

/-- Do `f` for each element, up to the first failure. -/
def eachUntil (f : α → FS → Except Err Unit × FS) : List α → FS → Except Err Unit × FS
  | [], s => (.ok (), s)
  | x :: xs, s =>
    match f x s with
    | (.ok (), s) => eachUntil f xs s
    | r => r

/-- `host_fw_verify_images_on_flash`, host_fw_util.c:336-373. -/
def verifyOnFlash (dv : Dev) (eg : Engine) (stack : Bytes) (all : Bool) (off : Nat) (l : ImageList) (s : FS) : Except Err Unit × FS :=
  match l with
  | .sig l => eachUntil (verifySig dv eg all off) l s
  | .hash l => eachUntil (verifyHash dv eg stack all off) l s

/-- `host_fw_verify_offset_images_multiple_fw`, host_fw_util.c:448-467. -/
def verifyImages (dv : Dev) (eg : Engine) (stack : Bytes) (off : Nat) (fws : List ImageList) (s : FS) : Except Err Unit × FS :=
  eachUntil (verifyOnFlash dv eg stack false off) fws s

/-- A flash function as a step. -/
def ofStatus : Status × FS → Except Err Unit × FS
  | (.ok, s) => (.ok (), s)
  | (st, s) => (.error (.flash st), s)

/-- Go on with `k` if the step worked, else return its error. -/
def andThen (x : Except Err Unit × FS) (k : FS → Option (Except Err Unit × FS)) : Option (Except Err Unit × FS) :=
  match x with
  | (.ok (), s) => k s
  | r => some r

/-- `flash_value_check` of the addresses from `last` up to `stop`, host_fw_util.c:653 and 662. -/
@[irreducible] def checkGap (dv : Dev) (last stop : Nat) (v : UInt8) (s : FS) : Except Err Unit × FS :=
  ofStatus (valueCheck dv s last (sub32 stop last) v)

/-- The loop at host_fw_util.c:650-662 from `last_addr` on: every byte between the regions must be `v`. -/
def unusedLoop (dv : Dev) (imgs rws : List (List Region)) (size : Nat) (v : UInt8) : Nat → Nat → FS → Option (Except Err Unit × FS)
  | 0, _, _ => none
  | fuel + 1, last, s =>
    match findFlash last imgs rws with
    | none => some (checkGap dv last size v s)
    | some r =>
      andThen (checkGap dv last r.start v s) (fun s => unusedLoop dv imgs rws size v fuel r.stop s)

/-- `host_fw_full_flash_verification_multiple_fw`, host_fw_util.c:623-663. `get_device_size` is a driver call. -/
def fullVerify (dv : Dev) (eg : Engine) (stack : Bytes) (fws : List ImageList) (rws : List (List Region)) (size : Nat) (v : UInt8)
    (fuel : Nat) (s : FS) : Option (Except Err Unit × FS) :=
  match dv.out s.calls with
  | .err _ => some (.error (.flash .flash), { s with calls := s.calls + 1 })
  | _ =>
    match eachUntil (verifyOnFlash dv eg stack true 0) fws { s with calls := s.calls + 1 } with
    | (.ok (), s) => unusedLoop dv (fws.flatMap (·.regions)) rws size v fuel 0 s
    | r => some r

/-! ### Differences -/

/-- The loop at host_fw_util.c:222-241. -/
def regionsLoop (rs1 rs2 : List Region) : Nat → Nat → Option Bool
  | 0, _ => none
  | fuel + 1, last =>
    match findNext last rs1 with
    | none => some false
    | some p1 =>
      match findNext last rs2 with
      | none => some true
      | some p2 =>
        if p1.start ≠ p2.start then some true
        else if p1.len ≠ p2.len then some true
        else regionsLoop rs1 rs2 fuel p1.stop

/-- `host_fw_are_regions_different`, host_fw_util.c:211-242, and `host_fw_are_read_write_regions_different` (673-685) for two lists that
exist. -/
def regionsDifferent (fuel : Nat) (rs1 rs2 : List Region) : Option Bool :=
  if rs1.length ≠ rs2.length then some true else regionsLoop rs1 rs2 fuel 0

/-- `rsa_same_public_key`, crypto/rsa.c:19-38. -/
def sameKey (k1 k2 : RsaKey) : Bool :=
  if k1.exponent ≠ k2.exponent ∨ k1.modLen ≠ k2.modLen then false
  else k1.modulus.take k1.modLen == k2.modulus.take k1.modLen

/-- host_fw_util.c:276-296. `len` is `img_list1->images_sig->sig_length`: the length of the first signature in the list. -/
def sigDifferent (fuel len : Nat) (a b : SigImage) : Option Bool :=
  if ! sameKey a.key b.key then some true
  else if a.sigLen ≠ b.sigLen ∨ a.always ≠ b.always then some true
  else if a.signature.take len ≠ b.signature.take len then some true
  else regionsDifferent fuel a.regions b.regions

/-- host_fw_util.c:299-315. `len` is `img_list1->images_hash->hash_length`: the length of the first hash in the list. -/
def hashDifferent (fuel len : Nat) (a b : HashImage) : Option Bool :=
  if a.hashLen ≠ b.hashLen ∨ a.hashType ≠ b.hashType ∨ a.always ≠ b.always then some true
  else if a.hash.take len ≠ b.hash.take len then some true
  else regionsDifferent fuel a.regions b.regions

/-- The loop at host_fw_util.c:274-319 over the images of both lists. -/
def differentLoop (f : α → α → Option Bool) : List α → List α → Option Bool
  | a :: as, b :: bs =>
    match f a b with
    | some false => differentLoop f as bs
    | r => r
  | _, _ => some false

/-- `host_fw_are_images_different`, host_fw_util.c:252-320, for two lists that exist. -/
def imagesDifferent (fuel : Nat) : ImageList → ImageList → Option Bool
  | .sig l1, .sig l2 =>
    if l1.length ≠ l2.length then some true else differentLoop (sigDifferent fuel ((l1.head?.map (·.sigLen)).getD 0)) l1 l2
  | .hash l1, .hash l2 =>
    if l1.length ≠ l2.length then some true else differentLoop (hashDifferent fuel ((l1.head?.map (·.hashLen)).getD 0)) l1 l2
  | _, _ => some true

/-! ### Migrating and restoring data -/

/-- `flash_erase_region_and_verify` of a region, host_fw_util.c:730 and 933. -/
@[irreducible] def eraseOne (dv : Dev) (r : Region) (s : FS) : Except Err Unit × FS := ofStatus (eraseVerify dv dv.block s r.start r.len)

/-- `flash_copy_ext_to_blank_and_verify` of a region from the device with content `m`, host_fw_util.c:758. -/
@[irreducible] def copyOne (dv : Dev) (m : Mem) (r : Region) (s : FS) : Except Err Unit × FS :=
  ofStatus (copyRegion dv .none (.other m) true s r.start r.start r.len)

/-- The comparison at host_fw_util.c:735-745 of a region with the one of the source; the result is the new `migrate_fail`. -/
def migrateCheck (last : Nat) (src : Option (List Region)) (d : Region) (mf : Option Err) : Option Err :=
  match mf, src with
  | none, some rs =>
    match findNext last rs with
    | some r => if d.start ≠ r.start then some .diffAddr else if d.len ≠ r.len then some .diffSize else none
    | none => none
  | mf, _ => mf

/-- The first loop of `host_fw_migrate_read_write_data`, host_fw_util.c:727-753: erase the regions, and compare them with those of the
source. `host_fw_find_next_rw_region` with one list is `findGroup` of it. -/
def eraseRwLoop (dv : Dev) (dst : List Region) (src : Option (List Region)) : Nat → Nat → Option Err → FS → Option (Except Err Unit × FS)
  | 0, _, _, _ => none
  | fuel + 1, last, mf, s =>
    match findGroup last [dst] with
    | none => some ((match mf with | some e => .error e | none => .ok ()), s)
    | some d =>
      andThen (eraseOne dv d s) (fun s => eraseRwLoop dv dst src fuel d.stop (migrateCheck last src d mf) s)

/-- The second loop, host_fw_util.c:755-768: copy from the other device (content `m`), `flash_copy_ext_to_blank_and_verify`. -/
def copyRwLoop (dv : Dev) (dst : List Region) (m : Mem) : Nat → Nat → FS → Option (Except Err Unit × FS)
  | 0, _, _ => none
  | fuel + 1, last, s =>
    match findGroup last [dst] with
    | none => some (.ok (), s)
    | some d =>
      andThen (copyOne dv m d s) (fun s => copyRwLoop dv dst m fuel d.stop s)

/-- The comparison of the number of regions, host_fw_util.c:723-725. -/
def countCheck (dst : List Region) (src : Option (List Region)) : Option Err :=
  match src with
  | some rs => if rs.length ≠ dst.length then some .diffCount else none
  | none => none

/-- `host_fw_migrate_read_write_data`, host_fw_util.c:709-769. The state is the destination; `m` is the source device. -/
def migrate (dv : Dev) (dst : List Region) (m : Mem) (src : Option (List Region)) (fuel : Nat) (s : FS) : Option (Except Err Unit × FS) :=
  match eraseRwLoop dv dst src fuel 0 (countCheck dst src) s with
  | some (.ok (), s) => copyRwLoop dv dst m fuel 0 s
  | r => r

/-- The loop at host_fw_util.c:815-830. `mf` is `migrate_fail`. -/
def migrateLoop (dv : Dev) (m : Mem) (fuel : Nat) : List (List Region × Option (List Region)) → Option Err → FS →
    Option (Except Err Unit × FS)
  | [], mf, s => some ((match mf with | some e => .error e | none => .ok ()), s)
  | (d, src) :: l, mf, s =>
    match migrate dv d m src fuel s with
    | none => none
    | some (.ok (), s) => migrateLoop dv m fuel l mf s
    | some (.error e, s) =>
      if e = .diffCount ∨ e = .diffAddr ∨ e = .diffSize then migrateLoop dv m fuel l (some e) s
      else some (.error e, s)

/-- `host_fw_migrate_read_write_data_multiple_fw`, host_fw_util.c:799-831. -/
def migrateAll (dv : Dev) (dst : List (List Region)) (m : Mem) (src : Option (List (List Region))) (fuel : Nat) (s : FS) :
    Option (Except Err Unit × FS) :=
  match src with
  | some l => if dst.length ≠ l.length then some (.error .diffFw, s) else migrateLoop dv m fuel (dst.zip (l.map some)) none s
  | none => migrateLoop dv m fuel (dst.map (fun d => (d, none))) none s

/-- `flash_erase_region` of the addresses from `last` up to `stop`, host_fw_util.c:871 and 880. -/
@[irreducible] def eraseGap (dv : Dev) (last stop : Nat) (s : FS) : Except Err Unit × FS :=
  ofStatus (eraseRegion dv dv.block s last (sub32 stop last))

/-- The loop at host_fw_util.c:868-883: erase everything between the read/write regions. -/
def eraseRoLoop (dv : Dev) (rw : List Region) (size : Nat) : Nat → Nat → FS → Option (Except Err Unit × FS)
  | 0, _, _ => none
  | fuel + 1, last, s =>
    match findGroup last [rw] with
    | none => some (eraseGap dv last size s)
    | some r =>
      andThen (eraseGap dv last r.start s) (fun s => eraseRoLoop dv rw size fuel r.stop s)

/-- `flash_copy_ext_to_blank` of one region at the same address. -/
@[irreducible] def copyBlank (dv : Dev) (m : Mem) (r : Region) (s : FS) : Except Err Unit × FS :=
  ofStatus (copyRegion dv .none (.other m) false s r.start r.start r.len)

/-- `host_fw_restore_flash_device`, host_fw_util.c:844-906. The state is the device that is restored, `m` the other one. -/
def restore (dv : Dev) (m : Mem) (imgs : ImageList) (rw : List Region) (size fuel : Nat) (s : FS) : Option (Except Err Unit × FS) :=
  match dv.out s.calls with
  | .err _ => some (.error (.flash .flash), { s with calls := s.calls + 1 })
  | _ =>
    match eraseRoLoop dv rw size fuel 0 { s with calls := s.calls + 1 } with
    | some (.ok (), s) => some (eachUntil (copyBlank dv m) imgs.regions.flatten s)
    | r => r

/-- `enum` of `on_failure`, pfm.h: what to do with a read/write region if the flash is bad. -/
inductive OnFailure | nothing | restore | erase
deriving DecidableEq, Repr

/-- The `switch` at host_fw_util.c:931-952. `m`: the device to restore from, if there is one. -/
def restoreRwOne (dv : Dev) (m : Option Mem) (r : Region × OnFailure) (s : FS) : Except Err Unit × FS :=
  match r.2, m with
  | .erase, _ => eraseOne dv r.1 s
  | .restore, some m => ofStatus (copyRegion dv .block (.other m) true s r.1.start r.1.start r.1.len)
  | _, _ => (.ok (), s)

/-- `host_fw_restore_read_write_data`, host_fw_util.c:920-956. -/
def restoreRw (dv : Dev) (m : Option Mem) (rs : List (Region × OnFailure)) (s : FS) : Except Err Unit × FS :=
  eachUntil (restoreRwOne dv m) rs s

/-! ### Write access of the host -/

/-- The read/write regions configured in an SPI filter: for each region id, start (inclusive) and end (exclusive). `calls` counts the
calls of the filter driver. -/
structure Filter where
  rw : Nat → Option (Nat × Nat)
  calls : Nat

/-- `set_filter_rw_region` of the filter; `fail n` says that the `n`-th call fails (and changes nothing). The id is a `uint8_t`. -/
def setRw (fail : Nat → Bool) (f : Filter) (id a e : Nat) : Except Err Unit × Filter :=
  if fail f.calls then (.error .engine, { f with calls := f.calls + 1 })
  else (.ok (), ⟨fun i => if i = id % 256 then some (a, e) else f.rw i, f.calls + 1⟩)

/-- `clear_filter_rw_regions` of the filter. -/
def clearRw (fail : Nat → Bool) (f : Filter) : Except Err Unit × Filter :=
  if fail f.calls then (.error .engine, { f with calls := f.calls + 1 }) else (.ok (), ⟨fun _ => none, f.calls + 1⟩)

/-- The loop at host_fw_util.c:1016-1022 from index `i` on. -/
def configLoop (fail : Nat → Bool) : Nat → List Region → Filter → Except Err Unit × Filter
  | _, [], f => (.ok (), f)
  | i, r :: rs, f =>
    match setRw fail f (i + 1) r.start r.stop with
    | (.ok (), f) => configLoop fail (i + 1) rs f
    | x => x

/-- `host_fw_config_spi_filter_read_write_regions`, host_fw_util.c:1001-1025. -/
def configFilter (fail : Nat → Bool) (rs : List Region) (f : Filter) : Except Err Unit × Filter :=
  match clearRw fail f with
  | (.ok (), f) => configLoop fail 0 rs f
  | x => x

/-- The loop at host_fw_util.c:1058-1089. -/
def configAllLoop (fail : Nat → Bool) (gs : List (List Region)) : Nat → (prev next : Option Region) → (last total id : Nat) → Filter →
    Option (Except Err Unit × Filter)
  | 0, _, _, _, _, _, _ => none
  | fuel + 1, prev, next, last, total, id, f =>
    match prev.or next, findGroup last gs with
    | some p, some n =>
      if n.start = last then configAllLoop fail gs fuel (some p) (some n) (u32 (last + n.len)) (total + n.len) id f
      else
        match setRw fail f (id + 1) p.start (u32 (p.start + total)) with
        | (.ok (), f) => configAllLoop fail gs fuel none (some n) n.stop n.len (id + 1) f
        | x => some x
    | some p, none =>
      match setRw fail f (id + 1) p.start (u32 (p.start + total)) with
      | (.ok (), f) => some (.ok (), f)
      | x => some x
    | none, some n => configAllLoop fail gs fuel none (some n) n.stop n.len id f
    | none, none => some (.ok (), f)

/-- `host_fw_config_spi_filter_read_write_regions_multiple_fw`, host_fw_util.c:1038-1092. -/
def configFilterAll (fail : Nat → Bool) (gs : List (List Region)) (fuel : Nat) (f : Filter) : Option (Except Err Unit × Filter) :=
  match clearRw fail f with
  | (.ok (), f) => configAllLoop fail gs fuel none none 0 0 0 f
  | x => some x

end Verif.HostFw
