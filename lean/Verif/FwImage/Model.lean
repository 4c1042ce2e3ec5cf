import Verif.Flash.Model
/-! Images of firmware: `core/common/image_header.c`, `core/firmware/firmware_header.c`, `core/firmware/firmware_component.c` and
`core/firmware/app_image.c`, with `core/flash/flash_util.c` and `core/crypto/signature_verification.c` as far as they use them.

The flash may change at any time: `Env.mem k` is its contents at the `k`-th call into the environment. Every call may fail. Null arguments are only modelled
where they choose between different ways of working. The engines are parameters. -/
namespace Verif.FwImage
open Verif.Flash (Mem bytesAt u32)

/-- The results other than success. `oob` is an access outside of a buffer. -/
inductive Err
  | flash | noMemory | notMinimumSize | badMarker | tooLong | badHeader | badFormatLength | notAvailable
  | wrongVersion | unknownHash | hashBuffer | sigTooLarge | sigBuffer | tooLarge | noLoadAddress
  | hash | noActiveHash | invalidArgument | engine | badSignature | loader | mismatch | oob
  deriving DecidableEq, Repr

/-- The environment: width of `size_t`, the flash at every call, which calls fail, the hash functions (by `enum hash_type`, hash.h:37-46), which of them are built in, the
signature check (of a digest) with the longest signature it knows, and the decryption done by a loader. -/
structure Env where
  w : Nat
  mem : Nat → Mem
  fault : Nat → Bool
  digest : Nat → Bytes → Bytes
  builtIn : Nat → Bool
  sigOk : Bytes → Bytes → Bool
  maxSig : Nat
  dec : Bytes → Bytes → Bytes

/-- The state: number of calls so far, the buffer an image is loaded to, physical memory written by a loader, the active hash with its data, and the number of live
allocations. -/
structure St where
  k : Nat
  buf : Bytes
  phys : List (Nat × Bytes)
  hash : Option (Nat × Bytes)
  live : Nat

/-- Computations. The state is kept on errors. -/
def M (α : Type) := St → Except Err α × St

instance : Monad M where
  pure a := fun s => (.ok a, s)
  bind m f := fun s => match m s with
    | (.ok a, s) => f a s
    | (.error e, s) => (.error e, s)

def fail (e : Err) : M α := fun s => (.error e, s)

def modify (f : St → St) : M Unit := fun s => (.ok (), f s)

/-- Clean-up code at the end of a function that is passed in case of errors only. -/
def onError (m : M α) (f : St → St) : M α := fun s => match m s with
  | (.ok a, s) => (.ok a, s)
  | (.error e, s) => (.error e, f s)

/-- Clean-up code at the end of a function. -/
def always (m : M α) (f : St → St) : M α := fun s => ((m s).1, f (m s).2)

def check (b : Bool) (e : Err) : M Unit := if b then pure () else fail e

/-- A call into the environment: its number. -/
def call (env : Env) (e : Err) : M Nat := fun s => (if env.fault s.k then .error e else .ok s.k, { s with k := s.k + 1 })

/-- `flash->read`. -/
def read (env : Env) (a n : Nat) : M Bytes := do
  let k ← call env .flash
  return bytesAt (env.mem k) a n

/-- `platform_malloc`. -/
def alloc (env : Env) : M Unit := do
  let _ ← call env .noMemory
  modify fun s => { s with live := s.live + 1 }

/-- `platform_free` of a live allocation. -/
def free (s : St) : St := { s with live := s.live - 1 }

/-- `hash_get_hash_length`, hash.c:182-200. -/
def hashLength (t : Nat) : Option Nat := [20, 32, 48, 64][t]?

/-- `HASH_MAX_HASH_LEN`, hash.h:20-26. -/
def maxHash (env : Env) : Nat := if env.builtIn 3 then 64 else if env.builtIn 2 then 48 else 32

/-- `hash_start_new_hash`, hash.c:20-62 in the cases of an engine like hash_mbedtls.c:59-61: an active hash is an error. -/
def hashStart (env : Env) (t : Nat) : M Unit := fun s =>
  if s.hash.isSome then (.error .hash, s)
  else if env.builtIn t = false then (.error .hash, s)
  else match call env .hash s with
    | (.ok _, s) => (.ok (), { s with hash := some (t, []) })
    | (.error e, s) => (.error e, s)

/-- `hash->update`. -/
def hashUpdate (env : Env) (d : Bytes) : M Unit := fun s =>
  match s.hash with
  | none => (.error .hash, s)
  | some (t, x) => match call env .hash s with
    | (.ok _, s) => (.ok (), { s with hash := some (t, x ++ d) })
    | (.error e, s) => (.error e, s)

/-- `hash->finish` with a buffer of `n` bytes: the digest. A failure leaves the hash active. -/
def hashFinish (env : Env) (n : Nat) : M Bytes := fun s =>
  match s.hash with
  | none => (.error .hash, s)
  | some (t, x) =>
    if n < (hashLength t).getD 0 then (.error .hash, s)
    else match call env .hash s with
      | (.ok _, s) => (.ok (env.digest t x), { s with hash := none })
      | (.error e, s) => (.error e, s)

/-- `hash->cancel`. -/
def cancel (s : St) : St := { s with hash := none }

/-- The signature check of the engine, `verify_signature` or `rsa->sig_verify`. -/
def checkSig (env : Env) (d sig : Bytes) : M Unit := do
  let _ ← call env .engine
  check (env.sigOk d sig) .badSignature

/-- `signature_verification_verify_hash_and_finish_save_digest` without key, signature_verification.c:211-253, with a buffer of `n` bytes for the digest. -/
def verifyAndFinish (env : Env) (sig : Bytes) (n : Nat) : M Bytes := fun s =>
  match s.hash with
  | none => (.error .noActiveHash, s)
  | some _ => (do
    let d ← onError (do
      check (decide (sig.length ≠ 0)) .invalidArgument
      hashFinish env n) cancel
    checkSig env d sig
    return d) s

/-- The loop of `flash_hash_update_noncontiguous_contents_at_offset` for one region, flash_util.c:487-525; `fuel` is at least the length. -/
def hashFlash (env : Env) : Nat → Nat → Nat → M Unit
  | 0, _, _ => pure ()
  | fuel + 1, a, len =>
    if len = 0 then pure ()
    else do
      let n := min len 256
      let d ← read env a n
      hashUpdate env d
      hashFlash env fuel (u32 (a + n)) (len - n)

/-! ### Headers -/

/-- `struct image_header`, image_header.h:14-31: the first 8 bytes and the rest. -/
structure Hdr where
  info : Bytes
  data : Bytes
  deriving DecidableEq, Repr

/-- Fields of `struct image_header_info`. -/
def Hdr.len (h : Hdr) : Nat := leNat (window h.info 0 2)
def Hdr.format (h : Hdr) : Nat := leNat (window h.info 2 2)
def Hdr.marker (h : Hdr) : Nat := leNat (window h.info 4 4)

/-- `image_header_init`, image_header.c:20-49. -/
def headerInit (env : Env) (a marker max : Nat) : M Hdr := do
  let info ← read env a 8
  let h : Hdr := ⟨info, []⟩
  check (decide (8 ≤ h.len)) .notMinimumSize
  check (decide (h.marker = marker)) .badMarker
  check (decide (h.len ≤ max)) .tooLong
  return h

/-- `image_header_load_data`, image_header.c:73-94. -/
def headerLoad (env : Env) (h : Hdr) (a : Nat) : M Hdr := do
  alloc env
  let d ← onError (read env (u32 (a + 8)) (h.len - 8)) free
  return { h with data := d }

/-- Bytes of the data of a header. -/
def Hdr.field (h : Hdr) (i n : Nat) : M Bytes := if i + n ≤ h.data.length then pure (window h.data i n) else fail .oob

/-- `firmware_header_init`, firmware_header.c:57-108. -/
def fwHeaderInit (env : Env) (a : Nat) : M Hdr := do
  let h ← headerInit env a 0x43494d47 1024
  let n := h.len - 8
  check (match h.format with
    | 0 => decide (n = 2)
    | 1 => decide (n = 3)
    | 2 => decide (n = 5)
    | 3 => decide (n = 11)
    | _ => decide (11 ≤ n)) .badFormatLength
  headerLoad env h a

/-- `firmware_header_get_recovery_revision`, firmware_header.c:130-139. -/
def recoveryRevision (h : Hdr) : M Nat := do return leNat (← h.field 0 2)

/-- `firmware_header_get_extra_images`, firmware_header.c:149-160. -/
def extraImages (h : Hdr) : M Nat := do
  check (decide (1 ≤ h.format)) .notAvailable
  return leNat (← h.field 2 1)

/-- `firmware_header_get_earliest_allowed_revision`, firmware_header.c:170-184. -/
def earliestRevision (h : Hdr) : M Nat := do
  check (decide (2 ≤ h.format)) .notAvailable
  return leNat (← h.field 3 2)

/-- `firmware_header_get_signature_info`, firmware_header.c:200-215. -/
def signatureInfo (h : Hdr) : M (Nat × Nat) := do
  check (decide (3 ≤ h.format)) .notAvailable
  return (leNat (← h.field 5 4), leNat (← h.field 9 2))

/-! ### Components -/

/-- `struct firmware_component`, firmware_component.h:25-30. -/
structure Comp where
  start : Nat
  offset : Nat
  hdr : Hdr
  deriving DecidableEq, Repr

/-- `firmware_component_init`, firmware_component.c:82-127. -/
def compInit (env : Env) (a marker : Nat) : M Comp := do
  let h ← headerInit env a marker 1024
  check (match h.format with
    | 0 => decide (h.len = 14)
    | 1 => decide (h.len = 31)
    | _ => decide (31 ≤ h.len)) .badHeader
  let h ← headerLoad env h a
  return ⟨a, 0, h⟩

/-- `firmware_component_init_with_header`, firmware_component.c:141-155. -/
def compInitWithHeader (env : Env) (a marker headerLength : Nat) : M Comp := do
  let c ← compInit env (u32 (a + headerLength)) marker
  return { c with start := a, offset := headerLength }

/-- `format0.length`. -/
def Comp.imageLen (c : Comp) : M Nat := do return leNat (← c.hdr.field 0 4)

/-- `format0.sig_length`. -/
def Comp.sigLen (c : Comp) : M Nat := do return leNat (← c.hdr.field 4 2)

/-- `firmware_component_get_image_length`, firmware_component.c:176-179. -/
def Comp.totalLen (env : Env) (c : Comp) : M Nat := do return (c.hdr.len + (← c.imageLen) + c.offset) % 2 ^ env.w

/-- Where the image is, e.g. firmware_component.c:449. -/
def Comp.dataAddr (c : Comp) : Nat := u32 (c.start + c.offset + c.hdr.len)

/-- `firmware_component_get_hash_type`, firmware_component.c:956-964. -/
def Comp.hashType (c : Comp) : M Nat := if c.hdr.format > 0 then do return leNat (← c.hdr.field 6 1) else pure 1

/-- `firmware_component_get_load_address`, firmware_component.c:1025-1033. -/
def Comp.loadAddr (c : Comp) : M Nat := if c.hdr.format > 0 then do return leNat (← c.hdr.field 7 8) else pure 0

/-- `firmware_component_get_build_version`, firmware_component.c:1043-1051; `none` is a null pointer. -/
def Comp.version (c : Comp) : M (Option Bytes) := if c.hdr.format > 0 then do return some (← c.hdr.field 15 8) else pure none

/-- `firmware_component_get_signature` with a buffer of `n` bytes, firmware_component.c:923-947. -/
def getSignature (env : Env) (c : Comp) (n : Nat) : M Bytes := do
  let l ← c.sigLen
  let o ← c.totalLen env
  check (decide (l ≤ n)) .sigBuffer
  read env (u32 (c.start + o)) l

/-- `firmware_component_read_signature_data`, firmware_component.c:191-222: the signature in memory that has to be released. -/
def readSignature (env : Env) (c : Comp) : M Bytes := do
  let _ ← call env .engine
  let l ← c.sigLen
  check (decide (l ≤ env.maxSig)) .sigTooLarge
  alloc env
  onError (getSignature env c l) free

/-- The check of the version, firmware_component.c:248-252. `buffer_compare` with a null pointer is a mismatch, buffer_util.c:165-171. -/
def checkVersion (c : Comp) (expected : Option Bytes) : M Unit := do
  match expected with
  | none => pure ()
  | some v => check (decide ((← c.version) = some v)) .wrongVersion

/-- `hash_get_hash_length` with its error. -/
def knownHash (t : Nat) : M Nat := match hashLength t with
  | none => fail .unknownHash
  | some n => pure n

/-- `firmware_component_prepare_for_verification`, firmware_component.c:240-269, without the length of the image: type of the hash and signature. `hashLen` is the size of
the buffer for the digest, if there is one. -/
def prepare (env : Env) (c : Comp) (expected : Option Bytes) (hashLen : Option Nat) : M (Nat × Bytes) := do
  checkVersion c expected
  let t ← c.hashType
  let n ← knownHash t
  check (match hashLen with | none => true | some l => decide (n ≤ l)) .hashBuffer
  return (t, ← readSignature env c)

/-- `flash_contents_verification`, flash_util.c:176-192 and 242-289: the digest. -/
def contentsVerification (env : Env) (a len t : Nat) (sig : Bytes) (hashLen : Option Nat) : M Bytes := do
  check (decide (len ≠ 0)) .invalidArgument
  check (decide (sig.length ≠ 0)) .invalidArgument
  let n ← knownHash t
  check (match hashLen with | none => true | some l => decide (n ≤ l)) .hashBuffer
  hashStart env t
  onError (hashFlash env len a len) cancel
  verifyAndFinish env sig (hashLen.getD (maxHash env))

/-- `firmware_component_verification`, firmware_component.c:387-419: type and digest. The digest is only stored in a given buffer. -/
def verification (env : Env) (c : Comp) (expected : Option Bytes) (hashLen : Option Nat) : M (Nat × Bytes) := do
  let (t, sig) ← prepare env c expected hashLen
  let d ← always (do
    let len ← c.totalLen env
    contentsVerification env c.start len t sig hashLen) free
  return (t, d)

/-- Storing in the buffer for the image. -/
def store (d : Bytes) : M Unit := fun s =>
  if d.length ≤ s.buf.length then (.ok (), { s with buf := d ++ s.buf.drop d.length }) else (.error .oob, s)

/-- `firmware_component_load`, firmware_component.c:435-460, to a buffer of `max` bytes: the length of the image. -/
def load (env : Env) (c : Comp) (max : Nat) : M Nat := do
  let n ← c.imageLen
  check (decide (n ≤ max)) .tooLarge
  let d ← read env c.dataAddr n
  store d
  return n

/-- `image_header_hash_update_header`, image_header.c:187-202. -/
def hashHeader (env : Env) (h : Hdr) : M Unit := do
  hashUpdate env h.info
  hashUpdate env h.data

/-- What is hashed in front of the component: a given header, or what is on flash, firmware_component.c:296-301. -/
def hashPrefix (env : Env) (c : Comp) (header : Option Hdr) : M Unit :=
  match header with
  | some h => hashHeader env h
  | none => if c.offset ≠ 0 then hashFlash env c.offset c.start c.offset else pure ()

/-- `firmware_component_start_component_hash`, firmware_component.c:286-320. -/
def startHash (env : Env) (c : Comp) (t : Nat) (header : Option Hdr) : M Unit := do
  hashStart env t
  onError (do
    hashPrefix env c header
    hashHeader env c.hdr) cancel

/-- The first `n` bytes of the buffer. -/
def loaded (n : Nat) : M Bytes := fun s => (.ok (s.buf.take n), s)

/-- `firmware_component_load_and_verify_with_header`, firmware_component.c:528-584 (and 488-496 without header, and `firmware_component_finish_verification`, 342-368): length
of the image, type and digest. -/
def loadAndVerify (env : Env) (c : Comp) (max : Nat) (header : Option Hdr) (expected : Option Bytes) (hashLen : Option Nat) : M (Nat × Nat × Bytes) := do
  let hashLen := hashLen.getD (maxHash env)
  let (t, sig) ← prepare env c expected (some hashLen)
  always (do
    startHash env c t header
    let n ← onError (do
      let n ← load env c max
      hashUpdate env (← loaded n)
      return n) cancel
    let d ← verifyAndFinish env sig hashLen
    return (n, t, d)) free

/-- `loader->load_image_update_digest` (firmware_loader.h:84-106): the image is decrypted, stored at the mapped address and hashed. -/
def loaderLoad (env : Env) (phy a n : Nat) (iv : Bytes) : M Unit := do
  let k ← call env .loader
  let d := env.dec iv (bytesAt (env.mem k) a n)
  modify fun s => { s with phys := s.phys ++ [(phy, d)] }
  hashUpdate env d

/-- `firmware_component_load_to_memory_and_verify_with_header`, firmware_component.c:719-787 (and 674-682 without header). -/
def loadToMemoryAndVerify (env : Env) (c : Comp) (iv : Bytes) (header : Option Hdr) (expected : Option Bytes) (hashLen : Option Nat) :
    M (Nat × Nat × Bytes) := do
  let phy ← c.loadAddr
  check (decide (phy ≠ 0)) .noLoadAddress
  let hashLen := hashLen.getD (maxHash env)
  let (t, sig) ← prepare env c expected (some hashLen)
  always (do
    startHash env c t header
    let n ← onError (do
      let n ← c.imageLen
      let _ ← call env .loader
      loaderLoad env phy c.dataAddr n iv
      return n) cancel
    let d ← verifyAndFinish env sig hashLen
    return (n, t, d)) free

/-- `firmware_component_get_hash`, firmware_component.c:980-1016 with flash_util.c:339-424. -/
def getHash (env : Env) (c : Comp) (hashLen : Nat) : M (Nat × Bytes) := do
  let t ← c.hashType
  let n ← knownHash t
  check (decide (n ≤ hashLen)) .hashBuffer
  let len ← c.totalLen env
  check (decide (len ≠ 0)) .invalidArgument
  hashStart env t
  let d ← onError (do
    hashFlash env len c.start len
    hashFinish env hashLen) cancel
  return (t, d)

/-- Results of a copy. -/
inductive CopyRes
  | ok (n : Nat)
  | tooLarge
  | flash (st : Flash.Status)
  deriving DecidableEq, Repr

/-- The erase and the copy of `firmware_component_copy_to_flash`, firmware_component.c:832-846: `flash_erase_region` erases blocks, `flash_copy_ext_to_blank_and_verify` is
the copy without erase and with check. -/
def eraseAndCopy (dv : Flash.Dev) (m : Mem) (s : Flash.FS) (dest src max n : Nat) : CopyRes × Flash.FS :=
  match Flash.eraseRegion dv dv.block s dest max with
  | (.ok, s) => match Flash.copyRegion dv .none (.other m) true s dest src n with
    | (.ok, s) => (.ok n, s)
    | (e, s) => (.flash e, s)
  | (e, s) => (.flash e, s)

/-- `firmware_component_copy_to_flash`, firmware_component.c:805-850, with `force` for `firmware_component_copy` (867-872) and without for
`firmware_component_compare_and_copy` (889-894). The image is on another device, with contents `m`, that answers all reads with the same contents. -/
def copyTo (dv : Flash.Dev) (m : Mem) (c : Comp) (s : Flash.FS) (dest max : Nat) (force : Bool) : CopyRes × Flash.FS :=
  let n := leNat (window c.hdr.data 0 4)
  if n > max then (.tooLarge, s)
  else if force then eraseAndCopy dv m s dest c.dataAddr max n
  else match Flash.verifyCopy dv (.other m) s c.dataAddr dest n with
    | (.ok, s) => (.ok n, s)
    | (.mismatch, s) => eraseAndCopy dv m s dest c.dataAddr max n
    | (e, s) => (.flash e, s)

/-! ### Application images -/

/-- The length in front of the image. -/
def appLength (env : Env) (a : Nat) : M Nat := do return leNat (← read env a 4)

/-- `app_image_verification_with_header`, app_image.c:48-77 (and 25-31), with `flash_verify_contents`, flash_util.c:34-156. The digest is only stored in a given buffer. -/
def appVerification (env : Env) (a headerLength : Nat) (hashLen : Option Nat) : M Bytes := do
  check (match hashLen with | none => true | some l => decide (32 ≤ l)) .hashBuffer
  let len ← appLength env (u32 (a + headerLength))
  let sig ← read env (u32 (a + headerLength + 4 + len)) 256
  let total := (len + 4 + headerLength) % 2 ^ env.w
  check (decide (total ≠ 0)) .invalidArgument
  hashStart env 1
  let d ← onError (do
    hashFlash env total a total
    hashFinish env 32) cancel
  checkSig env d sig
  return d

/-- `app_image_load`, app_image.c:91-120. -/
def appLoad (env : Env) (a max : Nat) : M Nat := do
  let n ← appLength env a
  check (decide (n ≤ max)) .tooLarge
  let d ← read env (u32 (a + 4)) n
  store d
  return n

/-- The header in front of the image, app_image.c:210-226. -/
def appHashHeader (env : Env) (a headerLength : Nat) : M Unit :=
  if headerLength ≠ 0 then do
    alloc env
    always (do
      let d ← read env a headerLength
      hashUpdate env d) free
  else pure ()

/-- `app_image_load_and_verify_with_header`, app_image.c:169-257 (and 140-147). -/
def appLoadAndVerify (env : Env) (a headerLength max : Nat) (hashLen : Option Nat) : M (Nat × Bytes) := do
  let hashLen := hashLen.getD 32
  check (decide (32 ≤ hashLen)) .hashBuffer
  let n ← appLoad env (u32 (a + headerLength)) max
  let sig ← read env (u32 (a + headerLength + 4 + n)) 256
  hashStart env 1
  let d ← onError (do
    appHashHeader env a headerLength
    hashUpdate env (toLE 4 n)
    hashUpdate env (← loaded n)
    hashFinish env hashLen) cancel
  checkSig env d sig
  return (n, d)

end Verif.FwImage
