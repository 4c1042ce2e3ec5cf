import Verif.Flash.Model
/-! Model of recovery images: `core/common/image_header.c`, `core/recovery/recovery_image_header.c`, `core/recovery/recovery_image_section_header.c`
and `core/recovery/recovery_image.c`.

The image is in a flash device with contents `m`. NULL arguments are not modelled. Every call into the environment (memory, flash, hash and signature engines, manifest) has
a number and may fail. A read outside of an allocated buffer is the outcome `Err.oob`; a loop that does not end within the given number of passes is `Err.diverge`. -/
namespace Verif.Recovery
open Flash (Mem bytesAt u32)

/-- The results other than success. The error list of `recovery_image_manager.c:92-100` depends on which one it is. -/
inductive Err
  | flash | noMemory | notMinimumSize | badMarker | tooLong | badFormatLength | badPlatformId | badImageLength | badVersionId
  | hash | badSignature | signature | pfm | incompatible | malformed | sectionAddress | invalidArgument | oob | diverge
deriving DecidableEq, Repr

/-- The environment: width of `size_t`, size of the flash device, which call fails, SHA-256, the signature check (given a digest and a signature), the platform identifier of the active PFM (if there is one;
its `free_platform_id` is not modelled). -/
structure Env where
  w : Nat
  size : Nat
  fault : Nat → Bool
  sha : Bytes → Bytes
  sigOk : Bytes → Bytes → Bool
  pfm : Option Bytes

/-- `flash->read`: the `k`-th call. All reads beyond the end of the device are refused (see `SpiFlash.boundsCheck`). -/
def rd (env : Env) (m : Mem) (k a n : Nat) : Except Err Bytes :=
  if env.fault k then .error .flash else if a + n ≤ env.size then .ok (bytesAt m a n) else .error .flash

/-! ### image_header.c -/

/-- `image_header_init`, image_header.c:20-49: the length and the format. `struct image_header_info`, image_header.h:14-18. -/
def imageHeader (env : Env) (m : Mem) (k a marker max : Nat) : Except Err (Nat × Nat) :=
  match rd env m k a 8 with
  | .error e => .error e
  | .ok b =>
    if leNat (b.take 2) < 8 then .error .notMinimumSize
    else if leNat (b.drop 4) ≠ marker then .error .badMarker
    else if leNat (b.take 2) > max then .error .tooLong
    else .ok (leNat (b.take 2), leNat ((b.drop 2).take 2))

/-- `image_header_load_data`, image_header.c:73-94. The allocated buffer has exactly the length of the data. -/
def loadData (env : Env) (m : Mem) (k a len : Nat) : Except Err Bytes :=
  if env.fault k then .error .noMemory else rd env m (k + 1) (u32 (a + 8)) (len - 8)

/-! ### recovery_image_header.c -/

/-- A header: its length, its format and the data after the common part. -/
structure Hdr where
  len : Nat
  format : Nat
  data : Bytes
deriving DecidableEq, Repr

/-- `format0.image_length`, recovery_image_header.c:19. -/
def Hdr.imageLen (h : Hdr) : Nat := leNat ((h.data.drop 32).take 4)
/-- `format0.signature_length`, recovery_image_header.c:21. -/
def Hdr.sigLen (h : Hdr) : Nat := leNat ((h.data.drop 36).take 4)

/-- `strnlen` of a buffer: `none` if it reads beyond the end. -/
def strnlen : Bytes → Nat → Option Nat
  | _, 0 => some 0
  | [], _ + 1 => none
  | b :: bs, n + 1 => if b = 0 then some 0 else (strnlen bs n).map (· + 1)

/-- The checks of `recovery_image_header_init`, recovery_image_header.c:67-108, in their order. -/
def checkHeader (w : Nat) (h : Hdr) : Except Err Unit :=
  if h.format = 0 then
    match strnlen h.data 32 with
    | none => .error .oob
    | some v =>
      match h.data[40]? with
      | none => .error .oob
      | some p =>
        if (h.data.length + 2 ^ w - p.toNat) % 2 ^ w ≠ 41 then .error .badFormatLength
        else
          match strnlen (h.data.drop 41) p.toNat with
          | none => .error .oob
          | some n =>
            if n + 1 ≠ p.toNat then .error .badPlatformId
            else if h.sigLen > (h.imageLen + 2 ^ w - h.len) % 2 ^ w then .error .badImageLength
            else if v = 32 ∨ v = 0 then .error .badVersionId
            else .ok ()
  else if h.data.length < 41 then .error .badFormatLength
  else .ok ()

/-- `RECOVERY_IMAGE_HEADER_MARKER` and `RECOVERY_IMAGE_SECTION_HEADER_MARKER`. -/
def imageMarker : Nat := 0x8a147c29
def sectionMarker : Nat := 0x4b172f31

/-- `recovery_image_header_init`, recovery_image_header.c:45-116. Uses the calls 0 to 2. -/
def recHeader (env : Env) (m : Mem) (a : Nat) : Except Err Hdr :=
  match imageHeader env m 0 a imageMarker 1024 with
  | .error e => .error e
  | .ok (len, format) =>
    match loadData env m 1 a len with
    | .error e => .error e
    | .ok data =>
      match checkHeader env.w ⟨len, format, data⟩ with
      | .error e => .error e
      | .ok _ => .ok ⟨len, format, data⟩

/-! ### recovery_image_section_header.c -/

/-- A section header: its length, the host address and the length of the section. -/
structure Sec where
  hlen : Nat
  host : Nat
  len : Nat
deriving DecidableEq, Repr

/-- The length check of `recovery_image_section_header_init`, recovery_image_section_header.c:53-65. -/
def sectionLenOk (len format : Nat) : Bool := if format = 0 then len - 8 = 8 else len - 8 ≥ 8

/-- `recovery_image_section_header_init`, recovery_image_section_header.c:37-70, and the accessors (93-143). Uses the calls `k` to `k + 2`. -/
def secHeader (env : Env) (m : Mem) (k a : Nat) : Except Err Sec :=
  match imageHeader env m k a sectionMarker 1024 with
  | .error e => .error e
  | .ok (len, format) =>
    if !sectionLenOk len format then .error .badFormatLength
    else
      match loadData env m (k + 1) a len with
      | .error e => .error e
      | .ok data => .ok ⟨len, leNat (data.take 4), leNat ((data.drop 4).take 4)⟩

/-! ### recovery_image.c -/

/-- `strcmp (id, buffer) == 0` for a string `id` (without its terminator) and a buffer: `none` if it reads beyond the end of the buffer. -/
def strcmpEq : Bytes → Bytes → Option Bool
  | _, [] => none
  | [], b :: _ => some (b = 0)
  | x :: xs, b :: bs => if x = b then strcmpEq xs bs else some false

/-- `recovery_image_check_platform_id`, recovery_image.c:23-56. Call 7 is the one to the PFM. -/
def checkPlatform (env : Env) (h : Hdr) : Except Err Unit :=
  match env.pfm with
  | none => .ok ()
  | some id =>
    if env.fault 7 then .error .pfm
    else
      match strcmpEq id (h.data.drop 41) with
      | none => .error .oob
      | some b => if b then .ok () else .error .incompatible

/-- `flash_contents_verification`, flash_util.c:176-192 and 242-286, for the image: the digest is computed in pieces (see `Flash.hash_regions_exact`), here in one read. The second result is the digest if there is one
in the cache afterwards (recovery_image.c:107-112). -/
def contentsVerification (env : Env) (m : Mem) (a n : Nat) (sig : Bytes) : Except Err Unit × Option Bytes :=
  if n = 0 ∨ sig = [] then (.error .invalidArgument, none)
  else
    match rd env m 5 a n with
    | .error _ => (.error .hash, none)
    | .ok b =>
      if env.fault 6 then (.error .signature, none)
      else if env.sigOk (env.sha b) sig then (.ok (), some (env.sha b))
      else (.error .badSignature, some (env.sha b))

/-- The first part of `recovery_image_verify`, recovery_image.c:83-116: the header if the image is authentic, and the digest in the cache. -/
def authenticate (env : Env) (m : Mem) (a : Nat) : Except Err Hdr × Option Bytes :=
  match recHeader env m a with
  | .error e => (.error e, none)
  | .ok h =>
    if env.fault 3 then (.error .noMemory, none)
    else
      match rd env m 4 (u32 (a + h.imageLen + 2 ^ 32 - h.sigLen)) h.sigLen with
      | .error e => (.error e, none)
      | .ok sig =>
        match contentsVerification env m a ((h.imageLen + 2 ^ env.w - h.sigLen) % 2 ^ env.w) sig with
        | (.error e, c) => (.error e, c)
        | (.ok _, c) => (.ok h, c)

/-- `rem_len > 0` for the `int` with representation `r`. -/
def positive (r : Nat) : Bool := 0 < r && r < 2 ^ 31

/-- The initial `rem_len`, recovery_image.c:125 and 262, as the representation of an `int`. -/
def remLen (h : Hdr) : Nat := (h.imageLen + 2 ^ 33 - h.len - h.sigLen) % 2 ^ 32

/-- The next `rem_len`, recovery_image.c:151 and 282. -/
def remNext (r : Nat) (s : Sec) : Nat := (r + 2 ^ 33 - (s.hlen + s.len)) % 2 ^ 32

/-- The loop over the sections, recovery_image.c:131-157, with at most `fuel` passes. `i` counts the passes, `min` is `min_host_addr`. -/
def sections (env : Env) (m : Mem) : Nat → Nat → Nat → Nat → Nat → Except Err Unit
  | 0, _, _, _, _ => .error .diverge
  | fuel + 1, i, r, next, min =>
    if positive r then
      match secHeader env m (8 + 3 * i) next with
      | .error _ => .error .malformed
      | .ok s =>
        if s.host < min then .error .sectionAddress
        else sections env m fuel (i + 1) (remNext r s) (u32 (next + (s.hlen + s.len))) (u32 (s.host + s.len))
    else if r = 0 then .ok ()
    else .error .malformed

/-- recovery_image.c:123-157. -/
def checkSections (env : Env) (m : Mem) (fuel a : Nat) (h : Hdr) : Except Err Unit :=
  if positive (remLen h) then sections env m fuel 0 (remLen h) (u32 (a + h.len)) 0 else .error .malformed

/-- `recovery_image_verify`, recovery_image.c:58-165: the status and the digest in the cache afterwards. -/
def verify (env : Env) (m : Mem) (fuel a : Nat) : Except Err Unit × Option Bytes :=
  match authenticate env m a with
  | (.error e, c) => (.error e, c)
  | (.ok h, c) =>
    match checkPlatform env h with
    | .error e => (.error e, c)
    | .ok _ => (checkSections env m fuel a h, c)

/-- `recovery_image_get_hash`, recovery_image.c:167-204, for a large enough buffer. -/
def getHash (env : Env) (m : Mem) (a : Nat) (cache : Option Bytes) : Except Err Bytes :=
  match cache with
  | some c => .ok c
  | none =>
    match recHeader env m a with
    | .error e => .error e
    | .ok h =>
      match rd env m 3 a ((h.imageLen + 2 ^ env.w - h.sigLen) % 2 ^ env.w) with
      | .error _ => .error .hash
      | .ok b => .ok (env.sha b)

/-- `recovery_image_get_version`, recovery_image.c:206-231, for a large enough buffer: the 32 bytes `strncpy` stores. -/
def getVersion (env : Env) (m : Mem) (a : Nat) : Except Err Bytes :=
  match recHeader env m a with
  | .error e => .error e
  | .ok h => .ok (((h.data.take 32).takeWhile (· ≠ 0)) ++ List.replicate (32 - ((h.data.take 32).takeWhile (· ≠ 0)).length) 0)

/-- The loop of `recovery_image_apply_to_flash`, recovery_image.c:265-288. The copy is `flash_copy_ext_to_blank_and_verify` (flash_util.c:1476-1480). -/
def applyLoop (env : Env) (dv : Flash.Dev) (m : Mem) : Nat → Nat → Nat → Nat → Flash.FS → Except Err Unit × Flash.FS
  | 0, _, _, _, fs => (.error .diverge, fs)
  | fuel + 1, i, r, next, fs =>
    if positive r then
      match secHeader env m (8 + 3 * i) next with
      | .error e => (.error e, fs)
      | .ok s =>
        match Flash.copyRegion dv .none (.other m) true fs s.host (u32 (next + s.hlen)) s.len with
        | (.ok, fs) => applyLoop env dv m fuel (i + 1) (remNext r s) (u32 (next + (s.hlen + s.len))) fs
        | (_, fs) => (.error .flash, fs)
    else if r = 0 then (.ok (), fs)
    else (.error .malformed, fs)

/-- `recovery_image_apply_to_flash`, recovery_image.c:233-291. -/
def apply (env : Env) (dv : Flash.Dev) (m : Mem) (fuel a : Nat) (fs : Flash.FS) : Except Err Unit × Flash.FS :=
  match recHeader env m a with
  | .error e => (.error e, fs)
  | .ok h => applyLoop env dv m fuel 0 (remLen h) (u32 (a + h.len)) fs

end Verif.Recovery
