import Verif.Common.Bytes
/-! Model of the verification of a manifest in flash and of reading its elements: `core/manifest/manifest_flash.c`, the layout of
`core/manifest/manifest_format.h` and the hashing functions of `core/flash/flash_util.c`.

The flash may have other contents at every access: `Env.flash clk` is what it holds at the access number `clk`, and `Env.fails clk` says that
the access (or the hash operation that goes with it) fails. The device has `size` bytes and refuses to read beyond them. The digest and the
check of the signature are parameters. Addresses are `uint32_t`: `add32`, `sub32`. NULL arguments are left out. -/
namespace Verif.ManifestFlash

inductive Err
  | io | badMagic | badLength | sigBuffer | sigHash | badArgument | tocInvalid | tocHash | algorithmMismatch | extensionInvalid
  | noPlatformId | platformIdBuffer | badSignature | noManifest | notFound | childNotFound | wrongParent | elementInvalid | noMemory | hang
deriving DecidableEq

def add32 (a b : Nat) : Nat := (a + b) % 2 ^ 32
def sub32 (a b : Nat) : Nat := (a + (2 ^ 32 - b % 2 ^ 32)) % 2 ^ 32

/-- A check that ends a function with an error. -/
def req (c : Bool) (e : Err) : Except Err Unit := if c then .ok () else .error e

/-- The world outside: a flash device of `size` bytes whose contents may change, and failures. -/
structure Env where
  size : Nat
  flash : Nat → Bytes
  fails : Nat → Bool

/-- `enum hash_type` of a manifest algorithm is the number plus one; `hash_get_hash_length`, crypto/hash.c:182-200. -/
def hashLen : Nat → Option Nat
  | 0 => some 20
  | 1 => some 32
  | 2 => some 48
  | 3 => some 64
  | _ => none

/-- `struct manifest_flash`, with the digest (by hash type) and the signature check of the verification instance. `enabled`:
`hash_is_alg_supported`. `maxPlat` is `max_platform_id`, one less than the size of the buffer. -/
structure Cfg where
  addr : Nat
  v1 : Nat
  v2 : Nat
  v3 : Nat
  maxSig : Nat
  maxPlat : Nat
  enabled : Nat → Bool
  H : Nat → Bytes → Bytes
  sigOk : Bytes → Bytes → Bool

/-- `struct manifest_flash_state` and the two caches of `struct manifest_flash`. -/
structure St where
  valid : Bool
  extAllowed : Bool
  hdr : Bytes
  entryCount : Nat
  tocType : Nat
  tocLen : Nat
  rootHash : Bytes
  digest : Bytes
  sig : Bytes
  platformId : Bytes
deriving DecidableEq

def u8 (b : Bytes) (i : Nat) : Nat := leNat (window b i 1)
def u16 (b : Bytes) (i : Nat) : Nat := leNat (window b i 2)

/-! `struct manifest_header`, manifest_format.h. -/
def hLength (h : Bytes) : Nat := u16 h 0
def hMagic (h : Bytes) : Nat := u16 h 2
def hId (h : Bytes) : Nat := leNat (window h 4 4)
def hSigLength (h : Bytes) : Nat := u16 h 8
/-- `manifest_convert_manifest_hash_type (manifest_get_hash_type (sig_type))`. -/
def hSigHash (h : Bytes) : Nat := u8 h 10 % 8 + 1

/-! `struct manifest_toc_header`. -/
def tCount (h : Bytes) : Nat := u8 h 0
def tHashCount (h : Bytes) : Nat := u8 h 1
def tHash (h : Bytes) : Nat := u8 h 2 + 1

/-! `struct manifest_toc_entry`. -/
def eType (e : Bytes) : Nat := u8 e 0
def eParent (e : Bytes) : Nat := u8 e 1
def eFormat (e : Bytes) : Nat := u8 e 2
def eHashId (e : Bytes) : Nat := u8 e 3
def eOffset (e : Bytes) : Nat := u16 e 4
def eLength (e : Bytes) : Nat := u16 e 6

/-- `manifest_toc_calculate_length`, manifest_format.h. -/
def tocLength (h : Bytes) (hl : Nat) : Nat := 4 + tCount h * 8 + tHashCount h * hl

/-- Where we are: the number of the next access, and the bytes given to the hash engine since the last `start`. -/
structure T where
  clk : Nat
  msg : Bytes

/-- `flash->read`. -/
def flashRead (v : Env) (clk addr len : Nat) : Except Err (Bytes × Nat) :=
  if v.fails clk then .error .io
  else if addr + len ≤ v.size then .ok (window (v.flash clk) addr len, clk + 1)
  else .error .io

/-- `flash_read_and_hash_update_contents`, flash_util.c:305-324. -/
def rdHash (v : Env) (t : T) (addr len : Nat) : Except Err (Bytes × T) :=
  if len = 0 then .ok ([], t)
  else do
    let r ← flashRead v t.clk addr len
    .ok (r.1, ⟨r.2, t.msg ++ r.1⟩)

/-- The loop of `flash_hash_update_noncontiguous_contents_at_offset` for one region, flash_util.c:505-521; at most `fuel` rounds, and
`hashRange` gives enough. -/
def hashBlocks (v : Env) : Nat → T → Nat → Nat → Except Err T
  | 0, t, _, _ => .ok t
  | fuel + 1, t, addr, len =>
    if len = 0 then .ok t
    else do
      let r ← rdHash v t addr (min len 256)
      hashBlocks v fuel r.2 (add32 addr (min len 256)) (len - min len 256)

/-- `flash_hash_update_contents`, flash_util.c:438-451. -/
def hashRange (v : Env) (t : T) (addr len : Nat) : Except Err T := hashBlocks v len t addr len

/-- `manifest_flash_read_header`, lines 202-230. -/
def readHeader (c : Cfg) (v : Env) (clk : Nat) : Except Err (Bytes × Nat) := do
  let r ← flashRead v clk c.addr 12
  req (hMagic r.1 != 0xffff && (hMagic r.1 == c.v1 || hMagic r.1 == c.v2 || hMagic r.1 == c.v3)) .badMagic
  req (12 ≤ hLength r.1 && hSigLength r.1 ≤ hLength r.1 - 12) .badLength
  .ok r

/-- `manifest->addr + header->length - header->sig_length`. -/
def sigAddr (c : Cfg) (h : Bytes) : Nat := sub32 (add32 c.addr (hLength h)) (hSigLength h)

/-- `manifest_flash_parse_header`, lines 246-304, without the output buffer for the digest. -/
def parseHeader (c : Cfg) (v : Env) (st : St) (clk : Nat) : Except Err (St × Nat) := do
  let r ← readHeader c v clk
  req (hSigLength r.1 ≤ c.maxSig) .sigBuffer
  req (hashLen (hSigHash r.1)).isSome .sigHash
  let s ← flashRead v r.2 (sigAddr c r.1) (hSigLength r.1)
  .ok ({ st with valid := false, hdr := r.1, extAllowed := hMagic r.1 == c.v3, sig := s.1 }, s.2)

/-- `signature_verification_verify_hash_and_finish_save_digest`, signature_verification.c:211-253. -/
def finish (c : Cfg) (v : Env) (st : St) (t : T) : Except Err St := do
  req (hSigLength st.hdr != 0) .badArgument
  req (!v.fails t.clk) .io
  req (c.sigOk (c.H (hSigHash st.hdr) t.msg) st.sig) .badSignature
  .ok { st with digest := c.H (hSigHash st.hdr) t.msg }

/-- `manifest_flash_verify_v1`, lines 317-336, with `flash_contents_verification`, flash_util.c:176-289. -/
def verifyV1 (c : Cfg) (v : Env) (st : St) (clk : Nat) : Except Err St := do
  req (!v.fails clk) .io
  let t ← hashRange v ⟨clk + 1, []⟩ c.addr (hLength st.hdr - hSigLength st.hdr)
  finish c v st t

/-- The checks on the header of a table of contents, lines 402-443. `ext` is the entry of the extension, `none` for the root. -/
def checkToc (c : Cfg) (st : St) (ext : Option Bytes) (h : Bytes) : Except Err St := do
  req (tCount h != 0) .tocInvalid
  match ext with
  | none =>
    req (c.enabled (tHash h) && (hashLen (tHash h)).isSome) .tocHash
    .ok { st with tocType := tHash h, tocLen := (hashLen (tHash h)).getD 0, entryCount := st.entryCount + tCount h }
  | some e =>
    req (tHash h == st.tocType) .algorithmMismatch
    req (eLength e == tocLength h st.tocLen) .extensionInvalid
    .ok { st with entryCount := st.entryCount + tCount h }

/-- Variables of the loop over the entries. `plat`: `platform_toc_entry`; `ext`: `toc_ext_found`; `last`: `toc_entry`. -/
structure Scan where
  t : T
  next : Nat
  prevEnd : Nat
  plat : Option Bytes
  ext : Bool
  last : Bytes

/-- The body of the loop, lines 452-491. -/
def scanStep (v : Env) (st : St) (hashCount i : Nat) (s : Scan) : Except Err Scan := do
  let r ← rdHash v s.t s.next 8
  req (s.prevEnd ≤ eOffset r.1) .tocInvalid
  req (eType r.1 != 1 || (st.extAllowed && i == 254 && eHashId r.1 < hashCount)) .extensionInvalid
  .ok { t := r.2, next := add32 s.next 8, prevEnd := eOffset r.1 + eLength r.1,
        plat := if eType r.1 = 0 ∧ s.plat = none then some r.1 else s.plat,
        ext := s.ext || eType r.1 == 1, last := r.1 }

/-- Lines 451-492, `k` entries from number `i` on. -/
def scan (v : Env) (st : St) (hashCount : Nat) : Nat → Nat → Scan → Except Err Scan
  | 0, _, s => .ok s
  | k + 1, i, s => do
    let s ← scanStep v st hashCount i s
    scan v st hashCount k (i + 1) s

/-- The root hash and the platform identifier, lines 504-549. -/
def rootPart (c : Cfg) (v : Env) (st : St) (t : T) (next : Nat) (plat : Option Bytes) : Except Err (St × T × Nat) :=
  match plat with
  | none => .error .noPlatformId
  | some p => do
    let r ← rdHash v t next st.tocLen
    let next := add32 next st.tocLen
    let t ← hashRange v r.2 next (sub32 (add32 c.addr (eOffset p)) next)
    let next := add32 c.addr (eOffset p)
    let ph ← rdHash v t next 4
    req (u8 ph.1 0 ≤ c.maxPlat) .platformIdBuffer
    let next := add32 next 4
    let id ← rdHash v ph.2 next (u8 ph.1 0)
    .ok ({ st with rootHash := r.1, platformId := id.1 }, id.2, add32 next (u8 ph.1 0))

/-- Lines 504-549: only for the root. -/
def maybeRoot (c : Cfg) (v : Env) (st : St) (ext : Option Bytes) (t : T) (next : Nat) (plat : Option Bytes) : Except Err (St × T × Nat) :=
  if ext = none then rootPart c v st t next plat else .ok (st, t, next)

/-- Lines 551-560: everything up to the extension. -/
def toExt (c : Cfg) (v : Env) (s : Scan) (r : St × T × Nat) : Except Err (St × T × Nat × Option Bytes) :=
  if s.ext then do
    let t ← hashRange v r.2.1 r.2.2 (sub32 (add32 c.addr (eOffset s.last)) r.2.2)
    .ok (r.1, t, add32 c.addr (eOffset s.last), some s.last)
  else .ok (r.1, r.2.1, r.2.2, none)

/-- One round of the loop over the tables of contents, lines 391-562. The result has the entry of the extension, if there is one. -/
def oneToc (c : Cfg) (v : Env) (st : St) (ext : Option Bytes) (t : T) (next : Nat) :
    Except Err (St × T × Nat × Option Bytes) := do
  let h ← rdHash v t next 4
  let next := add32 next 4
  let st ← checkToc c st ext h.1
  let prevEnd := sub32 next c.addr + tCount h.1 * 8 + tHashCount h.1 * st.tocLen + (if ext = none then st.tocLen else 0)
  let s ← scan v st (tHashCount h.1) (tCount h.1) 0 ⟨h.2, next, prevEnd, none, false, []⟩
  let t ← hashRange v s.t s.next (st.tocLen * tHashCount h.1)
  let next := add32 s.next (st.tocLen * tHashCount h.1)
  let r ← maybeRoot c v st ext t next s.plat
  toExt c v s r

/-- The loop, lines 390-563; at most `fuel` rounds. -/
def tocs (c : Cfg) (v : Env) : Nat → St → Option Bytes → T → Nat → Except Err (St × T × Nat)
  | 0, _, _, _, _ => .error .hang
  | fuel + 1, st, ext, t, next => do
    let r ← oneToc c v st ext t next
    match r.2.2.2 with
    | some e => tocs c v fuel r.1 (some e) r.2.1 r.2.2.1
    | none => .ok (r.1, r.2.1, r.2.2.1)

/-- `manifest_flash_verify_v2`, lines 349-586. -/
def verifyV2 (c : Cfg) (v : Env) (st : St) (clk : Nat) (fuel : Nat) : Except Err St := do
  req (!v.fails clk) .io
  let r ← tocs c v fuel { st with entryCount := 0, tocLen := 0, tocType := 7 } none ⟨clk + 1, st.hdr⟩ (add32 c.addr 12)
  let t ← hashRange v r.2.1 r.2.2 (sub32 (sigAddr c r.1.hdr) r.2.2)
  finish c v r.1 t

/-- Lines 613-628. -/
def byVersion (c : Cfg) (v : Env) (st : St) (clk fuel : Nat) : Except Err St :=
  if c.v1 ≠ 0xffff ∧ hMagic st.hdr = c.v1 then verifyV1 c v st clk
  else if c.v2 ≠ 0xffff ∧ hMagic st.hdr = c.v2 then verifyV2 c v st clk fuel
  else if c.v3 ≠ 0xffff ∧ hMagic st.hdr = c.v3 then verifyV2 c v st clk fuel
  else .error .badMagic

/-- `manifest_flash_verify`, lines 601-635, with at most `fuel` tables of contents. -/
def verify (c : Cfg) (v : Env) (st : St) (clk : Nat) (fuel : Nat) : Except Err St := do
  let p ← parseHeader c v st clk
  let st ← byVersion c v p.1 p.2 fuel
  .ok { st with valid := true }

/-- The state that `manifest_flash_verify` leaves. After a failure only `manifest_valid` matters; the model leaves the other fields as they
were, the code may have changed them. -/
def afterVerify (st : St) (r : Except Err St) : St :=
  match r with
  | .ok s => s
  | .error _ => { st with valid := false }

/-! ### Reading elements -/

/-- What a caller asks for: one of `types`, from entry number `start` on, below `parent` (255: anywhere). -/
structure Query where
  types : List Nat
  start : Nat
  parent : Nat

/-- The loop that looks for an entry, lines 966-998: `k` entries are left, `li` is `local_index`, `e` is `toc_entry`. -/
def findEntry (v : Env) (st : St) (q : Query) (hashCount : Nat) : Nat → Nat → T → Nat → Bytes → Except Err (T × Nat × Nat × Bytes)
  | 0, li, t, next, e => .ok (t, next, li, e)
  | k + 1, li, t, next, _ => do
    let r ← rdHash v t next 8
    if eType r.1 = 1 then do
      req (st.extAllowed && li == 254 && eHashId r.1 < hashCount) .extensionInvalid
      findEntry v st q hashCount k (li + 1) r.2 (add32 next 8) r.1
    else do
      req (!(q.parent != 255 && eParent r.1 == 255)) .childNotFound
      if q.types.contains (eType r.1) then .ok (r.2, add32 next 8, li + 1, r.1)
      else findEntry v st q hashCount k (li + 1) r.2 (add32 next 8) r.1

/-- The first entry to look at, lines 940-954. -/
def firstIndex (q : Query) (global count : Nat) : Except Err Nat :=
  let li := if q.start > global then q.start - global else 0
  if li ≥ count then (if count = 255 then .ok 254 else .error .tocInvalid) else .ok li

/-- `MANIFEST_ELEMENT_NOT_FOUND` or `MANIFEST_CHILD_NOT_FOUND`. -/
def notFound (q : Query) : Err := if q.parent = 255 then .notFound else .childNotFound

/-- A table of contents that has been read and checked: its header, the entry that ended the search with its hash, `global_index` after it,
the next access, and the bytes that were hashed. -/
structure Pass where
  h : Bytes
  e : Bytes
  eh : Bytes
  global : Nat
  clk : Nat
  msg : Bytes

/-- The hash of the entry, lines 1009-1029. -/
def entryHash (v : Env) (st : St) (h e : Bytes) (li : Nat) (t : T) (next : Nat) : Except Err (T × Nat × Bytes) :=
  if eHashId e < tHashCount h then do
    let skip := (tCount h - li) * 8 + st.tocLen * eHashId e
    let t ← hashRange v t next skip
    let r ← rdHash v t (add32 next skip) st.tocLen
    .ok (r.2, add32 (add32 next skip) st.tocLen, r.1)
  else .ok (t, next, [])

/-- One round of the loop over the tables of contents, lines 916-1047. -/
def tocPass (c : Cfg) (v : Env) (st : St) (q : Query) (clk next : Nat) (want : Bytes) (global : Nat) : Except Err Pass := do
  req (!v.fails clk) .io
  let h ← rdHash v ⟨clk + 1, []⟩ next 4
  let tocEnd := add32 next (tocLength h.1 st.tocLen)
  let next := add32 next 4
  req (tHash h.1 == st.tocType) .algorithmMismatch
  let li ← firstIndex q global (tCount h.1)
  let t ← hashRange v h.2 next (8 * li)
  let f ← findEntry v st q (tHashCount h.1) (tCount h.1 - li) li t (add32 next (8 * li)) []
  let e := f.2.2.2
  req (q.types.contains (eType e) || eType e == 1) (notFound q)
  let eh ← entryHash v st h.1 e f.2.2.1 f.1 f.2.1
  let t ← hashRange v eh.1 eh.2.1 (sub32 tocEnd eh.2.1)
  req (!v.fails t.clk) .io
  req (c.H st.tocType t.msg == want) .tocInvalid
  .ok ⟨h.1, e, eh.2.2, global + f.2.2.1, t.clk + 1, t.msg⟩

/-- The loop, lines 915-1054, with the list of everything that was hashed; at most `fuel` rounds. -/
def tocLoop (c : Cfg) (v : Env) (st : St) (q : Query) : Nat → Nat → Nat → Bytes → Nat → List Bytes → Except Err (Pass × List Bytes)
  | 0, _, _, _, _, _ => .error .hang
  | fuel + 1, clk, next, want, global, tr => do
    let p ← tocPass c v st q clk next want global
    if eType p.e = 1 then
      tocLoop c v st q fuel p.clk (add32 c.addr (eOffset p.e)) p.eh p.global (tr ++ [p.msg])
    else .ok (p, tr ++ [p.msg])

/-- Where the element data goes: nowhere (`element == NULL`), into memory that is allocated (which may fail), or into a buffer of `n` bytes. -/
inductive Dest
  | nowhere
  | alloc (available : Bool)
  | buffer (n : Nat)

/-- What `manifest_flash_read_element_data` reports on success: the number, type, format and length of the element, and the data read. `trace` is
not part of the C interface: the messages whose digests were compared. -/
structure Result where
  index : Nat
  type : Nat
  format : Nat
  total : Nat
  hashed : Bool
  data : Bytes
  trace : List Bytes
deriving DecidableEq

/-- The element data that is read and, if it has a hash, checked, lines 1093-1137. `ro` is `read_offset`, `len` the number of bytes to read, `rest`
the length of the element after `ro`. -/
def readData (c : Cfg) (v : Env) (st : St) (p : Pass) (ro len rest : Nat) : Except Err (Bytes × List Bytes) :=
  let off := (eOffset p.e + ro) % 2 ^ 16
  if eHashId p.e < tHashCount p.h then do
    req (!v.fails p.clk) .io
    let t ← hashRange v ⟨p.clk + 1, []⟩ (add32 c.addr (eOffset p.e)) ro
    let d ← rdHash v t (add32 c.addr off) len
    let t ← hashRange v d.2 (add32 (add32 c.addr off) len) (rest - len)
    req (!v.fails t.clk) .io
    req (c.H st.tocType t.msg == p.eh) .elementInvalid
    .ok (d.1, [t.msg])
  else do
    let d ← flashRead v p.clk (add32 c.addr off) len
    .ok (d.1, [])

/-- Lines 1056-1140. -/
def deliver (c : Cfg) (v : Env) (st : St) (q : Query) (p : Pass) (tr : List Bytes) (ro : Nat) (dest : Dest) : Except Err Result := do
  req (eParent p.e == 255 || eParent p.e == q.parent) .wrongParent
  let base (d : Bytes) (tr : List Bytes) : Result :=
    ⟨p.global - 1, eType p.e, eFormat p.e, eLength p.e, decide (eHashId p.e < tHashCount p.h), d, tr⟩
  if ro ≥ eLength p.e then .ok (base [] tr)
  else match dest with
    | .nowhere => .ok (base [] tr)
    | .alloc a => do
      req a .noMemory
      let d ← readData c v st p ro (eLength p.e - ro) (eLength p.e - ro)
      .ok (base d.1 (tr ++ d.2))
    | .buffer n =>
      if n = 0 then .ok (base [] tr)
      else do
        let d ← readData c v st p ro (min n (eLength p.e - ro)) (eLength p.e - ro)
        .ok (base d.1 (tr ++ d.2))

/-- `manifest_flash_read_element_data_common`, lines 865-1151. -/
def readElement (c : Cfg) (v : Env) (st : St) (q : Query) (ro : Nat) (dest : Dest) (clk fuel : Nat) : Except Err Result := do
  req (!q.types.isEmpty) .badArgument
  req st.valid .noManifest
  req (q.start < st.entryCount) (notFound q)
  let p ← tocLoop c v st q fuel clk (add32 c.addr 12) st.rootHash 0 []
  deliver c v st q p.1 p.2 ro dest

end Verif.ManifestFlash
