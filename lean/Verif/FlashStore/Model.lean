import Verif.Flash.Model
/-! Model of `core/flash/flash_store_contiguous_blocks.c`, its encrypting variants (`..._encrypted.c`, `..._key_wrap.c`) and
`flash_store_aggregator.c`, on top of the flash driver model.

Simplifications: identifiers are natural numbers (a negative id is refused like one that is too large); the page buffer and its lock are
not state (the buffer is filled before each use, under the lock); allocation failures are left out. -/
namespace Verif.FlashStore
open Flash (Dev FS Mem bytesAt u32)

/-- `struct flash_store_contiguous_blocks` and its state, flash_store_contiguous_blocks.h:32-57. `page` is the page size if there is a page
buffer. `extra` is the number of bytes kept for data appended to the stored data. -/
structure Store where
  base : Nat
  blocks : Nat
  decreasing : Bool
  varLen : Bool
  maxSize : Nat
  overhead : Nat
  blockSize : Nat
  page : Option Nat
  oldHeader : Bool := false
deriving DecidableEq, Repr

inductive Err
  | unsupportedId | badLength | flash | tooSmall | noData | corrupt | crypto
  | notAligned | badBase | insufficient | blockTooLarge | noStorage
deriving DecidableEq, Repr

/-- `flash_store_contiguous_blocks_init_storage_common` (the checks, 727-733) and `flash_store_contiguous_blocks_init_state_common`, lines
602-702. `FLASH_REGION_MASK` and `FLASH_REGION_OFFSET` are written with `%`. -/
def init (sector device pageSize minWrite base blocks dataLen overhead extra : Nat) (decreasing varLen : Bool) : Except Err Store :=
  if blocks = 0 then .error .noStorage
  else if dataLen > 65535 then .error .blockTooLarge
  else if base % sector ≠ 0 then .error .notAligned
  else if base ≥ device ∨ (decreasing ∧ base = 0) then .error .badBase
  else
    let len := dataLen + extra + (if varLen then 4 else 0)
    let size0 := if len > sector then len else sector
    let size := u32 (size0 + (sector - 1)) - u32 (size0 + (sector - 1)) % sector
    if !decreasing ∧ u32 (base + u32 (size * blocks)) > device then .error .insufficient
    else if decreasing ∧ u32 (size * (blocks - 1)) > base then .error .insufficient
    else
      let max := if varLen then u32 (size + (2 ^ 32 - 4 - extra)) else dataLen
      if varLen ∧ max > 65535 then .error .blockTooLarge
      else
        let buffered := minWrite ≠ 1 ∧ (varLen ∨ (extra ≠ 0 ∧ max % pageSize ≠ 0))
        .ok { base, blocks, decreasing, varLen, maxSize := max, overhead, blockSize := size,
              page := if buffered then some pageSize else none }

/-- The address of a block: `flash->base_addr + base_offset`, lines 71-75. -/
def Store.addr (st : Store) (id : Nat) : Nat :=
  if st.decreasing then u32 (st.base + (2 ^ 32 - u32 (id * st.blockSize))) else u32 (st.base + u32 (id * st.blockSize))

/-- `flash_store_contiguous_blocks_verify_write_params`, lines 29-48. -/
def checkParams (st : Store) (id len : Nat) : Option Err :=
  if len = 0 then some .badLength
  else if id ≥ st.blocks then some .unsupportedId
  else if !st.varLen ∧ len ≠ st.maxSize - st.overhead then some .badLength
  else if len > st.maxSize - st.overhead then some .badLength
  else none

/-- Length of the data header, lines 99-100. -/
def Store.headerLen (st : Store) : Nat := if !st.varLen then 0 else if st.oldHeader then 2 else 4

/-- The data header, lines 94-98 (`FLASH_STORE_HEADER_LENGTH` = 4, `FLASH_STORE_HEADER_MARKER` = 0xa5). -/
def Store.header (st : Store) (len : Nat) : Bytes := if st.oldHeader then toLE 2 len else [4, 0xa5] ++ toLE 2 len

/-- The amounts computed in lines 101-136: data in the first page, full pages of data, data in the last page, extra data with it, and
whether everything is in the first page. -/
structure Split where
  first : Nat
  middle : Nat
  remain : Nat
  writeExtra : Nat
  extraFirst : Bool
deriving DecidableEq, Repr

/-- Lines 101-125. -/
def split1 (varLen : Bool) (page h len : Nat) : Split :=
  let first := page - h
  let remain := (len + h) % page
  let middle := if len > remain then len - remain else len
  if varLen then
    if middle > first then ⟨first, middle - first, remain, page - remain, false⟩
    else ⟨middle, 0, remain, page - remain, decide (middle < first)⟩
  else ⟨0, if middle < first then 0 else middle, remain, page - remain, false⟩

/-- Lines 127-136. -/
def split2 (s : Split) (extra : Nat) : Split :=
  if extra = 0 then { s with middle := if !s.extraFirst then s.middle + s.remain else s.middle, remain := 0, writeExtra := 0 }
  else if s.writeExtra > extra then { s with writeExtra := extra }
  else s

/-- The writes of lines 84-200 in order, as offsets into the block and data. -/
def pagedWrites (st : Store) (page : Nat) (d x : Bytes) : List (Nat × Bytes) :=
  let h := st.headerLen
  let s := split2 (split1 st.varLen page h d.length) x.length
  let off1 := s.first + h
  let off2 := off1 + s.middle
  let off3 := if !s.extraFirst ∧ x.length ≠ 0 then off2 + s.remain + s.writeExtra else off2 + s.writeExtra
  (if s.middle ≠ 0 then [(off1, (d.drop s.first).take s.middle)] else []) ++
  (if !s.extraFirst ∧ x.length ≠ 0 then [(off2, (d.drop (d.length - s.remain)).take s.remain ++ x.take s.writeExtra)] else []) ++
  (if s.writeExtra < x.length then [(off3, x.drop s.writeExtra)] else []) ++
  (if s.first ≠ 0 then [(0, (if st.varLen then st.header d.length else []) ++ d.take s.first ++
    (if s.extraFirst ∧ s.writeExtra ≠ 0 then x.take s.writeExtra else []))] else [])

/-- The writes of lines 204-248 in order. -/
def plainWrites (st : Store) (d x : Bytes) : List (Nat × Bytes) :=
  let h := st.headerLen
  [(h, d)] ++ (if x.length ≠ 0 then [(h + d.length, x)] else []) ++ (if st.varLen then [(0, st.header d.length)] else [])

/-- All writes of `flash_store_contiguous_blocks_write_common`. -/
def writes (st : Store) (d x : Bytes) : List (Nat × Bytes) :=
  match st.page with
  | some p => pagedWrites st p d x
  | none => plainWrites st d x

/-- Execute writes with `flash_write_and_verify` until one fails. -/
def runWrites (dv : Dev) (s : FS) (a : Nat) : List (Nat × Bytes) → Flash.Status × FS
  | [] => (.ok, s)
  | (off, b) :: ws =>
    match Flash.programVerify dv .none s (u32 (a + off)) b with
    | (.ok, s) => runWrites dv s a ws
    | r => r

/-- `flash_store_contiguous_blocks_write_common`, lines 64-251. -/
def writeCommon (dv : Dev) (st : Store) (s : FS) (id : Nat) (d x : Bytes) : Except Err Unit × FS :=
  match Flash.eraseRegion dv dv.sector s (st.addr id) st.blockSize with
  | (.ok, s) =>
    match runWrites dv s (st.addr id) (writes st d x) with
    | (.ok, s) => (.ok (), s)
    | (_, s) => (.error .flash, s)
  | (_, s) => (.error .flash, s)

/-- The interpretation of the header bytes in `flash_store_contiguous_blocks_read_header`, lines 312-330: length of the header and of the
data. -/
def parseHeader (maxSize : Nat) (b : Bytes) : Except Err (Nat × Nat) :=
  if b.getD 1 0 ≠ 0xa5 then
    if leNat (b.take 2) > maxSize then .error .noData else .ok (2, leNat (b.take 2))
  else if (b.getD 0 0).toNat < 4 ∨ leNat ((b.drop 2).take 2) > maxSize then .error .noData
  else .ok ((b.getD 0 0).toNat, leNat ((b.drop 2).take 2))

/-- `flash_store_contiguous_blocks_read_header`, lines 299-331. -/
def readHeader (dv : Dev) (st : Store) (s : FS) (a : Nat) : Except Err (Nat × Nat) × FS :=
  match Flash.read dv s a 4 with
  | (none, s) => (.error .flash, s)
  | (some b, s) => (parseHeader st.maxSize b, s)

/-- Lines 374-391: where the data is and how much there is. `n` is the length of the caller's buffer. -/
def locate (dv : Dev) (st : Store) (s : FS) (a n : Nat) : Except Err (Nat × Nat) × FS :=
  if st.varLen then
    match readHeader dv st s a with
    | (.error e, s) => (.error e, s)
    | (.ok (hl, len), s) => if n < len then (.error .tooSmall, s) else (.ok (u32 (a + hl), len), s)
  else (.ok (a, st.maxSize), s)

/-- `flash_store_contiguous_blocks_read_common`, lines 350-414: the data and the extra data. -/
def readCommon (dv : Dev) (st : Store) (s : FS) (id n align extra : Nat) : Except Err (Bytes × Bytes) × FS :=
  if id ≥ st.blocks then (.error .unsupportedId, s)
  else if !st.varLen ∧ n < st.maxSize then (.error .tooSmall, s)
  else
    match locate dv st s (st.addr id) n with
    | (.error e, s) => (.error e, s)
    | (.ok (a, len), s) =>
      if align ≠ 0 ∧ len % align ≠ 0 then (.error .noData, s)
      else
        match Flash.read dv s a len with
        | (none, s) => (.error .flash, s)
        | (some d, s) =>
          if extra = 0 then (.ok (d, []), s)
          else
            match Flash.read dv s (u32 (a + len)) extra with
            | (none, s) => (.error .flash, s)
            | (some x, s) => (.ok (d, x), s)

/-- Write with the parameter check that all variants start with. `pack` turns the data into what is stored and the extra data, or fails. -/
def writeSealed (pack : Bytes → Option (Bytes × Bytes)) (dv : Dev) (st : Store) (s : FS) (id : Nat) (d : Bytes) : Except Err Unit × FS :=
  match checkParams st id d.length with
  | some e => (.error e, s)
  | none =>
    match pack d with
    | none => (.error .crypto, s)
    | some (b, x) => writeCommon dv st s id b x

/-- `flash_store_contiguous_blocks_write_no_hash`, lines 253-266. -/
def writeNoHash := writeSealed (fun d => some (d, []))

/-- `flash_store_contiguous_blocks_write_with_hash`, lines 268-288. -/
def writeHash (sha : Bytes → Option Bytes) := writeSealed (fun d => (sha d).map (fun h => (d, h)))

/-- What `flash_store_contiguous_blocks_encrypted_write` stores, flash_store_contiguous_blocks_encrypted.c:41-57. `rng` is the result of
generating the IV, `enc` of the encryption (cipher text and tag). -/
def packEncrypted (rng : Option Bytes) (enc : Bytes → Bytes → Option (Bytes × Bytes)) (d : Bytes) : Option (Bytes × Bytes) :=
  match rng with
  | none => none
  | some iv =>
    match enc iv d with
    | none => none
    | some (c, tag) => some (c, iv ++ tag)

/-- `flash_store_contiguous_blocks_encrypted_write`, flash_store_contiguous_blocks_encrypted.c:19-62. -/
def writeEncrypted (rng : Option Bytes) (enc : Bytes → Bytes → Option (Bytes × Bytes)) := writeSealed (packEncrypted rng enc)

/-- `flash_store_contiguous_blocks_key_wrap_write`, flash_store_contiguous_blocks_key_wrap.c:13-49. -/
def writeWrapped (wrap : Bytes → Option Bytes) := writeSealed (fun d => (wrap d).map (fun c => (c, [])))

/-- `flash_store_contiguous_blocks_read_no_hash`, lines 416-427. -/
def readNoHash (dv : Dev) (st : Store) (s : FS) (id n : Nat) : Except Err Bytes × FS :=
  match readCommon dv st s id n 0 0 with
  | (.error e, s) => (.error e, s)
  | (.ok (d, _), s) => (.ok d, s)

/-- `flash_store_contiguous_blocks_read_with_hash`, lines 429-454. -/
def readHash (sha : Bytes → Option Bytes) (dv : Dev) (st : Store) (s : FS) (id n : Nat) : Except Err Bytes × FS :=
  match readCommon dv st s id n 0 32 with
  | (.error e, s) => (.error e, s)
  | (.ok (d, x), s) =>
    match sha d with
    | none => (.error .crypto, s)
    | some h => if h ≠ x then (.error .corrupt, s) else (.ok d, s)

/-- The result of an authenticated decryption. -/
inductive Opened | ok (d : Bytes) | authFailed | failed

/-- `flash_store_contiguous_blocks_encrypted_read`, flash_store_contiguous_blocks_encrypted.c:64-94. -/
def readEncrypted (dec : (iv c tag : Bytes) → Opened) (dv : Dev) (st : Store) (s : FS) (id n : Nat) : Except Err Bytes × FS :=
  match readCommon dv st s id n 0 28 with
  | (.error e, s) => (.error e, s)
  | (.ok (c, x), s) =>
    match dec (x.take 12) c (x.drop 12) with
    | .ok d => (.ok d, s)
    | .authFailed => (.error .corrupt, s)
    | .failed => (.error .crypto, s)

/-- `flash_store_contiguous_blocks_key_wrap_read`, flash_store_contiguous_blocks_key_wrap.c:51-85. `n` is also given to the unwrap as the
space for the result. -/
def readWrapped (unwrap : Bytes → Nat → Opened) (dv : Dev) (st : Store) (s : FS) (id n : Nat) : Except Err Bytes × FS :=
  match readCommon dv st s id n 8 0 with
  | (.error e, s) => (.error e, s)
  | (.ok (c, _), s) =>
    match unwrap c n with
    | .ok d => (.ok d, s)
    | .authFailed => (.error .corrupt, s)
    | .failed => (.error .crypto, s)

/-- `flash_store_contiguous_blocks_erase`, lines 456-477. -/
def erase (dv : Dev) (st : Store) (s : FS) (id : Nat) : Except Err Unit × FS :=
  if id ≥ st.blocks then (.error .unsupportedId, s)
  else
    match Flash.eraseVerify dv dv.sector s (st.addr id) st.blockSize with
    | (.ok, s) => (.ok (), s)
    | (_, s) => (.error .flash, s)

/-- `flash_store_contiguous_blocks_erase_all`, lines 479-495. -/
def eraseAll (dv : Dev) (st : Store) (s : FS) : Except Err Unit × FS :=
  let off := if st.decreasing then u32 (st.blockSize * (st.blocks - 1)) else 0
  match Flash.eraseVerify dv dv.sector s (u32 (st.base + (2 ^ 32 - off))) (u32 (st.blockSize * st.blocks)) with
  | (.ok, s) => (.ok (), s)
  | (_, s) => (.error .flash, s)

/-- `flash_store_contiguous_blocks_get_data_length`, lines 497-530. -/
def dataLength (dv : Dev) (st : Store) (s : FS) (id : Nat) : Except Err Nat × FS :=
  if id ≥ st.blocks then (.error .unsupportedId, s)
  else if st.varLen then
    match readHeader dv st s (st.addr id) with
    | (.error e, s) => (.error e, s)
    | (.ok (_, len), s) => (.ok len, s)
  else (.ok st.maxSize, s)

/-- `flash_store_contiguous_blocks_has_data_stored`, lines 532-551. -/
def hasData (dv : Dev) (st : Store) (s : FS) (id : Nat) : Except Err Bool × FS :=
  match dataLength dv st s id with
  | (.error .noData, s) => (.ok false, s)
  | (.error e, s) => (.error e, s)
  | (.ok _, s) => (.ok true, s)

/-- `flash_store_aggregator_get_flash_store_and_block_index`, flash_store_aggregator.c:23-58, for stores whose block counts are `counts`:
index of the store and of the block in it. `none` stands for a store that fails to report its number of blocks. -/
def aggregate : List (Option Nat) → Nat → Option (Nat × Nat)
  | [], _ => none
  | none :: _, _ => none
  | some n :: rest, id => if id < n then some (0, id) else (aggregate rest (id - n)).map (fun r => (r.1 + 1, r.2))

end Verif.FlashStore
