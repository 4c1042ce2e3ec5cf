import Verif.SpdmCert.Spec
import Verif.BufferUtil.Model
/-!
Model of `core/spdm/spdm_certificate_chain_dice.c` and of `spdm_get_digests` and `spdm_get_certificate` in
`core/spdm/spdm_commands.c`.

Null arguments, the lock of the keys and the lookup of the responder state are not modelled; hash engines are
functions that may fail. `size_t` has 32 bits (with 64 bits the same low 16 bits are used).
-/
namespace Verif.SpdmCert
open Verif
open Spec (Chain)

/-- Errors of a chain, spdm_certificate_chain.h:104-111 and of the hash engine. -/
inductive Err
  | invalidArgument
  | missingCert
  | hash
  | smallOutput
deriving DecidableEq, Repr

/-- `spdm_certificate_chain_dice_prepare_header`, spdm_certificate_chain_dice.c:30-82: the header with the digest, and the
length field (16 bits). -/
def prepareHeader (H : Pcr.Hash) (fail : Bool) (ty : Pcr.HashType) (c : Chain) : Res Err (Bytes × Nat) :=
  if c.deviceId.length = 0 ∨ c.alias.length = 0 then .err .missingCert
  else if fail then .err .hash
  else
    let d := match c.root with
      | some r => H ty r
      | none => H ty c.deviceId
    let n := (4 + d.length) % 65536
    let n := match c.root with
      | some r => (n + r.length) % 65536
      | none => n
    let n := match c.intermediate with
      | some r => (n + r.length) % 65536
      | none => n
    let n := (n + c.deviceId.length) % 65536
    let n := (n + c.alias.length) % 65536
    .ok (toLE 2 n ++ [0, 0] ++ d, n)

/-- `spdm_certificate_chain_dice_get_digest`, spdm_certificate_chain_dice.c:84-151. `fail2`: a call on the hash of the chain fails. -/
def getDigest (H : Pcr.Hash) (fail fail2 : Bool) (ty : Pcr.HashType) (c : Chain) (length : Nat) : Res Err Bytes :=
  Res.bind (prepareHeader H fail ty c) fun h =>
  if fail2 then .err .hash
  else if length < ty.len then .err .smallOutput
  else
    let x := h.1
    let x := match c.root with
      | some r => x ++ r
      | none => x
    let x := match c.intermediate with
      | some r => x ++ r
      | none => x
    .ok (H ty (x ++ c.deviceId ++ c.alias))

/-- `spdm_certificate_chain_dice_get_certificate_chain`, spdm_certificate_chain_dice.c:153-204: data and `*total_length`. -/
def getChain (H : Pcr.Hash) (fail : Bool) (ty : Pcr.HashType) (c : Chain) (offset length : Nat) : Res Err (Bytes × Nat) :=
  if length = 0 then .err .invalidArgument
  else Res.bind (prepareHeader H fail ty c) fun h =>
    let s : BufferUtil.Cursor := (BufferUtil.bufferCopy h.1 ⟨offset, length, []⟩).2
    let s := match c.root with
      | some r => (BufferUtil.bufferCopy r s).2
      | none => s
    let s := match c.intermediate with
      | some r => (BufferUtil.bufferCopy r s).2
      | none => s
    let s := (BufferUtil.bufferCopy c.deviceId s).2
    let s := (BufferUtil.bufferCopy c.alias s).2
    .ok (s.out, h.2)

/-! ### The responder -/

/-- `enum spdm_response_state`. -/
inductive RespState | normal | busy | needResync | encap | other
deriving DecidableEq, Repr

/-- The session of the request: none, one that is not found, or one with its state `ESTABLISHED`. -/
inductive Session | none | missing | found (established : Bool)
deriving DecidableEq, Repr

/-- What the two handlers know and change. The transcripts are the bytes that were added since the last reset. -/
structure Conn where
  version : UInt8
  resp : RespState
  /-- `connection_state`, spdm_state.h:15-22 -/
  state : Nat
  certCap : Bool
  /-- the negotiated hash, `none` for an unknown one -/
  hash : Option Pcr.HashType
  chains : List Chain
  session : Session
  m1m2 : Bytes
  l1l2 : Bytes
deriving DecidableEq

/-- Failures during a request. -/
structure Fault where
  update1 : Bool := false
  update2 : Bool := false
  hash : Nat → Bool := fun _ => false
  hash2 : Nat → Bool := fun _ => false

/-- First byte of a response, `spdm_populate_header`, spdm_commands.c:59-65. -/
def hdr (v : UInt8) : UInt8 := 0x10 ||| (v &&& 0xf)

/-- `spdm_generate_error_response`, spdm_commands.c:92-117, without optional data. -/
def errorReply (c : Conn) (code : UInt8) : Bytes := [hdr c.version, 0x7f, code, 0]

/-- The checks of a request, spdm_commands.c:2356-2407 and 2592-2643: the error code, and the new connection state
(`spdm_handle_response_state`, spdm_commands.c:137-161). -/
def checks (c : Conn) (req : Bytes) (size : Nat) : Option (Conn × UInt8) :=
  if req.length < size then some (c, 0x01)
  else if req.getD 0 0 ≠ c.version then some (c, 0x41)
  else match c.resp with
    | .busy => some (c, 0x03)
    | .needResync => some ({ c with state := 0 }, 0x43)
    | .encap => some (c, 0x08)
    | .other => some (c, 0x05)
    | .normal =>
      if c.state < 3 then some (c, 0x04)
      else if c.certCap = false then some (c, 0x07)
      else match c.session with
        | .none => none
        | .missing => some (c, 0x04)
        | .found e => if e then none else some (c, 0x04)

/-- `transcript_manager->update` for M1M2, only outside of a session. -/
def addM1M2 (fail : Bool) (c : Conn) (x : Bytes) : Option Conn :=
  if c.session = .none then if fail then none else some { c with m1m2 := c.m1m2 ++ x } else some c

/-- The loop of `spdm_get_digests`, spdm_commands.c:2447-2457. -/
def digestLoop (H : Pcr.Hash) (f : Fault) (ty : Pcr.HashType) : Nat → List Chain → UInt8 → Option (Bytes × UInt8)
  | _, [], mask => some ([], mask)
  | i, ch :: cs, mask =>
    match getDigest H (f.hash i) (f.hash2 i) ty ch ty.len with
    | .ok d => (digestLoop H f ty (i + 1) cs (mask <<< 1 ||| 1)).map fun r => (d ++ r.1, r.2)
    | _ => none

/-- `spdm_get_digests`, spdm_commands.c:2316-2490. The request resets L1L2 and M1M2, spdm_commands.c:953-991. -/
def getDigests (H : Pcr.Hash) (f : Fault) (maxResp : Nat) (c : Conn) (req : Bytes) : Conn × Option Bytes :=
  match checks c req 4 with
  | some (c', e) => (c', some (errorReply c e))
  | none =>
    let c := { c with l1l2 := [], m1m2 := [] }
    match addM1M2 f.update1 c (req.take 4) with
    | none => (c, some (errorReply c 0x05))
    | some c =>
      match c.hash with
      | none => (c, some (errorReply c 0x05))
      | some ty =>
        let n := min 8 c.chains.length
        if 4 + ty.len * n > maxResp then (c, some (errorReply c 0x05))
        else match digestLoop H f ty 0 (c.chains.take n) 0 with
          | none => (c, some (errorReply c 0x05))
          | some (ds, mask) =>
            let r := [hdr (req.getD 0 0), 0x01, 0, mask] ++ ds
            match addM1M2 f.update2 c r with
            | none => (c, some (errorReply c 0x05))
            | some c => ({ c with state := if c.state < 4 then 4 else c.state }, some r)

/-- `spdm_get_certificate`, spdm_commands.c:2549-2755. `maxResp` is `cmd_interface_msg_get_max_response`; below the size of the header
the response goes beyond it (`none`). -/
def getCertificate (H : Pcr.Hash) (f : Fault) (maxResp : Nat) (c : Conn) (req : Bytes) : Conn × Option Bytes :=
  match checks c req 8 with
  | some (c', e) => (c', some (errorReply c e))
  | none =>
    let slot := req.getD 2 0 &&& 0xf
    if slot ≥ 8 then (c, some (errorReply c 0x01))
    else match c.chains[slot.toNat]? with
      | none => (c, some (errorReply c 0x01))
      | some ch =>
        match c.hash with
        | none => (c, some (errorReply c 0x05))
        | some ty =>
          let off := leNat ((req.drop 4).take 2)
          let len := leNat ((req.drop 6).take 2)
          let c := { c with l1l2 := [] }
          match addM1M2 f.update1 c (req.take 8) with
          | none => (c, some (errorReply c 0x05))
          | some c =>
            if maxResp < 8 then (c, none)
            else
              let len := if len > maxResp - 8 then maxResp - 8 else len
              match getChain H (f.hash 0) ty ch off len with
              | .err _ => (c, some (errorReply c 0x05))
              | .oob => (c, none)
              | .ok (d, total) =>
                let rem := (total + 2 ^ 32 - d.length) % 2 ^ 32
                let rem := if off < rem then rem - off else 0
                let r := [hdr (req.getD 0 0), 0x02, slot, 0] ++ toLE 2 (d.length % 65536) ++ toLE 2 (rem % 65536) ++ d
                match addM1M2 f.update2 c r with
                | none => (c, some (errorReply c 0x05))
                | some c => ({ c with state := if c.state < 5 then 5 else c.state }, some r)

end Verif.SpdmCert
