import Verif.SpdmNeg.Spec
import Verif.SpdmCert.Model
/-!
Model of `spdm_get_capabilities` and `spdm_negotiate_algorithms` in `core/spdm/spdm_commands.c`.

The message is a buffer of which the first bytes are the payload. Null arguments, the lock and the lookup of the state, and the reset of L1/L2
are not modelled. `size_t` has 64 bits.
-/
namespace Verif.SpdmNeg
open Verif

/-- `struct spdm_device_algorithms`, spdm_state.h:118-136. -/
structure Algs where
  measSpec : Nat := 0
  measHash : Nat := 0
  asym : Nat := 0
  hash : Nat := 0
  dhe : Nat := 0
  aead : Nat := 0
  reqAsym : Nat := 0
  keySched : Nat := 0
  opq : Nat := 0
deriving DecidableEq, Repr

/-- `struct spdm_local_device_algorithms_priority_table`, spdm_commands.h:1132-1150; `none`: a null table. -/
structure Prio where
  measSpec : Option (List Nat) := none
  asym : Option (List Nat) := none
  hash : Option (List Nat) := none
  dhe : Option (List Nat) := none
  aead : Option (List Nat) := none
  reqAsym : Option (List Nat) := none
  keySched : Option (List Nat) := none
  opq : Option (List Nat) := none

/-- `struct spdm_device_capability`, spdm_state.h:97-111. -/
structure Caps where
  ct : UInt8 := 0
  flags : Nat := 0
  transfer : Nat := 0
  message : Nat := 0
deriving DecidableEq, Repr

/-- The responder. -/
structure Local where
  versions : List UInt8
  caps : Caps
  algs : Algs
  prio : Prio

/-- State of the connection. `vca`: transcript, `trHash`: hash of the transcript manager. -/
structure St where
  version : UInt8
  resp : SpdmCert.RespState
  state : Nat
  caps : Caps
  algs : Algs
  vca : Bytes
  trHash : Option Nat
deriving DecidableEq

/-- Failures of the two updates of the transcript. -/
structure Fault where
  update1 : Bool := false
  update2 : Bool := false

/-- `spdm_generate_error_response`, spdm_commands.c:92-117. -/
def errorReply (v : UInt8) (code : UInt8) : Bytes := [SpdmCert.hdr v, 0x7f, code, 0]

/-- `spdm_handle_response_state`, spdm_commands.c:137-162. -/
def handleState (st : St) : St × Bytes :=
  match st.resp with
  | .busy => (st, errorReply st.version 0x03)
  | .needResync => ({ st with state := 0 }, errorReply st.version 0x43)
  | .encap => (st, errorReply st.version 0x08)
  | _ => (st, errorReply st.version 0x05)

/-! ### GET_CAPABILITIES -/

/-- The checks of `spdm_check_request_flag_compatibility`, spdm_commands.c:173-246. -/
def compatibleBits (cert chal encrypt mac mut_ keyEx encap hbeat keyUpd clear pubKey : Bool) (psk : Nat) (v : UInt8) : Bool :=
  if psk ≥ 3 then false
  else if (keyEx = true ∨ psk = 1) ∧ mac = false then false
  else if ¬ (keyEx = true ∨ psk = 1) ∧ (mac = true ∨ encrypt = true ∨ clear = true ∨ hbeat = true ∨ keyUpd = true) then false
  else if keyEx = false ∧ psk = 1 ∧ clear = true then false
  else if (cert = true ∨ pubKey = true) ∧ ((cert = true ∧ pubKey = true) ∨ (chal = false ∧ keyEx = false)) then false
  else if ¬ (cert = true ∨ pubKey = true) ∧ (chal = true ∨ mut_ = true) then false
  else if v = 0x11 ∧ mut_ = true ∧ encap = false then false
  else true

/-- `spdm_check_request_flag_compatibility` on the bits of the flags, spdm_state.h:48-69. -/
def compatible (flags : Nat) (v : UInt8) : Bool :=
  compatibleBits (flags.testBit 1) (flags.testBit 2) (flags.testBit 6) (flags.testBit 7) (flags.testBit 8) (flags.testBit 9) (flags.testBit 12)
    (flags.testBit 13) (flags.testBit 14) (flags.testBit 15) (flags.testBit 16) (flags / 1024 % 4) v

/-- The end of `spdm_get_capabilities`, spdm_commands.c:1639-1701: transcript, capabilities of the requester and response. -/
def finishCaps (loc : Local) (f : Fault) (buf : Bytes) (v : UInt8) (caps : Caps) (st : St) : St × Bytes :=
  let r := [SpdmCert.hdr v, 0x61, 0, 0, 0, loc.caps.ct, 0, 0] ++ toLE 4 loc.caps.flags ++ toLE 4 loc.caps.transfer ++ toLE 4 loc.caps.message
  if f.update1 then (st, errorReply v 0x05)
  else if f.update2 then ({ st with vca := st.vca ++ buf.take 20, caps }, errorReply v 0x05)
  else ({ st with vca := st.vca ++ buf.take 20 ++ r, caps, state := 2 }, r)

/-- The checks of `spdm_get_capabilities` behind the one of the version, spdm_commands.c:1583-1637. -/
def checkCaps (loc : Local) (f : Fault) (buf : Bytes) (n : Nat) (v : UInt8) (st : St) : St × Bytes :=
  if st.resp ≠ .normal then handleState st
  else if st.state ≠ 1 then (st, errorReply v 0x04)
  else if ¬ (0x12 ≤ v ∧ 20 ≤ n) then (st, errorReply v 0x01)
  else if compatible (leNat (window buf 8 4)) v = false then (st, errorReply v 0x01)
  else if leNat (window buf 12 4) < 42 ∨ leNat (window buf 12 4) > leNat (window buf 16 4) then (st, errorReply v 0x01)
  else if (leNat (window buf 8 4)).testBit 17 = false ∧ leNat (window buf 12 4) ≠ leNat (window buf 16 4) then (st, errorReply v 0x01)
  else if buf.getD 5 0 > 31 then (st, errorReply v 0x01)
  else finishCaps loc f buf v ⟨buf.getD 5 0, leNat (window buf 8 4), leNat (window buf 12 4), leNat (window buf 16 4)⟩ st

/-- `spdm_get_capabilities`, spdm_commands.c:1542-1711. -/
def capabilities (loc : Local) (f : Fault) (buf : Bytes) (n : Nat) (st : St) : St × Bytes :=
  let v := buf.getD 0 0
  if v ∉ loc.versions then (st, errorReply 0x10 0x41)
  else checkCaps loc f buf n v { st with version := v }

/-! ### NEGOTIATE_ALGORITHMS -/

/-- `spdm_prioritize_algorithm`, spdm_commands.c:320-343, on 32 bits. -/
def prioritize (tbl : Option (List Nat)) (mine theirs : Nat) : Nat :=
  let common := mine &&& theirs
  match tbl with
  | some t => loop common t
  | none => common &&& (common &&& (2 ^ 32 - common) % 2 ^ 32)
where
  loop (common : Nat) : List Nat → Nat
    | [] => 0
    | p :: ps => if common &&& p ≠ 0 then p else loop common ps

/-- `struct spdm_algorithm_request`, spdm_commands.h:348-353. -/
structure Entry where
  ty : Nat
  ext : Nat
  fixed : Nat
  sup : Nat

/-- The entry at an offset; `none`: outside of the buffer. -/
def entryAt (buf : Bytes) (p : Nat) : Option Entry :=
  if p + 4 ≤ buf.length then
    some ⟨(buf.getD p 0).toNat, (buf.getD (p + 1) 0).toNat % 16, (buf.getD (p + 1) 0).toNat / 16, leNat (window buf (p + 2) 2)⟩
  else none

/-- The check of the tables, spdm_commands.c:2096-2132, with the macros of spdm_commands.h:371-418: offset behind the tables and number of
extended algorithms. The comparison with the previous type, which is left out for the first table, starts with 1, which is below all types. -/
def validate (buf : Bytes) (n : Nat) : Nat → Nat → Nat → Nat → Res UInt8 (Nat × Nat)
  | 0, _, p, ext => .ok (p, ext)
  | k + 1, prev, p, ext =>
    match entryAt buf p with
    | none => .oob
    | some e =>
      if e.ty < 2 ∨ e.ty > 5 then .err 0x01
      else if e.ty ≤ prev then .err 0x01
      else if e.fixed ≠ 2 then .err 0x01
      else if (n + 2 ^ 64 - p - 4) % 2 ^ 64 < 4 * e.ext then .err 0x01
      else validate buf n k e.ty (p + 4 + 4 * e.ext) ((ext + e.ext) % 65536)

/-- The selection for a table, spdm_commands.c:1885-1957. -/
def select (loc : Local) (a : Algs) (ty sup : Nat) : Nat × Algs :=
  if ty = 2 then
    let s := prioritize loc.prio.dhe loc.algs.dhe sup % 65536
    (s, { a with dhe := s })
  else if ty = 3 then
    let s := prioritize loc.prio.aead loc.algs.aead sup % 65536
    (s, { a with aead := s })
  else if ty = 4 then
    let s := prioritize loc.prio.reqAsym loc.algs.reqAsym sup % 65536
    (s, { a with reqAsym := s })
  else
    let s := prioritize loc.prio.keySched loc.algs.keySched sup % 65536
    (s, { a with keySched := s })

/-- The loop over the tables, spdm_commands.c:1884-1962: the algorithms of the connection and the tables of the response; `some (_, none)`: a
table without algorithms; `none`: outside of the buffer or of the four tables of the response. -/
def build (loc : Local) (buf : Bytes) : Nat → Nat → Nat → Algs → Option (Algs × Option Bytes)
  | 0, _, _, a => some (a, some [])
  | k + 1, i, p, a =>
    match entryAt buf p with
    | none => none
    | some e =>
      if e.sup = 0 then some (a, none)
      else if i ≥ 4 then none
      else
        let x := select loc a e.ty e.sup
        (build loc buf k (i + 1) (p + 4 + 4 * e.ext) x.2).map fun r =>
          (r.1, r.2.map fun t => [UInt8.ofNat e.ty, 0x20] ++ toLE 2 x.1 ++ t)

/-- `spdm_negotiate_algorithms_construct_response`, spdm_commands.c:1834-2014. -/
def construct (loc : Local) (buf : Bytes) (v : UInt8) (num p : Nat) (a : Algs) : Option (Algs × Option Bytes) :=
  let meas := (buf.getD 6 0).toNat
  let a := { a with measSpec := meas, asym := leNat (window buf 8 4), hash := leNat (window buf 12 4) }
  match build loc buf num 0 p a with
  | none => none
  | some (a, none) => some (a, none)
  | some (a, some tables) =>
    let measCap := loc.caps.flags / 8 % 4
    let a := if measCap = 1 ∨ measCap = 2 then
        { a with measSpec := prioritize loc.prio.measSpec loc.algs.measSpec a.measSpec % 256,
                 measHash := prioritize none loc.algs.measHash (if meas ≠ 0 then loc.algs.measHash else 0) }
      else { a with measSpec := 0, measHash := 0 }
    let a := { a with asym := prioritize loc.prio.asym loc.algs.asym a.asym }
    let a := { a with hash := prioritize loc.prio.hash loc.algs.hash a.hash }
    let o := if 0x12 ≤ v then prioritize loc.prio.opq loc.algs.opq ((buf.getD 7 0).toNat % 16) % 16 else 0
    let a := if 0x12 ≤ v then { a with opq := o } else a
    some (a, some ([v, 0x63, UInt8.ofNat num, 0] ++ toLE 2 (36 + 4 * num) ++ [UInt8.ofNat a.measSpec, UInt8.ofNat o] ++ toLE 4 a.measHash ++
      toLE 4 a.asym ++ toLE 4 a.hash ++ List.replicate 16 0 ++ tables))

/-- `spdm_get_hash_type`, spdm_commands.c:352-371: whether the hash is known. -/
def knownHash (h : Nat) : Bool := h == 1 || h == 2 || h == 4

/-- The end of `spdm_negotiate_algorithms`, spdm_commands.c:2167-2204: the transcript, its hash algorithm and the response. -/
def finish (f : Fault) (buf : Bytes) (v : UInt8) (len : Nat) (st : St) (r : Bytes) : Option (St × Bytes) :=
  if f.update1 then some (st, errorReply v 0x05)
  else if buf.length < len then none
  else if f.update2 then some ({ st with vca := st.vca ++ buf.take len }, errorReply v 0x05)
  else if st.algs.hash ≠ 0 ∧ (knownHash st.algs.hash = false ∨ st.trHash ≠ none) then
    some ({ st with vca := st.vca ++ buf.take len ++ r }, errorReply v 0x05)
  else if buf.length < r.length then none
  else some ({ st with vca := st.vca ++ buf.take len ++ r, trHash := if st.algs.hash ≠ 0 then some st.algs.hash else st.trHash, state := 3 }, r)

/-- `spdm_negotiate_algorithms`, spdm_commands.c:2024-2214. `buf` is the message buffer from the payload on and `n` the length of the payload.
`none`: an access outside of the buffer. -/
def negotiate (loc : Local) (f : Fault) (buf : Bytes) (n : Nat) (st : St) : Option (St × Bytes) :=
  let v := buf.getD 0 0
  if v ≠ st.version then some (st, errorReply st.version 0x41)
  else if st.resp ≠ .normal then some (handleState st)
  else if st.state ≠ 2 then some (st, errorReply v 0x04)
  else
    let num := (buf.getD 2 0).toNat
    let len := leNat (window buf 4 2)
    let ea := (buf.getD 28 0).toNat
    let eh := (buf.getD 29 0).toNat
    if n < 32 ∨ n < 32 + 4 * (ea + eh) + 4 * num then some (st, errorReply v 0x01)
    else if len > 128 then some (st, errorReply v 0x01)
    else
      let p := 32 + 4 * ea + 4 * eh
      match validate buf n num 1 p 0 with
      | .oob => none
      | .err e => some (st, errorReply v e)
      | .ok (q, ext) =>
        if (ext + (ea + eh)) % 65536 > 20 then some (st, errorReply v 0x01)
        else if 0x12 ≤ v ∧ (buf.getD 7 0).toNat % 16 / 4 ≠ 0 then some (st, errorReply v 0x01)
        else if q ≠ len then some (st, errorReply v 0x01)
        else
          match construct loc buf v num p st.algs with
          | none => none
          | some (a, none) => some ({ st with algs := a }, errorReply v 0x01)
          | some (a, some r) =>
            finish f buf v len { st with algs := a } r

end Verif.SpdmNeg
