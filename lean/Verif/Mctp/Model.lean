import Verif.Common.Res
import Verif.Checksum.Model
/-! Model of `core/mctp/mctp_base_protocol.c` and `core/mctp/mctp_interface.c`. -/
namespace Verif.Mctp

/-- Errors of the MCTP layer, mctp_base_protocol.h:241-270. -/
inductive Err
  | pktTooShort | invalidPkt | lengthMismatch | badChecksum | badBufferLength | bufTooSmall | handler
deriving DecidableEq, Repr

abbrev R := Res Err

/-- The fields of the transport header that vary, mctp_base_protocol.h:172-185. -/
structure Hdr where
  srcAddr : UInt8
  dstEid : UInt8
  srcEid : UInt8
  som : Bool
  eom : Bool
  seq : Nat
  tag : Nat
  owner : Nat
deriving DecidableEq, Repr

/-- `MCTP_BASE_PROTOCOL_MAX_TRANSMISSION_UNIT`, mctp_base_protocol.h:17. -/
def maxUnit : Nat := 247
/-- `MCTP_BASE_PROTOCOL_MAX_MESSAGE_BODY`, mctp_base_protocol.h:20. -/
def maxBody : Nat := 4096
/-- `sizeof (struct mctp_base_protocol_transport_header)`. -/
def hdrLen : Nat := 7
/-- `MCTP_BASE_PROTOCOL_PACKET_OVERHEAD`, mctp_base_protocol.h:73-74. -/
def overhead : Nat := 8
/-- `MCTP_BASE_PROTOCOL_MAX_MESSAGE_LEN`, mctp_base_protocol.h:98-100: 64 packets of 72 bytes. -/
def maxMessageLen : Nat := 4608

/-- A `bool` stored in a one-bit field. -/
def bit (b : Bool) : Nat := if b then 1 else 0

/-- The transport header as filled in at mctp_base_protocol.c:159-169, with the bit field layout of
mctp_base_protocol.h:172-185. `n` is the payload length. Values are truncated to their field. -/
def hdrBytes (h : Hdr) (n : Nat) : Bytes :=
  [0x0f, UInt8.ofNat (overhead + n - 3), (h.srcAddr <<< 1) ||| 1, 1, h.dstEid, h.srcEid,
    UInt8.ofNat (h.tag % 8 + 8 * (h.owner % 2) + 16 * (h.seq % 4) + 64 * bit h.eom + 128 * bit h.som)]

/-- `mctp_base_protocol_construct`, mctp_base_protocol.c:133-175, in memory `mem`: the payload is the `len` bytes at `inPos`, the
packet is written at `outPos`, where `outLen` bytes are available. Source and destination may overlap. Returns the packet length
and the memory. -/
def construct (mem : Bytes) (inPos len outPos outLen : Nat) (h : Hdr) (dstAddr : UInt8) : R (Nat × Bytes) := do
  if len = 0 ∨ len > maxUnit then .err .badBufferLength
  else if outLen < overhead + len then .err .bufTooSmall
  else
    let payload ← rdN mem inPos len
    let mem ← wrN mem (outPos + hdrLen) payload
    let mem ← wrN mem outPos (hdrBytes h len)
    let body ← rdN mem outPos (overhead + len - 1)
    let mem ← wr mem (outPos + hdrLen + len) (Checksum.crc8 (dstAddr <<< 1) body (overhead + len - 1))
    return (overhead + len, mem)

/-- A parsed packet. -/
structure Pkt where
  hdr : Hdr
  msgType : Nat
  payload : Bytes
deriving DecidableEq, Repr

/-- The PEC check, mctp_base_protocol.c:101-108. -/
def checkPec (buf : Bytes) (packetLen : Nat) (dstAddr : UInt8) : R Unit := do
  if buf.length > packetLen then
    let body ← rdN buf 0 packetLen
    let pec ← rd buf packetLen
    if Checksum.crc8 (dstAddr <<< 1) body packetLen ≠ pec then .err .badChecksum else return ()
  else return ()

/-- The message type, mctp_base_protocol.c:94-99; 0 (the caller's initial value) if this is not a first packet. -/
def readType (buf : Bytes) (som : Bool) : R Nat := do
  if som then
    let t ← rd buf hdrLen
    return t.toNat % 128
  else return 0

/-- `mctp_base_protocol_interpret`, mctp_base_protocol.c:38-111. -/
def interpret (buf : Bytes) (dstAddr : UInt8) : R Pkt := do
  if buf.length < hdrLen then .err .pktTooShort
  else
    let cmd ← rd buf 0
    let count ← rd buf 1
    let src ← rd buf 2
    let ver ← rd buf 3
    let dstEid ← rd buf 4
    let srcEid ← rd buf 5
    let flags ← rd buf 6
    if cmd ≠ 0x0f ∨ ver.toNat / 16 ≠ 0 ∨ ver.toNat % 16 ≠ 1 ∨ dstEid = srcEid then .err .invalidPkt
    else
      let packetLen := count.toNat + 2
      if packetLen ≤ hdrLen then .err .pktTooShort
      else if buf.length < packetLen then .err .lengthMismatch
      else
        let payload ← rdN buf hdrLen (packetLen - hdrLen)
        let som : Bool := flags.toNat / 128 = 1
        let msgType ← readType buf som
        checkPec buf packetLen dstAddr
        return { hdr := { srcAddr := src >>> 1, dstEid := dstEid, srcEid := srcEid, som := som, eom := flags.toNat / 64 % 2 = 1,
                          seq := flags.toNat / 16 % 4, tag := flags.toNat % 8, owner := flags.toNat / 8 % 2 },
                 msgType := msgType, payload := payload }

/-! ### Packetizing a message -/

/-- The loop of `mctp_interface_generate_packets_from_payload`, mctp_interface.c:55-81. `pos` is the position of the payload that
remains, `n` its length, `out` the start of the packet buffer of `cap` bytes and `i` the bytes written to it. Returns the length of
all packets, of the first packet (unchanged if the loop does not run) and the memory. -/
def genLoop (mtu : Nat) (h : Hdr) (dstAddr : UInt8) (out cap : Nat) (mem : Bytes) (pos n i pktLen : Nat) :
    R (Nat × Nat × Bytes) :=
  if hn : n = 0 then .ok (i, pktLen, mem)
  else
    let len := if n > mtu then mtu else n
    let h' := { h with eom := decide (¬ n > mtu) }
    match construct mem pos len (out + i) (cap - i) h' dstAddr with
    | .ok (l, mem') =>
      if hl : len = 0 then .err .badBufferLength -- not reachable: `construct` rejects an empty payload
      else
        have : n - len < n := by omega
        genLoop mtu { h with som := false, seq := (h.seq + 1) % 4 } dstAddr out cap mem' (pos + len) (n - len) (i + l)
          (if h.som then l else pktLen)
    | .err e => .err e
    | .oob => .oob
termination_by n

/-- `mctp_interface_generate_packets_from_payload`, mctp_interface.c:38-84. -/
def genPackets (mtu : Nat) (mem : Bytes) (pos n out cap : Nat) (dstEid dstAddr srcEid srcAddr : UInt8) (tag owner : Nat) :
    R (Nat × Nat × Bytes) :=
  genLoop mtu { srcAddr, dstEid, srcEid, som := true, eom := false, seq := 0, tag, owner } dstAddr out cap mem pos n 0 0

/-! ### Receiving -/

/-- `enum mctp_interface_response_state`, mctp_interface.h. -/
inductive RspState
  | idle | waiting | pending | success | tooBig
deriving DecidableEq, Repr

/-- The receive state, `struct mctp_interface_state`. `data` is the content of `req_buffer`. -/
structure St where
  data : Bytes := []
  srcEid : UInt8 := 0
  srcAddr : UInt8 := 0
  dstEid : UInt8 := 0
  startLen : Nat := 0
  seq : Nat := 0
  tag : Nat := 0
  msgType : Nat := 0
  owner : Nat := 0
  rsp : RspState := .idle
  rspTag : Nat := 0
  rspType : Nat := 0
  rspMax : Option Nat := none
deriving DecidableEq, Repr

/-- `mctp_interface_reset_message_assembly`, mctp_interface.c:92-100. -/
def St.reset (s : St) : St := { s with data := [], srcEid := 0, srcAddr := 0, dstEid := 0, startLen := 0 }

/-- A complete request as passed to the request handler. -/
structure Req where
  srcEid : UInt8
  srcAddr : UInt8
  dstEid : UInt8
  tag : Nat
  data : Bytes
deriving DecidableEq, Repr

/-- What processing a packet does besides changing the state. -/
inductive Event
  | ignored                     -- not for this device, or an unexpected response
  | dropped                     -- logged and dropped
  | accepted                    -- added to the message
  | request (r : Req)           -- request handler called
  | response (data : Bytes)     -- response given to the waiting requester
  | responseTooBig
  | responseDropped             -- nobody is waiting for it
deriving DecidableEq, Repr

/-- The parameters of the receiver: the own EID and `is_message_type_supported` of the request handler. -/
structure Env where
  selfEid : UInt8
  supported : Nat → Bool

/-- `mctp_interface_is_expected_response`, mctp_interface.c:319-363. -/
def isExpectedResponse (s : St) (tag : Nat) (som : Bool) (msgType : Nat) : Bool :=
  if s.rsp ≠ .waiting ∧ s.rsp ≠ .pending then false
  else if tag ≠ s.rspTag then false
  else if som ∧ msgType ≠ s.rspType then false
  else true

/-- `mctp_interface_handle_response_message`, mctp_interface.c:384-417; `oob` if the response buffer is `NULL`. -/
def handleResponse (s : St) : R (St × Event) :=
  if s.rsp = .pending then .ok ({ s with rsp := .idle }.reset, .responseDropped)
  else match s.rspMax with
    | none => .oob
    | some m =>
      if s.data.length ≤ m then .ok ({ s with rsp := .success }.reset, .response s.data)
      else .ok ({ s with rsp := .tooBig }.reset, .responseTooBig)

/-- The checks and start of message handling in `mctp_interface_process_packet`, mctp_interface.c:761-855, for a parsed packet:
`Sum.inl` if processing ends here. -/
def accept (env : Env) (s : St) (p : Pkt) : Sum (St × Event) St :=
  if p.hdr.dstEid ≠ env.selfEid ∧ p.hdr.dstEid ≠ 0 then .inl (s, .ignored)
  else if p.hdr.owner = 0 ∧ isExpectedResponse s p.hdr.tag p.hdr.som p.msgType = false then .inl (s, .ignored)
  else if p.hdr.owner ≠ 0 ∧ p.hdr.som ∧ env.supported p.msgType = false then .inl (s, .dropped)
  else if p.hdr.som then
    .inr { s with data := [], srcEid := p.hdr.srcEid, srcAddr := p.hdr.srcAddr, dstEid := p.hdr.dstEid,
                  startLen := p.payload.length, seq := p.hdr.seq, tag := p.hdr.tag, msgType := p.msgType, owner := p.hdr.owner }
  else if s.startLen = 0 then .inl (s, .dropped)
  else if p.hdr.tag ≠ s.tag ∨ p.hdr.owner ≠ s.owner then .inl (s, .dropped)
  else if p.hdr.srcEid ≠ s.srcEid then .inl (s, .dropped)
  else if p.hdr.seq ≠ s.seq then .inl (s.reset, .dropped)
  else if p.payload.length ≠ s.startLen ∧ ¬ (p.hdr.eom ∧ p.payload.length < s.startLen) then .inl (s.reset, .dropped)
  else .inr s

/-- `cmd_interface_msg_add_payload_data`, cmd_interface.c:51-61, on the request buffer, which has room for `maxBody` bytes. -/
def addPayload (data payload : Bytes) : R Bytes :=
  if data.length + payload.length ≤ maxBody then .ok (data ++ payload) else .oob

/-- `mctp_interface_process_packet`, mctp_interface.c:728-884, up to the call of the request handler; see `respond` for what happens
after it. -/
def processPacket (env : Env) (s : St) (buf : Bytes) (dstAddr : UInt8) : R (St × Event) := do
  match interpret buf dstAddr with
  | .oob => .oob
  | .err _ => return (s, .dropped)
  | .ok p =>
    match accept env s p with
    | .inl r => return r
    | .inr s =>
      if p.payload.length + s.data.length > maxBody then return (s.reset, .dropped)
      else
        let data ← addPayload s.data p.payload
        let s := { s with data := data, seq := (s.seq + 1) % 4 }
        if p.hdr.eom then
          if p.hdr.owner = 0 then handleResponse s
          else return (s.reset, .request { srcEid := s.srcEid, srcAddr := s.srcAddr, dstEid := s.dstEid, tag := s.tag, data := s.data })
        else return (s, .accepted)

/-- `mctp_interface_handle_request_message`, mctp_interface.c:460-478: packetize the response `rsp` left by the request handler in
the request buffer at the end of the message buffer into packets at the start of the same buffer. `junk` is the previous content of the
buffer before the request buffer. -/
def respond (mtu : Nat) (req : Req) (rxDstAddr : UInt8) (junk rsp rest : Bytes) : R (Nat × Nat × Bytes) :=
  genPackets mtu (junk ++ rsp ++ rest) (maxMessageLen - maxBody) rsp.length 0 maxMessageLen req.srcEid req.srcAddr req.dstEid
    rxDstAddr req.tag 0

/-- `device_manager_get_max_transmission_unit`, device_manager.c:897-913: the packet size used with a known device that reported
`remote` (16 bits, stored as received by `device_manager_update_device_capabilities_request`, device_manager.c:657-676). `own` is the
local packet size, `MCTP_BASE_PROTOCOL_MAX_TRANSMISSION_UNIT` (device_manager.c:137). -/
def maxTransmissionUnit (own remote : Nat) : Nat := min own (if remote = 0 then 64 else remote)

end Verif.Mctp
