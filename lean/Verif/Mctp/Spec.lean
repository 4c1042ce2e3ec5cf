import Verif.Mctp.Packet
/-! What it means to split a message into packets and to assemble it again. -/
namespace Verif.Mctp

/-- The packets of a message: payloads of `mtu` bytes, the last one possibly shorter; SOM in the first, EOM in the last; sequence
numbers counting modulo 4. -/
def fragment (mtu : Nat) (h : Hdr) (a : UInt8) (msg : Bytes) : List Bytes :=
  if hm : msg = [] ∨ mtu = 0 then []
  else
    packet { h with eom := decide (msg.length ≤ mtu) } (msg.take mtu) a ::
      fragment mtu { h with som := false, seq := (h.seq + 1) % 4 } a (msg.drop mtu)
termination_by msg.length
decreasing_by
  have : msg.length ≠ 0 := fun e => hm (.inl (List.eq_nil_of_length_eq_zero e))
  simp; omega

/-- Operations the receive state is subject to. The requester's part is atomic here; see `Race` for its interleavings. -/
inductive Op
  | rx (buf : Bytes) (dstAddr : UInt8)
  | send (tag type : Nat) (max : Option Nat)   -- a request was sent; `max` is the size of the response buffer, if one is waited for
  | finish                                     -- the requester is done or gave up

/-- One operation: mctp_interface.c:728-884, 240-262, 283-301. -/
def step (env : Env) (s : St) : Op → R (St × Event)
  | .rx buf a => processPacket env s buf a
  | .send tag type max =>
    .ok ({ s with rsp := if max.isSome then .waiting else .pending, rspTag := tag, rspType := type, rspMax := max }, .ignored)
  | .finish => .ok ({ s with rsp := .idle, rspMax := none }, .ignored)

/-- A sequence of operations; the events in order. -/
def run (env : Env) (s : St) : List Op → R (St × List Event)
  | [] => .ok (s, [])
  | op :: ops => do
    let (s, e) ← step env s op
    let (s, es) ← run env s ops
    return (s, e :: es)

/-- The packets among the operations that parse. -/
def parsed : List Op → List Pkt
  | [] => []
  | .rx buf a :: ops => (match interpret buf a with | .ok p => [p] | _ => []) ++ parsed ops
  | _ :: ops => parsed ops

/-- The payloads of a list of packets. -/
def payloads (ps : List Pkt) : Bytes := ps.flatMap Pkt.payload

/-- Packets that start a message: one SOM packet followed by packets of the same sender, tag and tag owner with consecutive sequence
numbers, all of the size of the first. -/
structure Chain (first : Pkt) (rest : List Pkt) : Prop where
  som : first.hdr.som = true
  noSom : ∀ p ∈ rest, p.hdr.som = false
  same : ∀ p ∈ rest, p.hdr.srcEid = first.hdr.srcEid ∧ p.hdr.tag = first.hdr.tag ∧ p.hdr.owner = first.hdr.owner
  seqs : ∀ i (h : i < rest.length), rest[i].hdr.seq = (first.hdr.seq + i + 1) % 4

/-- Packets that make up one complete message. -/
structure Message (ps : List Pkt) : Prop where
  chain : ∃ first rest, ps = first :: rest ∧ Chain first rest ∧
    (∀ p ∈ ps.dropLast, p.hdr.eom = false ∧ p.payload.length = first.payload.length) ∧
    ∀ p ∈ ps, p.payload.length ≤ first.payload.length
  eom : ∀ p, ps.getLast? = some p → p.hdr.eom = true
  size : (payloads ps).length ≤ maxBody

/-- What has been delivered came, complete and in order, from packets received up to then. -/
def Delivered (env : Env) (hist : List Op) : Event → Prop
  | .request r => ∃ first rest, (first :: rest).Sublist (parsed hist) ∧ Message (first :: rest) ∧ r.data = payloads (first :: rest) ∧
      r.srcEid = first.hdr.srcEid ∧ r.tag = first.hdr.tag ∧ first.hdr.owner ≠ 0 ∧ env.supported first.msgType = true ∧
      (first.hdr.dstEid = env.selfEid ∨ first.hdr.dstEid = 0)
  | .response d => ∃ first rest, (first :: rest).Sublist (parsed hist) ∧ Message (first :: rest) ∧ d = payloads (first :: rest) ∧
      first.hdr.owner = 0 ∧ (first.hdr.dstEid = env.selfEid ∨ first.hdr.dstEid = 0)
  | _ => True

end Verif.Mctp
