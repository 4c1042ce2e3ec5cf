import Verif.Discovery.Spec
/-!
MCTP control messages (DSP0236) as this endpoint uses them, independent of the code.
-/
namespace Verif.MctpCtl.Spec
open Verif

/-- The requests of a bus owner. -/
inductive Req where
  /-- Set Endpoint ID; `force` overrides an EID that is in use. -/
  | setEid (force : Bool) (eid : UInt8)
  | getEid
  /-- Get MCTP Version Support for a message type. -/
  | version (type : UInt8)
  | types
  /-- Get Vendor Defined Message Support for the vendor ID set `sel`. -/
  | vendor (sel : UInt8)
deriving DecidableEq, Repr

/-- Command code. -/
def Req.cmd : Req → UInt8
  | .setEid .. => 1 | .getEid => 2 | .version _ => 4 | .types => 5 | .vendor _ => 6

/-- Parameters of the request. -/
def Req.body : Req → Bytes
  | .setEid force eid => [if force then 1 else 0, eid]
  | .getEid => []
  | .version t => [t]
  | .types => []
  | .vendor s => [s]

/-- The request with an instance ID (0 to 31): the first byte has the request bit. -/
def Req.bytes (inst : UInt8) (r : Req) : Bytes := [0x80 + inst, r.cmd] ++ r.body

/-- Requests that can be met: EIDs other than 0 and 0xFF, known message types, vendor ID set 0. -/
def Req.good : Req → Bool
  | .setEid _ e => e ≠ 0 && e ≠ 0xff
  | .version t => t = 0 || t = 0x7e || t = 5 || t = 0xff
  | .vendor s => s = 0
  | _ => true

/-- The completion code for the others: 2 (invalid data), 0x80 (message type not supported). -/
def Req.refusal : Req → UInt8
  | .version _ => 0x80
  | _ => 2

/-- Parameters of the response, for an endpoint with EID `own`, PCI vendor ID `vid` and protocol version `ver`. A version is four bytes, the first one for an alpha version. MCTP control is
1.1.0, the Cerberus protocol 4.0, SPDM 1.2, the base protocol 1.1.0. -/
def Req.answer (own : UInt8) (vid ver : Nat) : Req → Bytes
  | .setEid _ e => [0, e, 0]
  | .getEid => [own, 1, 0]
  | .version t =>
    if t = 0x7e then [1, 0, 0xff, 0xf0, 0xf4]
    else if t = 5 then [1, 0, 0xff, 0xf2, 0xf1]
    else [1, 0, 0xf0, 0xf1, 0xf1]
  | .types => [3, 0, 0x7e, 5]
  | .vendor _ => [0xff, 0] ++ toBE 2 vid ++ toBE 2 ver

/-- A response: instance ID, command, completion code, parameters. -/
def response (inst cmd code : UInt8) (params : Bytes) : Bytes := [inst, cmd, code] ++ params

/-- A routing table entry on the wire: size and first EID of the range, then port, binding, media, address size and address. -/
structure Entry where
  range : Discovery.Spec.Range
  rest : Bytes
deriving DecidableEq

/-- A response to Get Routing Table Entries. -/
def routing (inst next : UInt8) (es : List Entry) : Bytes :=
  response inst 0x0a 0 ([next, UInt8.ofNat es.length] ++ es.flatMap fun e => [e.range.size, e.range.start] ++ e.rest)

end Verif.MctpCtl.Spec
