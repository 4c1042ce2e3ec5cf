import Verif.Common.Bytes
/-!
What is expected of the discovery of devices behind an MCTP bridge, independent of the code.
-/
namespace Verif.Discovery.Spec
open Verif

/-- An entry of a routing table: consecutive EIDs from `start` on. -/
structure Range where
  start : UInt8
  size : UInt8
deriving DecidableEq, Repr

/-- A part of the routing table; `next` is the handle of the next part, 0xFF at the end. -/
structure Page where
  next : UInt8
  ranges : List Range
deriving DecidableEq, Repr

/-- The EIDs of an entry. -/
def eids (r : Range) : List UInt8 := (List.range r.size.toNat).map fun i => r.start + UInt8.ofNat i

/-- A bridge with the routing table `pages`, read from the part with handle `h` on. -/
inductive Table (bridge : UInt8 → Option Page) : UInt8 → List Page → Prop
  | done : Table bridge 0xff []
  | more {h p ps} : h ≠ 0xff → bridge h = some p → Table bridge p.next ps → Table bridge h (p :: ps)

/-- All EIDs of a routing table. -/
def listed (ps : List Page) : List UInt8 := ps.flatMap fun p => p.ranges.flatMap eids

end Verif.Discovery.Spec
