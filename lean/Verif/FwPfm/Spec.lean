import Verif.HostFw.Spec
import Verif.Pcr.Model
/-!
What it means that device firmware is described by a PFM, and that a measurement is recorded in a PCR.
-/
namespace Verif.FwPfm
open Verif

/-- The contents of a PFM, as its functions report them. -/
structure Pfm where
  id : UInt32
  platform : Bytes
  /-- digest of the manifest -/
  digest : Bytes
  empty : Bool
  /-- number of firmware components -/
  firmware : Nat
  /-- the supported versions of the first component -/
  versions : List Bytes
  /-- the images of a version -/
  images : Bytes → HostFw.ImageList

/-- Number of images. -/
def count : HostFw.ImageList → Nat
  | .sig l => l.length
  | .hash l => l.length

namespace Spec

/-- The firmware on the flash is the one the PFM describes: it has at most one component with exactly
one version, and the images that are to be checked are authentic. `v` is the version. -/
def Describes (eg : HostFw.Engine) (p : Pfm) (m : Flash.Mem) (v : Bytes) : Prop :=
  p.empty = false ∧ p.firmware ≤ 1 ∧ p.versions = [v] ∧ count (p.images v) ≠ 0 ∧ (p.images v).BootAuthentic eg m 0

/-- The last thing recorded for a measurement is `data`: its digest is the one of the event type, the
version 0 and the data, so that the log entry made of them replays to the PCR. -/
def Recorded (H : Pcr.Hash) (store : List Pcr.Bank) (type : Nat) (data : Bytes) : Prop :=
  ∃ b m, store[type / 256 % 256]? = some b ∧ b.list[type % 256]? = some m ∧
    m.digest = H (.sha2 b.algo) (toLE 4 m.event ++ 0 :: data) ∧ m.isEvent = true ∧ m.isVersion = true ∧ m.version = 0

/-- A C string of at most `n - 1` characters with its terminator. -/
def cstring (n : Nat) (s : Bytes) : Bytes := s.take (n - 1) ++ [0]

/-- The data of the measurements if the firmware is good. -/
def idData (p : Option Pfm) : Bytes := match p with | some p => 1 :: toLE 4 p.id.toNat | none => [0, 0, 0, 0, 0]
/-- The digest of the PFM, or zeros. -/
def digestData (p : Option Pfm) : Bytes := match p with | some p => p.digest | none => List.replicate 32 0
/-- The platform of the PFM, or the empty string. -/
def platformData (p : Option Pfm) : Bytes := match p with | some p => p.platform ++ [0] | none => [0]

end Spec
end Verif.FwPfm
