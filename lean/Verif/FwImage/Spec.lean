import Verif.FwImage.Model
/-! What images of firmware are. -/
namespace Verif.FwImage
open Verif.Flash (Mem)

/-- The bytes `d` were seen in flash at `a` between the calls number `lo` and `hi` (each byte at some time). -/
def Seen (env : Env) (lo hi a : Nat) (d : Bytes) : Prop :=
  ∀ i, i < d.length → ∃ k, lo ≤ k ∧ k < hi ∧ d.getD i 0 = env.mem k (a + i)

/-- The first eight bytes of a header: total length, format and marker, little endian. -/
def totalLength (h : Hdr) : Nat := leNat (h.info.take 2)
def formatOf (h : Hdr) : Nat := leNat ((h.info.drop 2).take 2)
def markerOf (h : Hdr) : Nat := leNat (h.info.drop 4)

/-- The header of a component: length of the image and of the signature; from format 1 on also hash algorithm, address and version. -/
structure CompHdr (h : Hdr) (marker : Nat) : Prop where
  info : h.info.length = 8
  marker : markerOf h = marker
  data : h.data.length + 8 = totalLength h
  format0 : formatOf h = 0 → totalLength h = 14
  format1 : formatOf h = 1 → totalLength h = 31
  others : 2 ≤ formatOf h → 31 ≤ totalLength h
  max : totalLength h ≤ 1024

/-- The fields of the header of a component. -/
def imageLenOf (h : Hdr) : Nat := leNat (h.data.take 4)
def sigLenOf (h : Hdr) : Nat := leNat ((h.data.drop 4).take 2)
def hashTypeOf (h : Hdr) : Nat := if formatOf h = 0 then 1 else leNat ((h.data.drop 6).take 1)
def loadAddrOf (h : Hdr) : Nat := if formatOf h = 0 then 0 else leNat ((h.data.drop 7).take 8)
def versionOf (h : Hdr) : Option Bytes := if formatOf h = 0 then none else some ((h.data.drop 15).take 8)

/-- The hash algorithms with the lengths of their digests. -/
def digestLen : Nat → Option Nat
  | 0 => some 20
  | 1 => some 32
  | 2 => some 48
  | 3 => some 64
  | _ => none

/-- The fields of the header of a firmware image by format. -/
structure FwHdr (h : Hdr) : Prop where
  info : h.info.length = 8
  marker : markerOf h = 0x43494d47
  data : h.data.length + 8 = totalLength h
  format0 : formatOf h = 0 → h.data.length = 2
  format1 : formatOf h = 1 → h.data.length = 3
  format2 : formatOf h = 2 → h.data.length = 5
  format3 : formatOf h = 3 → h.data.length = 11
  others : 4 ≤ formatOf h → 11 ≤ h.data.length

/-- A flash that does not change and an environment without failures. -/
structure Calm (env : Env) (m : Mem) : Prop where
  mem : ∀ k, env.mem k = m
  fault : ∀ k, env.fault k = false

/-- The signature is good: there is one, it is not too long and it fits the digest. -/
def Signed (env : Env) (t : Nat) (msg sig : Bytes) : Prop :=
  sig.length ≠ 0 ∧ sig.length ≤ env.maxSig ∧ env.sigOk (env.digest t msg) sig = true

/-- What is signed in front of a component at `a`: the header that was given, or `n` bytes that were seen on flash. -/
def InFront (env : Env) (lo hi a n : Nat) (header : Option Hdr) (pre : Bytes) : Prop :=
  match header with
  | some h => pre = h.info ++ h.data
  | none => pre.length = n ∧ Seen env lo hi a pre

/-- The version of the component is the one wanted, if one is wanted. -/
def VersionOk (h : Hdr) (expected : Option Bytes) : Prop := ∀ v, expected = some v → versionOf h = some v

/-- The hash algorithm of the component is known and there is room for its digest. -/
def HashOk (h : Hdr) (room : Option Nat) : Prop := ∃ n, digestLen (hashTypeOf h) = some n ∧ ∀ l, room = some l → n ≤ l

/-- Engine and heap are as before: no hash is left active, no memory is lost. -/
def Released (s t : St) : Prop := t.hash = none ∧ t.live = s.live

end Verif.FwImage
