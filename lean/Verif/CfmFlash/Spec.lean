import Verif.Common.Bytes
/-!
What a CFM (component firmware manifest) says, and its elements, independent of the code that reads them.
-/
namespace Verif.CfmFlash.Spec
open Verif

/-- An element of a manifest: type, type of its parent (0xFF for none), contents. -/
structure Elem where
  ty : UInt8
  parent : UInt8
  data : Bytes
deriving DecidableEq, Repr

/-- Length of a digest; 0: SHA-256, 1: SHA-384, 2: SHA-512. -/
def digestLen : Nat → Nat
  | 0 => 32
  | 1 => 48
  | _ => 64

/-- Digests allowed for a version set, with a hash other than the one of the component if `hash` says so. -/
structure Digests where
  version : Nat
  hash : Option Nat
  digests : List Bytes
deriving DecidableEq, Repr

/-- A check of data: comparison, byte order, mask, and the allowed values with their version sets. -/
structure Check where
  op : Nat
  bigEndian : Bool
  mask : Bytes
  values : List (Nat × Bytes)
deriving DecidableEq, Repr

/-- A check of manifest identifiers. -/
structure IdCheck where
  op : Nat
  bigEndian : Bool
  ids : List Nat
deriving DecidableEq, Repr

/-- What a component of a CFM has. `manifest ty`: an allowed PFM (0x76), CFM (0x77) or PCD (0x78). -/
inductive Child where
  | pmr (id : UInt8) (value : Bytes)
  | pmrDigest (id : UInt8) (digests : List Bytes)
  | rootCa (digests : List Bytes)
  | digest (pmr id : UInt8) (sets : List Digests)
  | data (pmr id : UInt8) (checks : List Check)
  | aggregated (mask : Bytes) (pmr : UInt8) (hash : Nat) (sets : List Digests)
  | manifest (ty index : UInt8) (platform : Bytes) (checks : List IdCheck)
deriving DecidableEq

/-- A component. `transcript` and `hash` are hash types as in `digestLen`. -/
structure Comp where
  slot : UInt8
  protocol : UInt8
  transcript : Nat
  hash : Nat
  id : Nat
  children : List Child
deriving DecidableEq

/-! ### The elements -/

/-- Zeros up to a multiple of four. -/
def pad (n : Nat) : Bytes := List.replicate ((4 - n % 4) % 4) 0

def Digests.bytes (d : Digests) : Bytes :=
  toLE 2 d.version ++ [UInt8.ofNat d.digests.length, match d.hash with | none => 0 | some h => UInt8.ofNat (1 + 2 * h)] ++ d.digests.flatten

/-- Comparison in the low three bits, byte order in the highest. -/
def checkByte (op : Nat) (big : Bool) : UInt8 := UInt8.ofNat (op + if big then 128 else 0)

def valueBytes (v : Nat × Bytes) : Bytes := toLE 2 v.1 ++ toLE 2 v.2.length ++ v.2 ++ pad v.2.length

def Check.bytes (c : Check) : Bytes :=
  [checkByte c.op c.bigEndian, UInt8.ofNat c.values.length] ++ toLE 2 c.mask.length ++ (c.mask ++ pad c.mask.length) ++ c.values.flatMap valueBytes

def IdCheck.bytes (c : IdCheck) : Bytes :=
  [checkByte c.op c.bigEndian, UInt8.ofNat c.ids.length, 0, 0] ++ c.ids.flatMap (if c.bigEndian then toBE 4 else toLE 4)

/-- Type of the element of a child. -/
def Child.ty : Child → UInt8
  | .pmr .. => 0x71
  | .pmrDigest .. => 0x72
  | .rootCa _ => 0x7a
  | .digest .. => 0x73
  | .data .. => 0x74
  | .aggregated .. => 0x7b
  | .manifest t .. => t

/-- Contents of the element of a child. -/
def Child.bytes : Child → Bytes
  | .pmr i v => [i, 0, 0, 0] ++ v
  | .pmrDigest i ds => [i, UInt8.ofNat ds.length, 0, 0] ++ ds.flatten
  | .rootCa ds => [UInt8.ofNat ds.length, 0, 0, 0] ++ ds.flatten
  | .digest p i ss => [p, i, UInt8.ofNat ss.length, 0] ++ ss.flatMap Digests.bytes
  | .data p i _ => [p, i, 0, 0]
  | .aggregated m p h ss => m ++ [p, UInt8.ofNat h, UInt8.ofNat ss.length, 0] ++ ss.flatMap Digests.bytes
  | .manifest _ i n _ => [i, UInt8.ofNat n.length] ++ n ++ pad (2 + n.length)

/-- Elements below the one of a child. -/
def Child.below : Child → List Elem
  | .data _ _ cs => cs.map fun c => ⟨0x75, 0x74, c.bytes⟩
  | .manifest t _ _ cs => cs.map fun c => ⟨0x79, t, c.bytes⟩
  | _ => []

def Child.elems (c : Child) : List Elem := ⟨c.ty, 0x70, c.bytes⟩ :: c.below

def Comp.bytes (c : Comp) : Bytes := [c.slot, c.protocol, UInt8.ofNat (c.transcript + 8 * c.hash), 0] ++ toLE 4 c.id

def Comp.elem (c : Comp) : Elem := ⟨0x70, 0xff, c.bytes⟩

def Comp.elems (c : Comp) : List Elem := c.elem :: c.children.flatMap Child.elems

/-! ### Well-formed components -/

def Digests.ok (dflt : Nat) (d : Digests) : Prop :=
  d.version < 65536 ∧ d.digests ≠ [] ∧ d.digests.length < 256 ∧ (∀ h, d.hash = some h → h ≤ 2) ∧ ∀ x ∈ d.digests, x.length = digestLen (d.hash.getD dflt)

def Check.ok (c : Check) : Prop :=
  c.op < 8 ∧ c.mask.length < 65536 ∧ c.values ≠ [] ∧ c.values.length < 256 ∧ ∀ v ∈ c.values, v.1 < 65536 ∧ v.2.length < 65536 ∧ v.2 ≠ []

def IdCheck.ok (c : IdCheck) : Prop := c.op < 8 ∧ c.ids ≠ [] ∧ c.ids.length < 256 ∧ ∀ i ∈ c.ids, i < 2 ^ 32

/-- Lists are not empty and sizes fit their fields; digests have the length of the hash. -/
def Child.ok (dflt : Nat) : Child → Prop
  | .pmr _ v => v.length = 64
  | .pmrDigest _ ds => ds ≠ [] ∧ ds.length < 256 ∧ ∀ x ∈ ds, x.length = digestLen dflt
  | .rootCa ds => ds ≠ [] ∧ ds.length < 256 ∧ ∀ x ∈ ds, x.length = digestLen dflt
  | .digest _ _ ss => ss ≠ [] ∧ ss.length < 256 ∧ ∀ s ∈ ss, s.ok dflt
  | .data _ _ cs => cs ≠ [] ∧ ∀ c ∈ cs, c.ok
  | .aggregated m _ h ss => m.length = 32 ∧ h ≤ 2 ∧ ss ≠ [] ∧ ss.length < 256 ∧ ∀ s ∈ ss, s.hash = none ∧ s.ok h
  | .manifest t _ n cs => (t = 0x76 ∨ t = 0x77 ∨ t = 0x78) ∧ n.length < 256 ∧ 0 ∉ n ∧ cs ≠ [] ∧ ∀ c ∈ cs, c.ok

def Comp.ok (c : Comp) : Prop := c.transcript ≤ 2 ∧ c.hash ≤ 2 ∧ c.id < 2 ^ 32 ∧ ∀ x ∈ c.children, x.ok c.hash

/-- What may follow a component: other elements without parent, then another component or nothing. -/
def Behind (post : List Elem) : Prop :=
  ∃ tops rest, post = tops ++ rest ∧ (∀ e ∈ tops, e.parent = 0xff) ∧ (rest = [] ∨ ∃ d r, rest = ⟨0x70, 0xff, d⟩ :: r)

/-- The elements are those of a manifest with the component: the components before it are well-formed and have other IDs. -/
def Has (es : List Elem) (c : Comp) : Prop :=
  ∃ pre post, es = pre ++ c.elems ++ post ∧ (∀ e ∈ pre, e.ty = 0x70 → ∃ c' : Comp, c'.ok ∧ c'.id ≠ c.id ∧ e = c'.elem) ∧ Behind post

/-! ### What is asked for -/

/-- IDs of the PMRs for which there are digests. -/
def pmrIds (cs : List Child) : List UInt8 := cs.filterMap fun c => match c with | .pmrDigest i _ => some i | _ => none

/-- Initial value of a PMR. -/
def pmrValue (pmr : UInt8) (cs : List Child) : Option Bytes := cs.findSome? fun c => match c with | .pmr i v => if i = pmr then some v else none | _ => none

/-- Digests allowed for a PMR. -/
def pmrDigests (pmr : UInt8) (cs : List Child) : Option (List Bytes) :=
  cs.findSome? fun c => match c with | .pmrDigest i ds => if i = pmr then some ds else none | _ => none

/-- Digests of the root CAs. -/
def rootCas (cs : List Child) : Option (List Bytes) := cs.findSome? fun c => match c with | .rootCa ds => some ds | _ => none

/-- Allowed manifests of a kind: index, platform and checks of the identifier. -/
def manifestsOf (ty : UInt8) (cs : List Child) : List (UInt8 × Bytes × List IdCheck) :=
  cs.filterMap fun c => match c with | .manifest t i n ks => if t = ty then some (i, n, ks) else none | _ => none

/-- A measurement of some kind. -/
def Child.isMeasurement : Child → Bool
  | .digest .. | .data .. | .aggregated .. => true
  | _ => false

/-- Measurements of a kind follow each other: between two of the same kind there is none of another kind. -/
def Grouped (ms : List Child) : Prop :=
  ∀ a x b y c, ms = a ++ x :: b ++ y :: c → x.ty = y.ty → ∀ z ∈ b, z.ty = x.ty

end Verif.CfmFlash.Spec
