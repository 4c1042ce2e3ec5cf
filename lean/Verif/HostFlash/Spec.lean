import Verif.HostFlash.Model
import Verif.HostFw.Spec
/-! What it means that host flash is valid. -/
namespace Verif.HostFlash
open Verif.Flash Verif.HostFw

/-- `x` is what the PFM has for the firmware `id` on the flash: a version that the PFM supports and whose identifier is on the flash, with its images and
its read/write regions. -/
structure Entry.Of (p : Pfm) (m : Mem) (off : Nat) (id : Bytes) (x : Entry) : Prop where
  version : ∃ vs, p.versions id = some vs ∧ x.version ∈ vs
  on : x.version.On m off
  images : p.images id x.version.id = some x.images

/-- The read/write regions in `x` are those of the PFM for that version of the firmware. -/
def Entry.Regions (p : Pfm) (id : Bytes) (x : Entry) : Prop := p.rw id x.version.id = some x.rw

/-- There is one entry for each firmware of the PFM, in the order of the PFM, and each is related to its firmware. -/
def Each (R : Bytes → Entry → Prop) : List Bytes → List Entry → Prop
  | [], [] => True
  | id :: ids, x :: xs => R id x ∧ Each R ids xs
  | _, _ => False

/-- The addresses and lengths in the PFM fit the C types, and its hashes have the length of their type. -/
structure Pfm.WellFormed (eg : Engine) (off : Nat) (p : Pfm) : Prop where
  versions : ∀ id vs, p.versions id = some vs → ∀ v ∈ vs, v.addr + off + v.id.length ≤ 2 ^ 32 ∧ v.addr + off < 2 ^ 32
  images : ∀ id v l, p.images id v = some l → l.Good eg off ∧ ∀ r ∈ l.regions.flatten, r.Fits
  rw : ∀ id v l, p.rw id v = some l → ∀ r ∈ l, r.Fits

/-- Address `a` belongs to an image or a read/write region of one of the entries. -/
def Used (xs : List Entry) (a : Nat) : Prop := ∃ x ∈ xs, Covered x.images.regions.flatten a ∨ Covered x.rw a

/-- Nothing is allocated, and nothing was freed twice. -/
def Clean (s : St) : Prop := (∀ o, s.live o = false) ∧ s.bad = false

/-- Only the list of read/write regions with `n` entries is allocated, if it was asked for, and nothing was freed twice. -/
def HoldsRw (wantRw : Bool) (n : Nat) (s : St) : Prop :=
  (∀ o, s.live o = true ↔ wantRw = true ∧ (o = .rwArray ∨ ∃ i, i < n ∧ o = .rw i)) ∧ s.bad = false

/-- An image that must be checked at each boot is the same as one of `l` that is authentic, up to the order of its regions. -/
def ImageList.BootKnown (eg : Engine) (m : Mem) (l : ImageList) : ImageList → Prop
  | .sig k => ∀ i ∈ k, i.always ≠ 0 → ∃ g, l = .sig g ∧ ∃ j ∈ g, i.Same j ∧ j.Authentic eg m 0
  | .hash k => ∀ i ∈ k, i.always ≠ 0 → ∃ g, l = .hash g ∧ ∃ j ∈ g, i.Same j ∧ j.Authentic eg m 0

/-- The lists can be compared (`sig_images_different_exact_partial` of `Verif.HostFw`): all signatures or hashes have the same length, and the regions of an
image do not overlap. -/
def ImageList.Comparable (fuel : Nat) : ImageList → Prop
  | .sig l => (∃ n, ∀ i ∈ l, i.sigLen = n) ∧ ∀ i ∈ l, Disjoint i.regions ∧ i.regions.length < fuel
  | .hash l => (∃ n, ∀ i ∈ l, i.hashLen = n) ∧ ∀ i ∈ l, Disjoint i.regions ∧ i.regions.length < fuel

end Verif.HostFlash
