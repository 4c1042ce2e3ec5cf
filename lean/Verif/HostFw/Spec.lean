import Verif.HostFw.Model
/-! Vocabulary for the statements about host firmware: which addresses regions cover, what it means that an image is authentic. -/
namespace Verif.HostFw
open Verif.Flash

/-- Address `a` is in the region. -/
def Region.has (r : Region) (a : Nat) : Prop := r.start ≤ a ∧ a < r.start + r.len

/-- Address `a` is in one of the regions. -/
def Covered (rs : List Region) (a : Nat) : Prop := ∃ r ∈ rs, r.has a

/-- The region fits the C types. -/
def Region.Fits (r : Region) : Prop := r.start < 2 ^ 32 ∧ r.len < 2 ^ 32

/-- The region is not empty and ends before the end of the 32-bit address space. -/
def Region.Proper (r : Region) : Prop := 0 < r.len ∧ r.start + r.len < 2 ^ 32

/-- Two regions have no address in common. -/
def Region.Apart (r q : Region) : Prop := r.start + r.len ≤ q.start ∨ q.start + q.len ≤ r.start

/-- Proper regions, no two of which have an address in common. -/
def Disjoint (rs : List Region) : Prop := (∀ r ∈ rs, r.Proper) ∧ rs.Pairwise Region.Apart

/-- The content of the regions, each moved by `off`, one after the other. -/
def content (m : Mem) (off : Nat) (rs : List Region) : Bytes := (rs.map (fun r => bytesAt m (r.start + off) r.len)).flatten

/-- A signed image is authentic: its signature is good for the digest of its regions. -/
def SigImage.Authentic (eg : Engine) (m : Mem) (off : Nat) (i : SigImage) : Prop :=
  ∃ d, eg.digest sha256 (content m off i.regions) = some d ∧ eg.verify i.key (i.signature.take i.sigLen) d = true

/-- An image with a hash is authentic: the hash is the digest of its regions. -/
def HashImage.Authentic (eg : Engine) (m : Mem) (off : Nat) (i : HashImage) : Prop :=
  eg.digest i.hashType (content m off i.regions) = some (i.hash.take i.hashLen)

/-- The regions of the image lie in the address space, also when they are moved by `off`. -/
def RegionsFit (off : Nat) (rs : List Region) : Prop := ∀ r ∈ rs, r.start + off + r.len ≤ 2 ^ 32 ∧ r.start + off < 2 ^ 32

/-- A list from a well-formed manifest: regions in the address space, hashes as long as the digests of their type. -/
def ImageList.Good (eg : Engine) (off : Nat) : ImageList → Prop
  | .sig l => ∀ i ∈ l, RegionsFit off i.regions
  | .hash l => ∀ i ∈ l, RegionsFit off i.regions ∧ ∀ x d, eg.digest i.hashType x = some d → d.length = i.hashLen

/-- Every image in the list is authentic. -/
def ImageList.AllAuthentic (eg : Engine) (m : Mem) (off : Nat) : ImageList → Prop
  | .sig l => ∀ i ∈ l, i.Authentic eg m off
  | .hash l => ∀ i ∈ l, i.Authentic eg m off

/-- Every image in the list that must be validated at each boot is authentic. -/
def ImageList.BootAuthentic (eg : Engine) (m : Mem) (off : Nat) : ImageList → Prop
  | .sig l => ∀ i ∈ l, i.always ≠ 0 → i.Authentic eg m off
  | .hash l => ∀ i ∈ l, i.always ≠ 0 → i.Authentic eg m off

/-- The regions of every image of every firmware. -/
def imageRegions (fws : List ImageList) : List Region := (fws.flatMap (·.regions)).flatten

/-- The version's identifier is on the flash, at its address (plus `off`). -/
def Version.On (m : Mem) (off : Nat) (v : Version) : Prop := ∀ i, i < v.id.length → m (v.addr + off + i) = v.id.getD i 0

/-- The addresses that the host can write. -/
def Filter.Allows (f : Filter) (a : Nat) : Prop := ∃ id s e, f.rw id = some (s, e) ∧ s ≤ a ∧ a < e

/-- Two images are the same for everything that is checked of them. -/
def SigImage.Same (a b : SigImage) : Prop :=
  a.key.exponent = b.key.exponent ∧ a.key.modulus.take a.key.modLen = b.key.modulus.take b.key.modLen ∧ a.key.modLen = b.key.modLen ∧
  a.sigLen = b.sigLen ∧ a.signature.take a.sigLen = b.signature.take b.sigLen ∧ a.always = b.always ∧
  ∀ r, r ∈ a.regions ↔ r ∈ b.regions

/-- The same for images with a hash. -/
def HashImage.Same (a b : HashImage) : Prop :=
  a.hashType = b.hashType ∧ a.hashLen = b.hashLen ∧ a.hash.take a.hashLen = b.hash.take b.hashLen ∧ a.always = b.always ∧
  ∀ r, r ∈ a.regions ↔ r ∈ b.regions

/-- The lists have the same length and pairs of elements at the same position are related. -/
def Matching (R : α → α → Prop) : List α → List α → Prop
  | [], [] => True
  | a :: as, b :: bs => R a b ∧ Matching R as bs
  | _, _ => False

/-- No call of the flash driver fails. -/
def Dev.Sound (dv : Dev) : Prop := ∀ n, dv.out n = .ok

/-- The sizes of the device are not zero. -/
def Dev.Sized (dv : Dev) : Prop := 0 < dv.block ∧ 0 < dv.sector ∧ 0 < dv.page

/-- The hash engine does not fail. -/
def Engine.Sound (eg : Engine) : Prop := ∀ n, eg.fail n = false

/-- The image names regions, and a signature. -/
def ImageList.Complete : ImageList → Prop
  | .sig l => ∀ i ∈ l, i.regions ≠ [] ∧ i.sigLen ≠ 0
  | .hash l => ∀ i ∈ l, i.regions ≠ []

/-- The erase block of `i` holds an address outside of the regions. -/
def RoBlock (block : Nat) (rw : List Region) (size i : Nat) : Prop := ∃ j, j < size ∧ ¬ Covered rw j ∧ i / block = j / block

/-- The region consists of whole erase blocks. -/
def Region.Aligned (block : Nat) (r : Region) : Prop := r.start % block = 0 ∧ r.len % block = 0

end Verif.HostFw
