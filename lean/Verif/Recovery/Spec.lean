import Verif.Recovery.Model
/-! What a recovery image is, stated over the contents of the flash it is in. -/
namespace Verif.Recovery
open Flash (Mem bytesAt)

/-- The little-endian numbers at an address. -/
def u16At (m : Mem) (a : Nat) : Nat := leNat (bytesAt m a 2)
def u32At (m : Mem) (a : Nat) : Nat := leNat (bytesAt m a 4)

/-- A recovery image header is at `a`: header length, image length and signature length, and for format 0 a version and a platform identifier which are terminated strings that fit. -/
structure IsHeader (m : Mem) (a hlen imgLen sigLen : Nat) : Prop where
  marker : u32At m (a + 4) = 0x8a147c29
  lenAt : u16At m a = hlen
  range : 49 ≤ hlen ∧ hlen ≤ 1024
  imgAt : u32At m (a + 40) = imgLen
  sigAt : u32At m (a + 44) = sigLen
  fields : u16At m (a + 2) = 0 →
    (∃ v, v ≠ [] ∧ 0 ∉ v ∧ v.length < 32 ∧ bytesAt m (a + 8) (v.length + 1) = v ++ [0]) ∧
    ∃ p, 0 ∉ p ∧ hlen = 50 + p.length ∧ (m (a + 48)).toNat = p.length + 1 ∧ bytesAt m (a + 49) (p.length + 1) = p ++ [0]

/-- A section header is at `a`. -/
structure IsSection (m : Mem) (a : Nat) (s : Sec) : Prop where
  marker : u32At m (a + 4) = 0x4b172f31
  hlen : u16At m a = s.hlen
  range : 16 ≤ s.hlen ∧ s.hlen ≤ 1024
  fmt : u16At m (a + 2) = 0 → s.hlen = 16
  host : u32At m (a + 8) = s.host
  len : u32At m (a + 12) = s.len

/-- The sections `l` (each with its address) follow each other from `a` to exactly `e`. -/
inductive Tiled (m : Mem) : Nat → Nat → List (Nat × Sec) → Prop
  | nil (a : Nat) : Tiled m a a []
  | cons (a e : Nat) (s : Sec) (l : List (Nat × Sec)) : IsSection m a s → Tiled m (a + s.hlen + s.len) e l → Tiled m a e ((a, s) :: l)

/-- A section of at most 1 GiB that does not reach the end of the host address space. -/
def Sane (s : Sec) : Prop := s.len ≤ 2 ^ 30 ∧ s.host + s.len < 2 ^ 32

/-- The host ranges are in order and do not overlap. -/
def InOrder (l : List (Nat × Sec)) : Prop := l.Pairwise fun x y => x.2.host + x.2.len ≤ y.2.host

/-- The lengths of an image: the whole is in the device, there is something between header and signature, and there is a signature. -/
structure Bounds (size a hlen imgLen sigLen : Nat) : Prop where
  device : a + imgLen ≤ size
  room : hlen + sigLen < imgLen
  signed : 0 < sigLen

/-- A well-formed image: header, then the sections `l`, then the signature. -/
structure WellFormed (m : Mem) (size a hlen imgLen sigLen : Nat) (l : List (Nat × Sec)) : Prop where
  header : IsHeader m a hlen imgLen sigLen
  bounds : Bounds size a hlen imgLen sigLen
  tiled : Tiled m (a + hlen) (a + imgLen - sigLen) l
  order : InOrder l
  sane : ∀ x ∈ l, Sane x.2

/-- The digest of everything before the signature. -/
def digest (sha : Bytes → Bytes) (m : Mem) (a imgLen sigLen : Nat) : Bytes := sha (bytesAt m a (imgLen - sigLen))

/-- The signature at the end of the image is one for everything before it. -/
def Authentic (sha : Bytes → Bytes) (sigOk : Bytes → Bytes → Bool) (m : Mem) (a imgLen sigLen : Nat) : Prop :=
  sigOk (digest sha m a imgLen sigLen) (bytesAt m (a + imgLen - sigLen) sigLen) = true

/-- The platform identifier in the image is `id`. -/
def ForPlatform (m : Mem) (a : Nat) (id : Bytes) : Prop := bytesAt m (a + 49) (id.length + 1) = id ++ [0]

end Verif.Recovery
