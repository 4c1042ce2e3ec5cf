import Verif.ManifestFlash.Model
/-! What a manifest says, read off its bytes `M` (everything before the signature), and what it means that bytes were in the flash. -/
namespace Verif.ManifestFlash

/-- A device of less than 4 GiB that always has `size` bytes. -/
structure Env.WF (v : Env) : Prop where
  small : v.size < 2 ^ 32
  len : ∀ τ, (v.flash τ).length = v.size

/-- The bytes `m` were read from address `a` on, each one from its place, during the accesses `lo ≤ τ < hi`. -/
def Seen (v : Env) (lo hi a : Nat) (m : Bytes) : Prop :=
  ∀ i b, m[i]? = some b → ∃ τ, lo ≤ τ ∧ τ < hi ∧ (v.flash τ)[a + i]? = some b

/-- The header of the table of contents at offset `o`. -/
def tocAt (M : Bytes) (o : Nat) : Bytes := window M o 4
/-- Its entry number `i`. -/
def entryAt (M : Bytes) (o i : Nat) : Bytes := window M (o + 4 + 8 * i) 8
/-- Its hash number `k`, for hashes of `hl` bytes. -/
def hashAt (M : Bytes) (hl o k : Nat) : Bytes := window M (o + 4 + 8 * tCount (tocAt M o) + hl * k) hl
/-- The whole table. -/
def tocBytes (M : Bytes) (hl o : Nat) : Bytes := window M o (tocLength (tocAt M o) hl)
/-- Its last entry refers to another table. -/
def HasExt (M : Bytes) (o : Nat) : Prop := tCount (tocAt M o) = 255 ∧ eType (entryAt M o 254) = 1

/-- `IsToc M o n`: there is a table of contents at offset `o`, and the tables before it have `n` entries. -/
inductive IsToc (M : Bytes) : Nat → Nat → Prop
  | root : IsToc M 12 0
  | ext {o n} : IsToc M o n → HasExt M o → IsToc M (eOffset (entryAt M o 254)) (n + 255)

/-- The elements of the table at `o` are stored one after the other, behind the table and (for the first one) the root hash. -/
structure Laid (M : Bytes) (hl o : Nat) : Prop where
  nonempty : tCount (tocAt M o) ≠ 0
  first : o + tocLength (tocAt M o) hl + (if o = 12 then hl else 0) ≤ eOffset (entryAt M o 0)
  order : ∀ i, i + 1 < tCount (tocAt M o) → eOffset (entryAt M o i) + eLength (entryAt M o i) ≤ eOffset (entryAt M o (i + 1))

/-- `m` are the bytes of a manifest whose signature was accepted: it is as long as the header says, the digest in the state is that of `m`, every
byte of `m` was read from its place in the flash since the access `clk`, and the signature was read from the place after `m`. -/
structure Covered (c : Cfg) (v : Env) (clk : Nat) (st : St) (m : Bytes) : Prop where
  len : m.length + hSigLength st.hdr = hLength st.hdr
  seen : ∃ hi, Seen v clk hi c.addr m
  sigLen : st.sig.length = hSigLength st.hdr
  sigSeen : ∃ hi, Seen v clk hi (c.addr + m.length) st.sig
  digest : st.digest = c.H (hSigHash st.hdr) m
  accepted : c.sigOk (c.H (hSigHash st.hdr) m) st.sig = true

/-- ... and the header in use is the one that was signed. -/
structure Signed (c : Cfg) (v : Env) (clk : Nat) (st : St) (m : Bytes) : Prop extends Covered c v clk st m where
  header : m.take 12 = st.hdr

/-- What is remembered of a manifest with a table of contents is what `M` says. -/
structure Remembers (st : St) (M : Bytes) : Prop where
  type : st.tocType = tHash (tocAt M 12)
  len : hashLen st.tocType = some st.tocLen
  root : st.rootHash = window M (12 + tocLength (tocAt M 12) st.tocLen) st.tocLen
  count : ∃ o n, IsToc M o n ∧ ¬ HasExt M o ∧ st.entryCount = n + tCount (tocAt M o)
  platform : ∃ i, i < tCount (tocAt M 12) ∧ eType (entryAt M 12 i) = 0 ∧ (∀ j, j < i → eType (entryAt M 12 j) ≠ 0) ∧
    st.platformId = window M (eOffset (entryAt M 12 i) + 4) (u8 M (eOffset (entryAt M 12 i)))
  laid : ∀ o n, IsToc M o n → Laid M st.tocLen o

/-- The hashes in `M` are right: whoever signed it computed them properly. -/
structure Honest (c : Cfg) (ty hl : Nat) (M : Bytes) : Prop where
  root : c.H ty (tocBytes M hl 12) = window M (12 + tocLength (tocAt M 12) hl) hl
  ext : ∀ o n, IsToc M o n → HasExt M o →
    c.H ty (tocBytes M hl (eOffset (entryAt M o 254))) = hashAt M hl o (eHashId (entryAt M o 254))
  element : ∀ o n i, IsToc M o n → i < tCount (tocAt M o) → eHashId (entryAt M o i) < tHashCount (tocAt M o) →
    c.H ty (window M (eOffset (entryAt M o i)) (eLength (entryAt M o i))) = hashAt M hl o (eHashId (entryAt M o i))

/-- None of the messages in `tr` collides with a part of `M`. -/
def NoCollision (c : Cfg) (ty : Nat) (M : Bytes) (tr : List Bytes) : Prop :=
  ∀ x ∈ tr, ∀ off len, c.H ty x = c.H ty (window M off len) → x = window M off len

/-- The entry that answers the query in `M`: it is entry `i` of the table at `o`, of a wanted type, not before `start`, and there is no earlier one. -/
structure Answers (M : Bytes) (q : Query) (o n i : Nat) : Prop where
  toc : IsToc M o n
  inside : i < tCount (tocAt M o)
  type : eType (entryAt M o i) ∈ q.types ∧ eType (entryAt M o i) ≠ 1
  start : q.start ≤ n + i
  parent : eParent (entryAt M o i) = 255 ∨ eParent (entryAt M o i) = q.parent
  first : ∀ o' n' j, IsToc M o' n' → j < tCount (tocAt M o') → q.start ≤ n' + j → n' + j < n + i →
    eType (entryAt M o' j) ∉ q.types ∨ eType (entryAt M o' j) = 1

/-- The number of bytes a read should give for an element of `len` bytes from offset `ro` on. -/
def Dest.want (d : Dest) (len ro : Nat) : Nat :=
  match d with
  | .nowhere => 0
  | .alloc _ => len - ro
  | .buffer n => min n (len - ro)

end Verif.ManifestFlash
