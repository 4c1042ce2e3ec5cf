import Verif.ManifestFlash.ReadLemmas
/-! The properties of manifests in flash. -/
namespace Verif.ManifestFlash

instance {α : Type} [DecidableEq α] : DecidableEq (Except Err α) := fun a b =>
  match a, b with
  | .ok x, .ok y => if h : x = y then isTrue (by rw [h]) else isFalse (fun e => h (Except.ok.inj e))
  | .error x, .error y => if h : x = y then isTrue (by rw [h]) else isFalse (fun e => h (Except.error.inj e))
  | .ok _, .error _ => isFalse (fun e => nomatch e)
  | .error _, .ok _ => isFalse (fun e => nomatch e)

/-! ### An example: a manifest with a platform identifier and one element with a hash -/

namespace Ex
/-- The table of contents: two entries, one hash. -/
def toc : Bytes := [2, 1, 0, 0] ++ [0, 255, 0, 255, 96, 0, 6, 0] ++ [16, 255, 1, 0, 102, 0, 3, 0] ++ List.replicate 32 2
def header : Bytes := [109, 0, 0x6d, 0x70, 5, 0, 0, 0, 4, 0, 0, 0]
def M : Bytes := header ++ toc ++ List.replicate 32 1 ++ [2, 0, 0, 0, 65, 66] ++ [7, 8, 9]
def sig : Bytes := [0xaa, 0xbb, 0xcc, 0xdd]
/-- A toy digest that is right for this manifest. -/
def H (_ : Nat) (m : Bytes) : Bytes := if m = toc then List.replicate 32 1 else if m = [7, 8, 9] then List.replicate 32 2 else 0 :: m
def c : Cfg := ⟨0, 0x504d, 0x706d, 0xffff, 512, 32, fun t => t == 1, H, fun d s => d == 0 :: M && s == sig⟩
def v (f : Bytes) : Env := ⟨109, fun _ => f, fun _ => false⟩
def st0 : St := ⟨false, false, [], 0, 0, 0, [], [], [], []⟩
def st : St := ⟨true, false, header, 2, 1, 32, List.replicate 32 1, 0 :: M, sig, [65, 66]⟩
def q : Query := ⟨[16], 0, 255⟩
/-- The same with another byte in the element. -/
def changed : Bytes := M.take 104 ++ [10] ++ sig

theorem wf : (v (M ++ sig)).WF := ⟨by decide, fun _ => by show (M ++ sig).length = 109; decide +kernel⟩
theorem verified : verify c (v (M ++ sig)) st0 0 65536 = .ok st := by decide +kernel
end Ex

/-! ### C45: a verified manifest is fully signed -/

/-- When a manifest verifies, the digest that was checked against the signature is the digest of a string `m` which is exactly the manifest before
the signature: it has the right length, and byte `i` of it was read from byte `i` of the manifest. This holds for every layout, and however the
flash changes in the meantime. -/
theorem digest_covers_all {c : Cfg} {v : Env} (wf : v.WF) {st st' : St} {clk fuel : Nat} (h : verify c v st clk fuel = .ok st') :
    ∃ m, Covered c v clk st' m := by
  unfold verify at h
  simp only [bind_ok] at h
  obtain ⟨p, h1, s, h2, h3⟩ := h
  cases h3
  unfold byVersion at h2
  split at h2
  · obtain ⟨m, k, _⟩ := verifyV1_ok wf h1 h2
    exact ⟨m, k.len, k.seen, k.sigLen, k.sigSeen, k.digest, k.accepted⟩
  · split at h2
    · obtain ⟨m, k, _⟩ := verifyV2_ok wf h1 h2
      exact ⟨m, k.len, k.seen, k.sigLen, k.sigSeen, k.digest, k.accepted⟩
    · split at h2
      · obtain ⟨m, k, _⟩ := verifyV2_ok wf h1 h2
        exact ⟨m, k.len, k.seen, k.sigLen, k.sigSeen, k.digest, k.accepted⟩
      · cases h2

example : ∃ m, Covered Ex.c (Ex.v (Ex.M ++ Ex.sig)) 0 Ex.st m := digest_covers_all Ex.wf Ex.verified

theorem seen_const {v : Env} {F : Bytes} (hF : ∀ τ, v.flash τ = F) {lo hi a : Nat} {m : Bytes} (h : Seen v lo hi a m) :
    m = window F a m.length := by
  apply List.ext_getElem?
  intro i
  rw [getElem?_window]
  split
  · rename_i hi
    obtain ⟨τ, _, _, h3⟩ := h i m[i] (List.getElem?_eq_getElem hi)
    rw [hF τ] at h3
    rw [h3, List.getElem?_eq_getElem hi]
  · rename_i hi
    exact List.getElem?_eq_none (by omega)

/-- If the flash does not change meanwhile: the signature in the flash was accepted for the digest of the manifest bytes in the flash. -/
theorem digest_of_flash {c : Cfg} {v : Env} (wf : v.WF) {F : Bytes} (hF : ∀ τ, v.flash τ = F) {st st' : St} {clk fuel : Nat}
    (h : verify c v st clk fuel = .ok st') :
    c.sigOk (c.H (hSigHash st'.hdr) (window F c.addr (hLength st'.hdr - hSigLength st'.hdr)))
      (window F (c.addr + (hLength st'.hdr - hSigLength st'.hdr)) (hSigLength st'.hdr)) = true := by
  obtain ⟨m, k⟩ := digest_covers_all wf h
  obtain ⟨_, s1⟩ := k.seen
  obtain ⟨_, s2⟩ := k.sigSeen
  have l := k.len
  have e : m.length = hLength st'.hdr - hSigLength st'.hdr := by omega
  have e1 := seen_const hF s1
  have e2 := seen_const hF s2
  rw [e] at e1
  rw [k.sigLen, e] at e2
  rw [← e1, ← e2]
  exact k.accepted

example : window (Ex.M ++ Ex.sig) 0 105 = Ex.M ∧ window (Ex.M ++ Ex.sig) 105 4 = Ex.sig := by decide +kernel

/-- For manifests with a table of contents everything that is used later was signed: the header (with the identifier and the lengths), the platform
identifier, the number of entries and the hash of the root table are those in `m`. -/
theorem parsed_is_signed {c : Cfg} {v : Env} (wf : v.WF) {st st' : St} {clk fuel : Nat} (h : verify c v st clk fuel = .ok st')
    (h1 : hMagic st'.hdr ≠ c.v1) : ∃ m, Signed c v clk st' m ∧ Remembers st' m := by
  unfold verify at h
  simp only [bind_ok] at h
  obtain ⟨p, hp, s, h2, h3⟩ := h
  cases h3
  unfold byVersion at h2
  have conv : (∃ m, Signed c v clk s m ∧ Remembers s m) → ∃ m, Signed c v clk { s with valid := true } m ∧ Remembers { s with valid := true } m := by
    rintro ⟨m, k, R⟩
    exact ⟨m, ⟨⟨k.len, k.seen, k.sigLen, k.sigSeen, k.digest, k.accepted⟩, k.header⟩, R.type, R.len, R.root, R.count, R.platform, R.laid⟩
  split at h2
  · rename_i hv
    exfalso
    apply h1
    unfold verifyV1 at h2
    simp only [bind_ok] at h2
    obtain ⟨_, _, t, _, h4⟩ := h2
    obtain ⟨e, _⟩ := finish_ok h4
    show hMagic s.hdr = c.v1
    rw [e]; exact hv.2
  · split at h2
    · exact conv (verifyV2_ok wf hp h2)
    · split at h2
      · exact conv (verifyV2_ok wf hp h2)
      · cases h2

example : ∃ m, Signed Ex.c (Ex.v (Ex.M ++ Ex.sig)) 0 Ex.st m ∧ Remembers Ex.st m :=
  parsed_is_signed Ex.wf Ex.verified (by decide +kernel)

/-- Not so for manifests of the first version: the header is read twice, and what is used later is the first copy. A flash that changes in between
gives a verified manifest with an identifier that nobody signed. -/
theorem v1_header_unsigned : ∃ (c : Cfg) (v : Env) (st st' : St), v.WF ∧ (∀ fuel, verify c v st 0 fuel = .ok st') ∧
    ∃ m, Covered c v 0 st' m ∧ c.sigOk (c.H 1 m) st'.sig = true ∧ hId st'.hdr = 9 ∧ hId m = 5 ∧
      ∀ m' s, c.sigOk (c.H 1 m') s = true → hId m' = 5 := by
  let signed : Bytes := [14, 0, 0x4d, 0x50, 5, 0, 0, 0, 2, 0, 0, 0]
  let other : Bytes := [14, 0, 0x4d, 0x50, 9, 0, 0, 0, 2, 0, 0, 0]
  let c : Cfg := ⟨0, 0x504d, 0xffff, 0xffff, 512, 32, fun t => t == 1, fun _ m => m, fun d s => d == signed && s == [1, 2]⟩
  let v : Env := ⟨14, fun τ => if τ = 0 then other ++ [1, 2] else signed ++ [1, 2], fun _ => false⟩
  have wf : v.WF := by
    refine ⟨by decide, fun τ => ?_⟩
    show (if τ = 0 then other ++ [1, 2] else signed ++ [1, 2]).length = 14
    split <;> rfl
  refine ⟨c, v, Ex.st0, ⟨true, false, other, 0, 0, 0, [], signed, [1, 2], []⟩, wf, ?_, signed,
    ⟨rfl, ⟨4, ?_⟩, rfl, ⟨4, ?_⟩, rfl, rfl⟩, rfl, by decide, by decide, ?_⟩
  · intro fuel
    have h0 : verify c v Ex.st0 0 0 = .ok ⟨true, false, other, 0, 0, 0, [], signed, [1, 2], []⟩ := by decide +kernel
    rw [← h0]; rfl
  · intro i b hb
    refine ⟨1, by omega, by omega, ?_⟩
    show (signed ++ [1, 2])[0 + i]? = some b
    rw [Nat.zero_add, List.getElem?_append_left]
    · exact hb
    · exact (List.getElem?_eq_some_iff.mp hb).1
  · intro i b hb
    refine ⟨1, by omega, by omega, ?_⟩
    show (signed ++ [1, 2])[12 + i]? = some b
    rw [List.getElem?_append_right (show signed.length ≤ 12 + i by show 12 ≤ 12 + i; omega)]
    have : 12 + i - signed.length = i := by show 12 + i - 12 = i; omega
    rw [this]; exact hb
  · intro m' s hs
    have : m' = signed := by
      have := (Bool.and_eq_true _ _ ▸ hs : (m' == signed) = true ∧ (s == [1, 2]) = true).1
      simpa using this
    rw [this]; decide

/-- Verification comes to an end for every content of the flash, even if the tables of contents are made to go in circles. -/
theorem verify_ends {c : Cfg} {v : Env} (wf : v.WF) {st : St} {clk fuel : Nat} (hf : 65536 ≤ fuel) : verify c v st clk fuel ≠ .error .hang := by
  intro h
  unfold verify at h
  simp only [bind_err] at h
  rcases h with h | ⟨p, hp, h | ⟨_, _, h⟩⟩
  · exact parseHeader_hang h
  · unfold byVersion at h
    split at h
    · unfold verifyV1 at h
      simp only [bind_err, req_err] at h
      rcases h with ⟨_, h⟩ | ⟨_, _, h | ⟨_, _, h⟩⟩
      · cases h
      · exact hashRange_hang h
      · exact finish_hang h
    · split at h
      · exact verifyV2_hang wf hf hp h
      · split at h
        · exact verifyV2_hang wf hf hp h
        · cases h
  · cases h

/-- A manifest that does not verify gives no elements. -/
theorem unverified_unreadable {c : Cfg} {v v' : Env} {st : St} {clk fuel : Nat} {e : Err} (h : verify c v st clk fuel = .error e)
    (q : Query) (ro : Nat) (dest : Dest) (clk' fuel' : Nat) (r : Result) :
    readElement c v' (afterVerify st (verify c v st clk fuel)) q ro dest clk' fuel' ≠ .ok r := by
  rw [h]
  intro hr
  simp only [readElement, afterVerify, bind_ok, req_ok] at hr
  obtain ⟨_, _, _, h2, _⟩ := hr
  cases h2

example : verify Ex.c (Ex.v Ex.changed) Ex.st0 0 65536 = .error .badSignature := by decide +kernel

/-! ### C46: elements are authenticated when they are read -/

/-- Let a manifest with a table of contents be verified, `m` being the bytes that were signed, and let its hashes be right. Whatever the flash holds
later: an element that is read is the first one in `m` that answers the query; its number, type, format and length are those in `m`; and if it has a
hash, the data are the bytes of that element in `m` (unless one of the messages hashed by the reader collides with a part of `m`). -/
theorem element_authentic {c : Cfg} {v v' : Env} (wf : v.WF) (wf' : v'.WF) {st st' : St} {clk fuel : Nat}
    (h : verify c v st clk fuel = .ok st') (h1 : hMagic st'.hdr ≠ c.v1) :
    ∃ m, Signed c v clk st' m ∧ (Honest c st'.tocType st'.tocLen m →
      ∀ q ro dest clk' fuel' r, readElement c v' st' q ro dest clk' fuel' = .ok r → NoCollision c st'.tocType m r.trace →
      ∃ o n i, Answers m q o n i ∧ r.index = n + i ∧ r.type = eType (entryAt m o i) ∧ r.format = eFormat (entryAt m o i) ∧
        r.total = eLength (entryAt m o i) ∧ r.data.length = dest.want (eLength (entryAt m o i)) ro ∧
        (eHashId (entryAt m o i) < tHashCount (tocAt m o) →
          r.data = window m (eOffset (entryAt m o i) + ro) (dest.want (eLength (entryAt m o i)) ro))) := by
  obtain ⟨m, S, R⟩ := parsed_is_signed wf h h1
  refine ⟨m, S, fun hon q ro dest clk' fuel' r hr nc => ?_⟩
  unfold readElement at hr
  simp only [bind_ok, req_ok] at hr
  obtain ⟨_, _, _, _, _, hs, p, hp, hd⟩ := hr
  have hs : q.start < st'.entryCount := by simpa using hs
  obtain ⟨d1, d2, d3, d4, d5, d6, ⟨l, d7⟩, d8, d9⟩ := deliver_ok wf' hd
  have nc1 : NoCollision c st'.tocType m p.2 := fun x hx => nc x (by rw [d7]; exact List.mem_append_left _ hx)
  have hroot : st'.rootHash = c.H st'.tocType (tocBytes m st'.tocLen 12) := by rw [R.root, hon.root]
  rw [hroot] at hp
  obtain ⟨o, n, i, L⟩ := tocLoop_ok wf' (hashLen_le R.len) hon R hs fuel' hp nc1 IsToc.root (by intro o' n' j _ _ _ h; omega)
  rw [L.entry] at d1 d3 d4 d5 d8
  refine ⟨o, n, i, ⟨L.toc, L.inside, ?_, L.start, d1, L.first⟩, by rw [d2, L.global]; omega, d3, d4, d5, d8, ?_⟩
  · rw [← L.entry]; exact L.type
  · intro hid
    have hid' : eHashId p.1.e < tHashCount p.1.h := by rw [L.entry, L.head]; exact hid
    rcases d9 hid' with d9 | ⟨d9, E, e1, e2, e3, e4⟩
    · rw [d9] at d8
      rw [d9, ← d8]; simp [window_zero_len]
    · rw [L.hash hid', L.entry, ← hon.element o n i L.toc L.inside hid] at e2
      have := nc E e1 _ _ e2
      rw [L.entry] at e4
      rw [e4, this, window_window]
      rw [L.entry] at d9
      have : dest.want (eLength (entryAt m o i)) ro ≤ eLength (entryAt m o i) - ro := by
        unfold Dest.want
        cases dest
        · simp
        · simp
        · exact Nat.min_le_right _ _
      omega

namespace Ex
theorem onlyRoot {o n : Nat} (h : IsToc M o n) : o = 12 ∧ n = 0 := by
  induction h with
  | root => exact ⟨rfl, rfl⟩
  | ext _ hx ih =>
    obtain ⟨e1, _⟩ := ih
    subst e1
    exact absurd hx.1 (by decide +kernel)

theorem honest : Honest c 1 32 M := by
  refine ⟨by decide +kernel, ?_, ?_⟩
  · intro o n h hx
    obtain ⟨e1, _⟩ := onlyRoot h
    subst e1
    exact absurd hx.1 (by decide +kernel)
  · intro o n i h hi hid
    obtain ⟨e1, _⟩ := onlyRoot h
    subst e1
    have h2 : tCount (tocAt M 12) = 2 := by decide +kernel
    have : i = 0 ∨ i = 1 := by omega
    rcases this with e | e
    · subst e; exact absurd hid (by decide +kernel)
    · subst e; decide +kernel

theorem noCollision : NoCollision c 1 M [toc, [7, 8, 9]] := by
  intro x hx off len h
  generalize window M off len = w at *
  change H 1 x = H 1 w at h
  simp only [List.mem_cons, List.not_mem_nil, or_false] at hx
  unfold H at h
  rcases hx with e | e
  · subst e
    rw [if_pos rfl] at h
    split at h
    · rename_i e; exact e.symm
    · split at h
      · exact absurd h (by decide)
      · simp [List.replicate] at h
  · subst e
    rw [if_neg (by decide +kernel), if_pos rfl] at h
    split at h
    · exact absurd h (by decide)
    · split at h
      · rename_i e; exact e.symm
      · simp [List.replicate] at h
end Ex

/-- Everything is as required in the example: the hashes are right, the element is found and its data are those in `M`. -/
example : readElement Ex.c (Ex.v (Ex.M ++ Ex.sig)) Ex.st Ex.q 1 (.buffer 8) 0 10 = .ok ⟨1, 16, 1, 3, true, [8, 9], [Ex.toc, [7, 8, 9]]⟩ := by decide +kernel

/-- A changed element is refused. -/
example : readElement Ex.c (Ex.v Ex.changed) Ex.st Ex.q 1 (.buffer 8) 0 10 = .error .elementInvalid := by decide +kernel

/-- Without a hash there is no protection: the data of such an element are whatever the flash holds when it is read. -/
theorem unhashed_unprotected : ∃ (c : Cfg) (v v' : Env) (st st' : St) (m : Bytes) (q : Query) (r : Result), v.WF ∧ v'.WF ∧
    verify c v st 0 65536 = .ok st' ∧ m.length = 105 ∧ v.flash 0 = m ++ st'.sig ∧ Honest c st'.tocType st'.tocLen m ∧
    readElement c v' st' q 0 (.alloc true) 0 10 = .ok r ∧ r.hashed = false ∧ r.total = 6 ∧ r.data ≠ window m 96 6 := by
  let other : Bytes := Ex.M.take 100 ++ [67, 68, 7, 8, 9] ++ Ex.sig
  refine ⟨Ex.c, Ex.v (Ex.M ++ Ex.sig), Ex.v other, Ex.st0, Ex.st, Ex.M, ⟨[0], 0, 255⟩, ⟨0, 0, 0, 6, false, [2, 0, 0, 0, 67, 68], [Ex.toc]⟩, Ex.wf,
    ⟨by decide, fun _ => by show other.length = 109; decide +kernel⟩, Ex.verified, by decide +kernel, rfl, Ex.honest, by decide +kernel, rfl, rfl,
    by decide +kernel⟩

end Verif.ManifestFlash
