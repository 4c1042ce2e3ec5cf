import Verif.RiotSha1.Lemmas
/-!
C152: the SHA-1 of the RIoT reference code is SHA-1, however the message is split into calls, as long as no call brings so many
bytes that its 32-bit index wraps around.
-/
namespace Verif.RiotSha1
open RiotSha (whole rest whole_length)

attribute [local irreducible] work transform

/-- The context after the digest was taken: nothing of the message is left. -/
def cleared : Ctx := ⟨⟨0, 0, 0, 0, 0⟩, 0, 0, List.replicate 64 0⟩

theorem byte_eq (n k : Nat) : UInt8.ofNat ((n >>> k) &&& 255) = UInt8.ofNat (n / 2 ^ k) := by
  rw [Nat.shiftRight_eq_div_pow, show (255 : Nat) = 2 ^ 8 - 1 from rfl, Nat.and_two_pow_sub_one_eq_mod]
  apply UInt8.toNat_inj.mp
  simp

theorem toBE4 (n : Nat) : toBE 4 n =
    [UInt8.ofNat (n / 2 ^ 24), UInt8.ofNat (n / 2 ^ 16), UInt8.ofNat (n / 2 ^ 8), UInt8.ofNat (n / 2 ^ 0)] := by
  simp only [toBE, List.nil_append, List.cons_append, Nat.div_div_eq_div_mul]
  simp

theorem byte_low (x y k : Nat) (hk : k ≤ 24) : UInt8.ofNat ((x * 2 ^ 32 + y) / 2 ^ k) = UInt8.ofNat (y / 2 ^ k) := by
  apply UInt8.toNat_inj.mp
  simp only [UInt8.toNat_ofNat']
  have e : x * 2 ^ 32 + y = y + 2 ^ k * (x * 2 ^ (24 - k) * 256) := by
    have : (2 : Nat) ^ 32 = 2 ^ k * (2 ^ (24 - k) * 256) := by
      rw [show (256 : Nat) = 2 ^ 8 from rfl, ← Nat.pow_add, ← Nat.pow_add]; congr 1; omega
    rw [this, Nat.add_comm]
    congr 1
    ac_rfl
  rw [e, Nat.add_mul_div_left _ _ (Nat.two_pow_pos k), Nat.add_mul_mod_self_right]

theorem toBE8 (x y : Nat) (hy : y < 2 ^ 32) : toBE 8 (x * 2 ^ 32 + y) = toBE 4 x ++ toBE 4 y := by
  have h := toBE4 ((x * 2 ^ 32 + y))
  have h' := toBE4 y
  rw [byte_low _ _ _ (by omega), byte_low _ _ _ (by omega), byte_low _ _ _ (by omega), byte_low _ _ _ (by omega), ← h'] at h
  have e : toBE 8 (x * 2 ^ 32 + y) = toBE 4 ((x * 2 ^ 32 + y) / 2 ^ 32) ++ toBE 4 (x * 2 ^ 32 + y) := by
    generalize x * 2 ^ 32 + y = n
    simp only [toBE, List.nil_append, List.cons_append, Nat.div_div_eq_div_mul, Nat.reducePow, Nat.reduceMul]
  rw [e, h, show (x * 2 ^ 32 + y) / 2 ^ 32 = x by omega]

theorem finalCount_eq (c : Ctx) (m : Bytes) (h : Holds c m) : finalCount c = toBE 8 (8 * m.length) := by
  have e : finalCount c = toBE 4 c.count1 ++ toBE 4 c.count0 := by
    rw [toBE4, toBE4]
    simp only [finalCount, byte_eq]
    rfl
  rw [e, ← toBE8 _ _ h.low, h.bits]
  exact toBE_mod 8 (8 * m.length)

theorem digest_eq (r : Regs) : ((List.range 20).map fun i =>
      UInt8.ofNat (((r.get (i >>> 2)).toNat >>> ((3 - (i &&& 3)) * 8)) &&& 255)) =
    [r.a, r.b, r.c, r.d, r.e].flatMap fun w => toBE 4 w.toNat := by
  simp only [byte_eq, toBE4, List.flatMap_cons, List.flatMap_nil, List.cons_append, List.nil_append, List.append_nil]
  rfl

theorem final_holds (c : Ctx) (m : Bytes) (h : Holds c m) : final c = some (Spec.sha1 m, cleared) := by
  obtain ⟨c1, e1, g1⟩ := update_holds c m [0x80] h (by simp only [List.length_singleton]; omega)
  obtain ⟨c2, e2, g2⟩ := padLoop_holds 64 ((64 - (m.length + 9) % 64) % 64) c1 (m ++ [0x80]) g1 (by omega) (by omega) (by
    rw [List.length_append, List.length_singleton]; omega)
  obtain ⟨c3, e3, g3⟩ := update_holds c2 _ (toBE 8 (8 * m.length)) g2 (by rw [toBE_length]; omega)
  have g4 : Holds c3 (RiotSha.Spec.pad m) := g3
  have hp : whole (RiotSha.Spec.pad m) = RiotSha.Spec.pad m := by
    have hl : (RiotSha.Spec.pad m).length % 64 = 0 := by
      simp only [RiotSha.Spec.pad, List.length_append, List.length_singleton, List.length_replicate, toBE_length]; omega
    unfold whole
    rw [List.take_of_length_le (by omega)]
  have hs := g4.state
  rw [hp] at hs
  have hd : Spec.sha1 m = [c3.state.a, c3.state.b, c3.state.c, c3.state.d, c3.state.e].flatMap fun w => toBE 4 w.toNat := by
    unfold Spec.sha1
    rw [← hs]
    exact Eq.refl _
  unfold final
  rw [finalCount_eq c m h, e1]
  simp only [Option.bind_eq_bind, Option.bind_some, e2, e3]
  rw [hd, ← digest_eq]
  exact Eq.refl _

/-- **C152** Every sequence of updates with calls of at most `2^32 - 64` bytes gives the digest of the concatenated data,
and clears the context. -/
theorem sha1_exact_partial (junk : Bytes) (chunks : List Bytes) (hj : junk.length = 64)
    (hl : ∀ d ∈ chunks, d.length ≤ 2 ^ 32 - 64) :
    (updates (init junk) chunks).bind final = some (Spec.sha1 chunks.flatten, cleared) := by
  obtain ⟨c, e, g⟩ := updates_holds chunks (init junk) [] (init_holds junk hj) hl
  rw [e]
  exact final_holds c _ g

/-- **C152** The split into calls does not matter, and neither does the old content of the context. -/
theorem split_irrelevant_partial (j1 j2 : Bytes) (c1 c2 : List Bytes) (h1 : j1.length = 64) (h2 : j2.length = 64)
    (h : c1.flatten = c2.flatten) (l1 : ∀ d ∈ c1, d.length ≤ 2 ^ 32 - 64) (l2 : ∀ d ∈ c2, d.length ≤ 2 ^ 32 - 64) :
    (updates (init j1) c1).bind final = (updates (init j2) c2).bind final := by
  rw [sha1_exact_partial j1 c1 h1 l1, sha1_exact_partial j2 c2 h2 l2, h]

/-- **C152** A further call is free of undefined behaviour exactly if its bytes and those of the open block are fewer than `2^32`. -/
theorem update_defined_iff (junk : Bytes) (chunks : List Bytes) (data : Bytes) (c : Ctx) (hj : junk.length = 64)
    (hl : ∀ d ∈ chunks, d.length ≤ 2 ^ 32 - 64) (hc : updates (init junk) chunks = some c) :
    (∃ c', update c data = some c') ↔ chunks.flatten.length % 64 + data.length < 2 ^ 32 := by
  obtain ⟨c0, e, g⟩ := updates_holds chunks (init junk) [] (init_holds junk hj) hl
  obtain rfl : c0 = c := Option.some.inj (e.symm.trans hc)
  rw [List.nil_append] at g
  constructor
  · intro ⟨c', h⟩
    by_cases hb : chunks.flatten.length % 64 + data.length < 2 ^ 32
    · exact hb
    · unfold update at h
      simp only [holds_used g] at h
      rw [if_pos (by omega)] at h
      cases h
  · intro h
    obtain ⟨c', e', _⟩ := update_holds c0 _ data g h
    exact ⟨c', e'⟩

/-- **C152** The one-call form, for messages shorter than 4 GiB. -/
theorem block_exact_partial (junk m : Bytes) (hj : junk.length = 64) (hm : m.length < 2 ^ 32) :
    block junk m = some (Spec.sha1 m) := by
  obtain ⟨c, e, g⟩ := update_holds (init junk) [] m (init_holds junk hj) (by
    rw [List.length_nil]; omega)
  rw [List.nil_append] at g
  unfold block
  rw [Nat.mod_eq_of_lt hm, List.take_of_length_le (Nat.le_refl _), e]
  simp only [Option.bind_eq_bind, Option.bind_some, final_holds c m g]
  exact Eq.refl _

/-- **C152** Counterexample: one byte, then a call with `2^32 - 1` bytes: bytes are copied behind the end of the buffer. -/
theorem update_overflow (junk data : Bytes) (x : UInt8) (hj : junk.length = 64) (hd : data.length = 2 ^ 32 - 1) :
    updates (init junk) [[x], data] = none := by
  obtain ⟨c, e, g⟩ := update_holds (init junk) [] [x] (init_holds junk hj) (by
    rw [List.length_nil, List.length_singleton]; omega)
  rw [List.nil_append] at g
  rw [updates, e]
  show updates c [data] = none
  have hn : update c data = none := by
    unfold update
    simp only [holds_used g, List.length_singleton]
    rw [if_pos (by omega)]
  rw [updates, hn]
  exact Eq.refl _

/-- **C152** Counterexample: a message of 4 GiB and some bytes has the digest of its first bytes in the one-call form. -/
theorem block_truncates (junk a b : Bytes) (hj : junk.length = 64) (ha : a.length < 2 ^ 32) (hb : b.length = 2 ^ 32) :
    block junk (a ++ b) = some (Spec.sha1 a) := by
  rw [← block_exact_partial junk a hj ha]
  unfold block
  rw [Nat.mod_eq_of_lt ha, List.length_append, hb, Nat.add_mod_right, Nat.mod_eq_of_lt ha, List.take_left,
    List.take_of_length_le (Nat.le_refl _)]

/-- Three calls, one across the end of a block: 130 bytes. -/
example : (updates (init (List.replicate 64 7)) [List.replicate 60 1, List.replicate 69 2, [3]]).bind final
    = some (Spec.sha1 (List.replicate 60 1 ++ List.replicate 69 2 ++ [3]), cleared) := by
  have := sha1_exact_partial (List.replicate 64 7) [List.replicate 60 1, List.replicate 69 2, [3]] (by simp) (by simp)
  simpa using this

/-- The example of FIPS 180 through the code. -/
example : block (List.replicate 64 0) [0x61, 0x62, 0x63] = some [
    0xa9, 0x99, 0x3e, 0x36, 0x47, 0x06, 0x81, 0x6a, 0xba, 0x3e, 0x25, 0x71, 0x78, 0x50, 0xc2, 0x6c, 0x9c, 0xd0, 0xd8, 0x9d] := by
  rw [block_exact_partial _ _ (by simp) (by simp)]
  decide +kernel

/-- There are such data for the overflow and the truncation. -/
example : ∃ data : Bytes, data.length = 2 ^ 32 - 1 := ⟨List.replicate (2 ^ 32 - 1) 0, List.length_replicate ..⟩
example : ∃ data : Bytes, data.length = 2 ^ 32 := ⟨List.replicate (2 ^ 32) 0, List.length_replicate ..⟩

end Verif.RiotSha1
