import Verif.RiotSha.Lemmas
/-!
C127: the SHA-256 of the RIoT reference code is SHA-256 for every message, however it is split
into calls.
-/
namespace Verif.RiotSha
open Spec (Words)

attribute [local irreducible] transform

theorem zero_take (b : Bytes) (p k : Nat) (h : p + k ≤ b.length) :
    (zero b p k).take (p + k) = b.take p ++ List.replicate k 0 := by
  have := take_writeAt b (List.replicate k 0) p (by simpa using h)
  simpa [zero] using this

theorem zero_length (b : Bytes) (p k : Nat) : (zero b p k).length = b.length := writeAt_length ..

theorem mark_take (b : Bytes) (u : Nat) (h : u + 1 ≤ b.length) :
    (writeAt b u [0x80]).take (u + 1) = b.take u ++ [0x80] := by
  have := take_writeAt b [0x80] u (by simpa using h)
  simpa using this

/-- After the padding: complete blocks hashed so far, and the 56 first bytes of the last one. -/
theorem finalPad_spec (c : Ctx) (m : Bytes) (h : Holds c m) :
    ∃ a t : Bytes, a.length % 64 = 0 ∧ t.length = 56
      ∧ a ++ t = m ++ [0x80] ++ List.replicate ((64 - (m.length + 9) % 64) % 64) 0
      ∧ (finalPad c (m.length % 64)).state = Spec.hashBlocks Spec.H0 a
      ∧ (finalPad c (m.length % 64)).buffer.length = 64
      ∧ (finalPad c (m.length % 64)).buffer.take 56 = t
      ∧ (finalPad c (m.length % 64)).bitcount = c.bitcount := by
  have hsz := h.size
  have hr := rest_length m
  have hw := whole_length m
  have hm := whole_rest m
  generalize hu : m.length % 64 = u at *
  unfold finalPad
  by_cases h0 : u > 0
  · rw [if_pos h0]
    by_cases h56 : u + 1 ≤ 56
    · rw [if_pos h56]
      refine ⟨whole m, rest m ++ [0x80] ++ List.replicate (56 - (u + 1)) 0, by omega, ?_, ?_, h.state,
        ?_, ?_, rfl⟩
      · simp only [List.length_append, hr, List.length_replicate, List.length_cons, List.length_nil]; omega
      · rw [show (64 - (m.length + 9) % 64) % 64 = 56 - (u + 1) by omega, ← List.append_assoc,
          ← List.append_assoc, hm]
      · show (zero (writeAt c.buffer u [0x80]) (u + 1) (56 - (u + 1))).length = 64
        rw [zero_length, writeAt_length, hsz]
      · show (zero (writeAt c.buffer u [0x80]) (u + 1) (56 - (u + 1))).take 56 = _
        have := zero_take (writeAt c.buffer u [0x80]) (u + 1) (56 - (u + 1)) (by
          rw [writeAt_length, hsz]; omega)
        rw [mark_take _ _ (by omega), show u + 1 + (56 - (u + 1)) = 56 by omega] at this
        rw [this]
        have hb := h.buffer
        rw [hu] at hb
        rw [hb]
    · rw [if_neg h56]
      have hblk : (if u + 1 < 64 then zero (writeAt c.buffer u [0x80]) (u + 1) (64 - (u + 1))
          else writeAt c.buffer u [0x80]) = rest m ++ [0x80] ++ List.replicate (64 - (u + 1)) 0 := by
        have hb := h.buffer
        rw [hu] at hb
        have hmk := mark_take c.buffer u (by omega)
        rw [hb] at hmk
        by_cases h64 : u + 1 < 64
        · rw [if_pos h64]
          have := zero_take (writeAt c.buffer u [0x80]) (u + 1) (64 - (u + 1)) (by
            rw [writeAt_length, hsz]; omega)
          rw [hmk, show u + 1 + (64 - (u + 1)) = 64 by omega,
            List.take_of_length_le (by rw [zero_length, writeAt_length, hsz])] at this
          exact this
        · rw [if_neg h64, ← hmk, show 64 - (u + 1) = 0 by omega, List.take_of_length_le (by
            rw [writeAt_length, hsz]; omega)]
          simp
      have hl : (rest m ++ [0x80] ++ List.replicate (64 - (u + 1)) 0).length = 64 := by
        simp only [List.length_append, hr, List.length_replicate, List.length_cons, List.length_nil]; omega
      simp only [hblk]
      generalize hblock : rest m ++ [0x80] ++ List.replicate (64 - (u + 1)) 0 = blk at hl
      have hst := transform_state { c with buffer := blk } none hl
      refine ⟨whole m ++ blk, List.replicate 56 0, ?_, by simp, ?_, ?_, ?_, ?_, ?_⟩
      · rw [List.length_append, hl]; omega
      · rw [show (64 - (m.length + 9) % 64) % 64 = (64 - (u + 1)) + 56 by omega,
          ← List.replicate_append_replicate, ← hblock, List.append_assoc (whole m)]
        simp only [← List.append_assoc, hm]
      · rw [hashBlocks_append _ _ _ (by omega), hashBlocks_one _ _ hl, ← h.state]
        exact hst
      · show (zero (transform { c with buffer := blk } none).buffer 0 56).length = 64
        rw [zero_length]; exact transform_length _ _
      · show (zero (transform { c with buffer := blk } none).buffer 0 56).take 56 = _
        have := zero_take (transform { c with buffer := blk } none).buffer 0 56 (by
          rw [transform_length]; omega)
        rw [Nat.zero_add] at this
        rw [this]; rfl
      · exact transform_bitcount _ _
  · rw [if_neg h0]
    have hrest : rest m = [] := List.length_eq_zero_iff.mp (by omega)
    rw [hrest, List.append_nil] at hm
    have hz := zero_take c.buffer 0 56 (by omega)
    rw [Nat.zero_add] at hz
    refine ⟨whole m, [0x80] ++ List.replicate 55 0, by omega, by simp, ?_, h.state, ?_, ?_, rfl⟩
    · rw [show (64 - (m.length + 9) % 64) % 64 = 55 by omega, hm, List.append_assoc]
    · show (writeAt (zero c.buffer 0 56) 0 [0x80]).length = 64
      rw [writeAt_length, zero_length, hsz]
    · show (writeAt (zero c.buffer 0 56) 0 [0x80]).take 56 = _
      have hzb : zero c.buffer 0 56 = List.replicate 56 0 ++ (zero c.buffer 0 56).drop 56 := by
        conv => lhs; rw [← List.take_append_drop 56 (zero c.buffer 0 56), hz]
        rfl
      rw [hzb]
      rfl

/-- **C127** A context into which the bytes of `m` were fed gives the digest of `m`. -/
theorem final_exact (c : Ctx) (m : Bytes) (h : Holds c m) : final c = Spec.sha256 m := by
  unfold final
  rw [holds_used h]
  obtain ⟨a, t, ha, ht, hat, hst, hsz, htk, hbc⟩ := finalPad_spec c m h
  generalize hc : finalPad c (m.length % 64) = c1 at hst hsz htk hbc
  have hlen : toLE 8 (reverse64 (UInt64.ofNat c.bitcount)).toNat = toBE 8 (8 * m.length) := by
    rw [store_reverse64, h.bits]
    exact toBE_mod 8 (8 * m.length)
  have hblk : writeAt c1.buffer 56 (toBE 8 (8 * m.length)) = t ++ toBE 8 (8 * m.length) := by
    have := take_writeAt c1.buffer (toBE 8 (8 * m.length)) 56 (by rw [toBE_length, hsz])
    rw [List.take_of_length_le (by rw [writeAt_length, hsz, toBE_length]), htk] at this
    exact this
  have hbl : (t ++ toBE 8 (8 * m.length)).length = 64 := by rw [List.length_append, ht, toBE_length]
  simp only [hc, hlen, hblk]
  have hs := transform_state { c1 with buffer := t ++ toBE 8 (8 * m.length) } none hbl
  have he : (transform { c1 with buffer := t ++ toBE 8 (8 * m.length) } none).state
      = Spec.hashBlocks Spec.H0 (Spec.pad m) := by
    rw [hs]
    show Spec.compress c1.state (t ++ toBE 8 (8 * m.length)) = _
    rw [hst, ← hashBlocks_one _ _ hbl, ← hashBlocks_append _ _ _ ha, ← List.append_assoc, hat]
    rfl
  rw [he]
  unfold Spec.sha256
  simp only [store_reverse32]

/-- **C127** Every sequence of updates gives the digest of the concatenated data. -/
theorem sha256_exact (chunks : List Bytes) :
    final (chunks.foldl update init) = Spec.sha256 chunks.flatten := by
  have : ∀ (l : List Bytes) (c : Ctx) (m : Bytes), Holds c m → Holds (l.foldl update c) (m ++ l.flatten) := by
    intro l
    induction l with
    | nil => intro c m h; simpa using h
    | cons d l ih =>
      intro c m h
      rw [List.foldl_cons, List.flatten_cons, ← List.append_assoc]
      exact ih _ _ (update_holds c m d h)
  exact final_exact _ _ (this chunks init [] init_holds)

/-- **C127** The one-call form. -/
theorem block_exact (m : Bytes) : block m = Spec.sha256 m := by
  have := sha256_exact [m]
  simpa [block] using this

/-- **C127** The split into calls does not matter. -/
theorem split_irrelevant (c1 c2 : List Bytes) (h : c1.flatten = c2.flatten) :
    final (c1.foldl update init) = final (c2.foldl update init) := by
  rw [sha256_exact, sha256_exact, h]

/-- Three calls, one across the end of a block: 130 bytes. -/
example : final ([List.replicate 60 1, List.replicate 69 2, [3]].foldl update init)
    = Spec.sha256 (List.replicate 60 1 ++ List.replicate 69 2 ++ [3]) := by
  rw [sha256_exact]; simp

/-- A concrete run of the model: the digest of `"abc"` given in two parts (FIPS 180). -/
example : (final (update (update init [0x61]) [0x62, 0x63])).take 4 = [0xba, 0x78, 0x16, 0xbf] := by
  decide +kernel

end Verif.RiotSha
