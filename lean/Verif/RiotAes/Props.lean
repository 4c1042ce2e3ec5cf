import Verif.RiotAes.Lemmas
/-!
C144: the AES of the RIoT library is AES-128, and its symmetric encryption is the counter mode.
-/
namespace Verif.RiotAes
open Verif

/-! ### The cipher -/

/-- **C144** Encryption of a block with the schedule of a key is AES-128. -/
theorem block_exact (key block : Bytes) : (encryptRounds (enable key) (pack32 block)).map unpack32 = some (Spec.aes key block) := by
  obtain ⟨y, h1, h2⟩ := encryptRounds_spec key (pack32 block)
  rw [h1]
  show some (unpack32 y) = _
  rw [unpack32_spec, h2, pack32_spec]
  rfl

/-- The example of FIPS 197, appendix B, of the specification (computed with the model, that it is equal to). -/
example : Spec.aes [0x2b, 0x7e, 0x15, 0x16, 0x28, 0xae, 0xd2, 0xa6, 0xab, 0xf7, 0x15, 0x88, 0x09, 0xcf, 0x4f, 0x3c]
    [0x32, 0x43, 0xf6, 0xa8, 0x88, 0x5a, 0x30, 0x8d, 0x31, 0x31, 0x98, 0xa2, 0xe0, 0x37, 0x07, 0x34]
    = [0x39, 0x25, 0x84, 0x1d, 0x02, 0xdc, 0x09, 0xfb, 0xdc, 0x11, 0x85, 0x97, 0x19, 0x6a, 0x0b, 0x32] :=
  Option.some.inj ((block_exact _ _).symm.trans (by decide +kernel))

theorem aes_eq (key b : Bytes) : Spec.fromState (Spec.cipher (Spec.word key) (Spec.toState b)) = Spec.aes key b := rfl

theorem aes_length (key b : Bytes) : (Spec.aes key b).length = 16 := by
  unfold Spec.aes Spec.fromState
  rw [List.length_map, List.length_range]

attribute [local irreducible] Spec.aes

/-- Blocks after the first. -/
theorem spec_ecb_cons (key data : Bytes) (h : 16 ≤ data.length) : Spec.ecb key data = Spec.aes key (data.take 16) ++ Spec.ecb key (data.drop 16) := by
  unfold Spec.ecb
  rw [List.length_drop, show data.length / 16 = (data.length - 16) / 16 + 1 by omega, List.range_succ_eq_map, List.flatMap_cons, List.flatMap_map]
  congr 1
  refine congrArg (fun f => List.flatMap f _) (funext fun i => ?_)
  congr 1
  unfold window
  rw [List.drop_drop, show 16 * (i + 1) = 16 + 16 * i by omega]

/-- **C144** ECB of whole blocks. -/
theorem ecb_exact (key : Bytes) : ∀ (n : Nat) (data : Bytes), data.length = 16 * n → ecb (enable key) data = some (Spec.ecb key data) := by
  intro n
  induction n with
  | zero =>
    intro data h
    have : data = [] := List.length_eq_zero_iff.mp (by omega)
    subst this
    unfold ecb
    rfl
  | succ n ih =>
    intro data h
    obtain ⟨y, h1, h2⟩ := encryptRounds_spec key (pack32 (data.take 16))
    unfold ecb
    rw [if_neg (by omega), if_neg (by omega), h1, ih (data.drop 16) (by rw [List.length_drop]; omega), spec_ecb_cons key data (by omega)]
    show some (unpack32 y ++ _) = _
    rw [unpack32_spec, h2, pack32_spec, aes_eq]

/-! ### Counter mode -/

theorem incBytes (b0 b1 b2 b3 : UInt8) : toBE 4 ((beNat [b0, b1, b2, b3] + 1) % 2 ^ 32) =
    [if b3 + 1 = 0 ∧ (if b3 + 1 = 0 then b2 + 1 else b2) = 0 ∧ (if b3 + 1 = 0 ∧ (if b3 + 1 = 0 then b2 + 1 else b2) = 0 then b1 + 1 else b1) = 0 then b0 + 1 else b0,
      if b3 + 1 = 0 ∧ (if b3 + 1 = 0 then b2 + 1 else b2) = 0 then b1 + 1 else b1, if b3 + 1 = 0 then b2 + 1 else b2, b3 + 1] := by
  have z : ∀ b : UInt8, b + 1 = 0 ↔ b.toNat = 255 := by decide +kernel
  have p : ∀ b : UInt8, (b + 1).toNat = (b.toNat + 1) % 256 := fun b => UInt8.toNat_add b 1
  have l0 := b0.toNat_lt; have l1 := b1.toNat_lt; have l2 := b2.toNat_lt; have l3 := b3.toNat_lt
  have q0 := p b0; have q1 := p b1; have q2 := p b2; have q3 := p b3
  have e : ∀ c0 c1 c2 c3 : UInt8, (beNat [b0, b1, b2, b3] + 1) % 2 ^ 32 = beNat [c0, c1, c2, c3] → toBE 4 ((beNat [b0, b1, b2, b3] + 1) % 2 ^ 32) = [c0, c1, c2, c3] := by
    intro c0 c1 c2 c3 h
    rw [h]
    exact toBE_beNat [c0, c1, c2, c3]
  have n : ∀ c0 c1 c2 c3 : UInt8, beNat [c0, c1, c2, c3] = c0.toNat * 16777216 + c1.toNat * 65536 + c2.toNat * 256 + c3.toNat := by
    intro c0 c1 c2 c3
    simp only [beNat_cons, beNat_nil, List.length_cons, List.length_nil]
    omega
  apply e
  rw [n, n]
  by_cases h3 : b3 + 1 = 0
  · have g3 := (z b3).mp h3
    simp only [if_pos h3, true_and, h3]
    by_cases h2 : b2 + 1 = 0
    · have g2 := (z b2).mp h2
      simp only [if_pos, h2, true_and, if_true]
      by_cases h1 : b1 + 1 = 0
      · have g1 := (z b1).mp h1
        simp only [h1, if_true, q0]
        simp only [UInt8.toNat_zero] at *
        omega
      · have g1 : b1.toNat ≠ 255 := fun x => h1 ((z b1).mpr x)
        simp only [h1, if_false, q1]
        simp only [UInt8.toNat_zero] at *
        omega
    · have g2 : b2.toNat ≠ 255 := fun x => h2 ((z b2).mpr x)
      simp only [if_true, h2, false_and, if_false, q2]
      simp only [UInt8.toNat_zero] at *
      omega
  · have g3 : b3.toNat ≠ 255 := fun x => h3 ((z b3).mpr x)
    simp only [h3, false_and, if_false, q3]
    omega

theorem length_counter (iv : Bytes) (h : iv.length = 16) (i : Nat) : (Spec.counterBlock iv i).length = 16 := by
  unfold Spec.counterBlock
  rw [List.length_append, List.length_take, toBE_length]; omega

theorem counter_zero (iv : Bytes) (h : iv.length = 16) : Spec.counterBlock iv 0 = iv := by
  unfold Spec.counterBlock
  have hl : (iv.drop 12).length = 4 := by rw [List.length_drop]; omega
  have hb : beNat (iv.drop 12) < 2 ^ 32 := by have := beNat_lt (iv.drop 12); rw [hl] at this; exact this
  have := toBE_beNat (iv.drop 12)
  rw [hl] at this
  rw [Nat.add_zero, Nat.mod_eq_of_lt hb, this, List.take_append_drop]

theorem counter_add (iv : Bytes) (h : iv.length = 16) (i j : Nat) : Spec.counterBlock (Spec.counterBlock iv i) j = Spec.counterBlock iv (i + j) := by
  have hl : (iv.take 12).length = 12 := by rw [List.length_take]; omega
  unfold Spec.counterBlock
  rw [List.take_append_of_le_length (by omega), List.take_take, Nat.min_self, List.drop_append_of_le_length (by omega), List.drop_eq_nil_of_le (by omega), List.nil_append,
    beNat_toBE]
  congr 2
  omega

theorem sixteen (iv : Bytes) (h : iv.length = 16) : ∃ a0 a1 a2 a3 a4 a5 a6 a7 a8 a9 a10 a11 b0 b1 b2 b3 : UInt8, iv = [a0, a1, a2, a3, a4, a5, a6, a7, a8, a9, a10, a11, b0, b1, b2, b3] := by
  match iv, h with
  | [a0, a1, a2, a3, a4, a5, a6, a7, a8, a9, a10, a11, b0, b1, b2, b3], _ => exact ⟨a0, a1, a2, a3, a4, a5, a6, a7, a8, a9, a10, a11, b0, b1, b2, b3, rfl⟩

theorem increment_spec (iv : Bytes) (h : iv.length = 16) : { pack32 iv with x3 := increment (pack32 iv).x3 } = pack32 (Spec.counterBlock iv 1) := by
  obtain ⟨a0, a1, a2, a3, a4, a5, a6, a7, a8, a9, a10, a11, b0, b1, b2, b3, rfl⟩ := sixteen iv h
  have r0 : row (pack [b0, b1, b2, b3] 0) 0 = b0 := pack_row _ _ _ (by decide)
  have r1 : row (pack [b0, b1, b2, b3] 0) 1 = b1 := pack_row _ _ _ (by decide)
  have r2 : row (pack [b0, b1, b2, b3] 0) 2 = b2 := pack_row _ _ _ (by decide)
  have r3 : row (pack [b0, b1, b2, b3] 0) 3 = b3 := pack_row _ _ _ (by decide)
  have hi : increment (pack [b0, b1, b2, b3] 0) = pack (toBE 4 ((beNat [b0, b1, b2, b3] + 1) % 2 ^ 32)) 0 := by
    rw [incBytes]
    unfold increment
    rw [r0, r1, r2, r3]
  show (⟨pack _ 0, pack _ 4, pack _ 8, increment (pack [b0, b1, b2, b3] 0)⟩ : Quad) = _
  rw [hi]
  unfold Spec.counterBlock
  show _ = pack32 ([a0, a1, a2, a3, a4, a5, a6, a7, a8, a9, a10, a11] ++ toBE 4 ((beNat [b0, b1, b2, b3] + 1) % 2 ^ 32))
  rw [incBytes]
  rfl

theorem keyStream_succ (key iv : Bytes) (h : iv.length = 16) (n : Nat) : Spec.keyStream key iv (n + 1) = Spec.aes key iv ++ Spec.keyStream key (Spec.counterBlock iv 1) n := by
  unfold Spec.keyStream
  rw [List.range_succ_eq_map, List.flatMap_cons, List.flatMap_map, counter_zero iv h]
  congr 1
  refine congrArg (fun f => List.flatMap f _) (funext fun i => ?_)
  rw [counter_add iv h, Nat.add_comm 1 i]

theorem xor_comm (a b : Bytes) : Spec.xor a b = Spec.xor b a := List.zipWith_comm_of_comm (fun x y => UInt8.xor_comm x y)

/-- The first block of the counter mode, and the others. -/
theorem spec_ctr_cons (key iv data : Bytes) (h : iv.length = 16) (hd : data.length ≠ 0) :
    Spec.ctr key iv data = List.zipWith (· ^^^ ·) ((Spec.aes key iv).take (min data.length 16)) (data.take (min data.length 16))
      ++ Spec.ctr key (Spec.counterBlock iv 1) (data.drop (min data.length 16)) := by
  unfold Spec.ctr
  rw [List.length_drop]
  rcases Nat.lt_or_ge data.length 16 with hs | hs
  · rw [show min data.length 16 = data.length by omega, show (data.length + 15) / 16 = 0 + 1 by omega, keyStream_succ key iv h, List.drop_eq_nil_of_le (Nat.le_refl _),
      List.take_of_length_le (Nat.le_refl _), Nat.sub_self]
    show Spec.xor data (Spec.aes key iv ++ []) = Spec.xor _ data ++ []
    rw [List.append_nil, List.append_nil, xor_comm]
    unfold Spec.xor
    conv => lhs; rw [List.zipWith_eq_zipWith_take_min]
    rw [aes_length, show min 16 data.length = data.length by omega, List.take_of_length_le (Nat.le_refl data.length)]
  · rw [show min data.length 16 = 16 by omega, show (data.length + 15) / 16 = (data.length - 16 + 15) / 16 + 1 by omega, keyStream_succ key iv h,
      List.take_of_length_le (by rw [aes_length])]
    show Spec.xor data _ = Spec.xor _ _ ++ Spec.xor _ _
    conv => lhs; arg 1; rw [← List.take_append_drop 16 data]
    rw [xor_comm (Spec.aes key iv)]
    unfold Spec.xor
    rw [List.zipWith_append (by rw [List.length_take, aes_length]; omega)]

theorem ctrLoop_exact (key : Bytes) : ∀ (n : Nat) (data iv : Bytes), data.length ≤ n → iv.length = 16 →
    ctrLoop (enable key) data (pack32 iv) = some (Spec.ctr key iv data, pack32 (Spec.counterBlock iv ((data.length + 15) / 16))) := by
  intro n
  induction n with
  | zero =>
    intro data iv hd h
    have : data = [] := List.length_eq_zero_iff.mp (by omega)
    subst this
    unfold ctrLoop
    rw [if_pos (show ([] : Bytes).length = 0 from rfl)]
    show _ = some (_, pack32 (Spec.counterBlock iv 0))
    rw [counter_zero iv h]; rfl
  | succ n ih =>
    intro data iv hd h
    by_cases h0 : data.length = 0
    · exact ih data iv (by omega) h
    · obtain ⟨y, h1, h2⟩ := encryptRounds_spec key (pack32 iv)
      unfold ctrLoop
      rw [if_neg h0, h1]
      dsimp only
      rw [increment_spec iv h, ih (data.drop (min data.length 16)) _ (by rw [List.length_drop]; omega) (length_counter iv h 1)]
      dsimp only
      rw [counter_add iv h, spec_ctr_cons key iv data h h0, unpack32_spec, h2, pack32_spec, aes_eq, List.length_drop,
        show 1 + (data.length - min data.length 16 + 15) / 16 = (data.length + 15) / 16 by omega]

theorem unpack_pack (b : Bytes) (h : b.length = 16) : unpack32 (pack32 b) = b := by
  rw [unpack32_spec, pack32_spec]
  obtain ⟨a0, a1, a2, a3, a4, a5, a6, a7, a8, a9, a10, a11, b0, b1, b2, b3, rfl⟩ := sixteen b h
  rfl

/-- **C144** Counter mode of any length, and the counter that is left for the next call. -/
theorem ctr_exact (key iv data : Bytes) (h : iv.length = 16) :
    ctr128 (enable key) data iv = some (Spec.ctr key iv data, Spec.counterBlock iv ((data.length + 15) / 16)) := by
  unfold ctr128
  rw [ctrLoop_exact key data.length data iv (Nat.le_refl _) h]
  show some (_, unpack32 (pack32 _)) = _
  rw [unpack_pack _ (length_counter iv h _)]

example : Spec.counterBlock (List.replicate 12 7 ++ [0xff, 0xff, 0xff, 0xff]) 2 = List.replicate 12 7 ++ [0, 0, 0, 1] := by decide +kernel

/-- **C144** Symmetric encryption of less than 4 GB. -/
theorem crypt_exact_partial (outSize : Nat) (data key iv : Bytes) (hk : key.length = 16) (hi : iv.length = 16) (hs : data.length ≤ outSize) (hd : data.length < 2 ^ 32) :
    symCrypt outSize data (key ++ iv) = .ok (some (Spec.ctr key iv data, key ++ Spec.counterBlock iv ((data.length + 15) / 16))) := by
  unfold symCrypt
  have ht : (key ++ iv).take 16 = key := by rw [← hk]; exact List.take_left
  have hr : (key ++ iv).drop 16 = iv := by rw [← hk]; exact List.drop_left
  rw [if_neg (by omega), ht, hr, Nat.mod_eq_of_lt hd, List.take_of_length_le (Nat.le_refl _), ctr_exact key iv data hi]
  rfl

/-- **C144** An output buffer that is too small is refused, and nothing is written. -/
theorem crypt_small (outSize : Nat) (data key : Bytes) (hs : outSize < data.length) : symCrypt outSize data key = .error () := if_pos hs

theorem keyStream_length (key : Bytes) : ∀ (n : Nat) (iv : Bytes), (Spec.keyStream key iv n).length = 16 * n := by
  intro n iv
  unfold Spec.keyStream
  rw [List.length_flatMap, List.map_congr_left (g := fun _ => 16) (fun i _ => aes_length _ _), List.map_const', List.sum_replicate_nat, List.length_range]
  omega

theorem ctr_length (key iv data : Bytes) : (Spec.ctr key iv data).length = data.length := by
  unfold Spec.ctr Spec.xor
  rw [List.length_zipWith, keyStream_length]; omega

theorem xor_xor : ∀ (a k : Bytes), a.length ≤ k.length → Spec.xor (Spec.xor a k) k = a := by
  intro a
  induction a with
  | nil => intro k _; rfl
  | cons x a ih =>
    intro k hk
    cases k with
    | nil => simp at hk
    | cons y k =>
      show (x ^^^ y ^^^ y) :: Spec.xor (Spec.xor a k) k = _
      rw [ih k (by simpa using hk), UInt8.xor_assoc, UInt8.xor_self, UInt8.xor_zero]

/-- **C144** Decryption with the key and the IV of the encryption gives the data back. -/
theorem crypt_inverse (outSize outSize' : Nat) (data key iv : Bytes) (hk : key.length = 16) (hi : iv.length = 16) (hs : data.length ≤ outSize) (hs' : data.length ≤ outSize')
    (hd : data.length < 2 ^ 32) : ∃ c k k', symCrypt outSize data (key ++ iv) = .ok (some (c, k)) ∧ symCrypt outSize' c (key ++ iv) = .ok (some (data, k')) ∧ c.length = data.length := by
  have hl := ctr_length key iv data
  refine ⟨_, _, key ++ Spec.counterBlock iv ((data.length + 15) / 16), crypt_exact_partial outSize data key iv hk hi hs hd, ?_, hl⟩
  rw [crypt_exact_partial outSize' _ key iv hk hi (by omega) (by omega), hl]
  have : Spec.ctr key iv (Spec.ctr key iv data) = data := by
    conv => lhs; unfold Spec.ctr
    show Spec.xor (Spec.xor data _) (Spec.keyStream key iv (((Spec.ctr key iv data).length + 15) / 16)) = data
    rw [hl]
    exact xor_xor _ _ (by rw [keyStream_length]; omega)
  rw [this]

/-- **C144, negation** Of 4 GB of data nothing is encrypted, although the result is success. -/
theorem counterexample_4gb : ∃ (data key iv : Bytes), key.length = 16 ∧ iv.length = 16 ∧ 0 < data.length
    ∧ symCrypt data.length data (key ++ iv) = .ok (some ([], key ++ iv)) ∧ Spec.ctr key iv data ≠ [] := by
  refine ⟨List.replicate (2 ^ 32) 0, List.replicate 16 0, List.replicate 16 0, rfl, rfl, by rw [List.length_replicate]; omega, ?_, ?_⟩
  · unfold symCrypt
    have ht : (List.replicate 16 (0 : UInt8) ++ List.replicate 16 0).take 16 = List.replicate 16 0 := by decide
    have hr : (List.replicate 16 (0 : UInt8) ++ List.replicate 16 0).drop 16 = List.replicate 16 0 := by decide
    rw [if_neg (Nat.lt_irrefl _), List.length_replicate, Nat.mod_self, List.take_zero, ht, hr, ctr_exact _ _ _ List.length_replicate]
    show Except.ok (some (Spec.ctr (List.replicate 16 0) (List.replicate 16 0) [], _ ++ Spec.counterBlock (List.replicate 16 0) 0)) = _
    rw [counter_zero _ List.length_replicate]
    rfl
  · intro h
    have := ctr_length (List.replicate 16 0) (List.replicate 16 0) (List.replicate (2 ^ 32) 0)
    rw [h, List.length_replicate] at this
    simp at this

/-- A concrete case: SP 800-38A, F.5.1, the first bytes. -/
example : ∃ k, symCrypt 5 [0x6b, 0xc1, 0xbe, 0xe2, 0x2e] ([0x2b, 0x7e, 0x15, 0x16, 0x28, 0xae, 0xd2, 0xa6, 0xab, 0xf7, 0x15, 0x88, 0x09, 0xcf, 0x4f, 0x3c]
      ++ [0xf0, 0xf1, 0xf2, 0xf3, 0xf4, 0xf5, 0xf6, 0xf7, 0xf8, 0xf9, 0xfa, 0xfb, 0xfc, 0xfd, 0xfe, 0xff])
    = .ok (some ([0x87, 0x4d, 0x61, 0x91, 0xb6], k)) ∧ k.drop 16 = [0xf0, 0xf1, 0xf2, 0xf3, 0xf4, 0xf5, 0xf6, 0xf7, 0xf8, 0xf9, 0xfa, 0xfb, 0xfc, 0xfd, 0xff, 0x00] := by
  have h : Spec.aes [0x2b, 0x7e, 0x15, 0x16, 0x28, 0xae, 0xd2, 0xa6, 0xab, 0xf7, 0x15, 0x88, 0x09, 0xcf, 0x4f, 0x3c] [0xf0, 0xf1, 0xf2, 0xf3, 0xf4, 0xf5, 0xf6, 0xf7, 0xf8, 0xf9, 0xfa, 0xfb, 0xfc, 0xfd, 0xfe, 0xff]
      = [0xec, 0x8c, 0xdf, 0x73, 0x98, 0x60, 0x7c, 0xb0, 0xf2, 0xd2, 0x16, 0x75, 0xea, 0x9e, 0xa1, 0xe4] := Option.some.inj ((block_exact _ _).symm.trans (by decide +kernel))
  refine ⟨[0x2b, 0x7e, 0x15, 0x16, 0x28, 0xae, 0xd2, 0xa6, 0xab, 0xf7, 0x15, 0x88, 0x09, 0xcf, 0x4f, 0x3c]
    ++ Spec.counterBlock [0xf0, 0xf1, 0xf2, 0xf3, 0xf4, 0xf5, 0xf6, 0xf7, 0xf8, 0xf9, 0xfa, 0xfb, 0xfc, 0xfd, 0xfe, 0xff] 1,
    (crypt_exact_partial 5 _ _ _ rfl rfl (by decide) (by decide)).trans ?_, by decide +kernel⟩
  rw [spec_ctr_cons _ _ _ rfl (by decide), h]
  rfl

end Verif.RiotAes
