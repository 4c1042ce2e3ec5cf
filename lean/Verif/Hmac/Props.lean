import Verif.Hmac.Model
import Verif.Hmac.Spec
/-! Property C55: HMAC. -/
namespace Verif.Hmac

/-- Sizes of the supported algorithms: the digest fits in a block, the block in the key buffer. -/
structure Alg.Ok (A : Alg) : Prop where
  len : ∀ m, (A.H m).length = A.hashLen
  hb : A.hashLen ≤ A.blockSize
  bk : A.blockSize ≤ keyBuf

theorem innerKey_take (A : Alg) (hA : A.Ok) (kb k : Bytes) (hk : k.length ≤ A.blockSize) (hkb : kb.length = keyBuf) :
    (innerKey A (writeAt kb 0 k) k.length).take A.blockSize =
      (k ++ List.replicate (A.blockSize - k.length) 0).map (· ^^^ 0x36) := by
  have hbk := hA.bk
  apply List.ext_getElem
  · simp [innerKey]; omega
  · intro i h1 h2
    simp only [innerKey, List.length_take, List.length_map, List.length_range] at h1
    simp only [innerKey, List.getElem_take, List.getElem_map, List.getElem_range]
    rw [if_pos (by omega)]
    by_cases hi : i < k.length
    · rw [if_pos hi, List.getElem_append_left hi]
      congr 1
      have : k.take kb.length = k := List.take_of_length_le (by omega)
      simp [writeAt, this, List.getElem?_append_left hi, hi]
    · rw [if_neg hi, List.getElem_append_right (by omega)]
      simp

theorem outerKey_take (A : Alg) (hA : A.Ok) (kb k : Bytes) (hk : k.length ≤ A.blockSize) (hkb : kb.length = keyBuf) :
    (outerKey A (innerKey A (writeAt kb 0 k) k.length)).take A.blockSize =
      (k ++ List.replicate (A.blockSize - k.length) 0).map (· ^^^ 0x5c) := by
  have hbk := hA.bk
  have hin := innerKey_take A hA kb k hk hkb
  have hl : (innerKey A (writeAt kb 0 k) k.length).length = keyBuf := by simp [innerKey]
  apply List.ext_getElem
  · simp [outerKey]; omega
  · intro i h1 h2
    simp only [outerKey, List.length_take, List.length_map, List.length_range] at h1
    have hget : (innerKey A (writeAt kb 0 k) k.length).getD i 0 =
        ((k ++ List.replicate (A.blockSize - k.length) 0).map (· ^^^ 0x36)).getD i 0 := by
      rw [← hin, List.getD_eq_getElem?_getD, List.getD_eq_getElem?_getD, List.getElem?_take_of_lt (by omega)]
    simp only [outerKey, List.getElem_take, List.getElem_map, List.getElem_range]
    rw [if_pos (by omega), hget]
    have h2' : i < (k ++ List.replicate (A.blockSize - k.length) (0 : UInt8)).length := by simpa using h2
    rw [List.getD_eq_getElem?_getD, List.getElem?_map, List.getElem?_eq_getElem h2']
    simp only [Option.map_some, Option.getD_some]
    rw [UInt8.xor_assoc, UInt8.xor_comm 0x5c, ← UInt8.xor_assoc 0x36, UInt8.xor_self, UInt8.zero_xor]

theorem updates_ok (A : Alg) (hf : ∀ n, A.fail n = false) : ∀ (ds : List Bytes) (a : Bytes) (n : Nat),
    updates A ⟨some a, n⟩ ds = (.ok, ⟨some (a ++ ds.flatten), n + ds.length⟩)
  | [], a, n => by simp [updates]
  | d :: ds, a, n => by
    simp only [updates, update, hf]
    rw [updates_ok A hf ds]
    simp [Nat.add_comm, Nat.add_left_comm]

/-- C55: without engine failures the result is the RFC 2104 HMAC of the concatenated updates, for every key length and every way
the message was split. Afterwards the key buffer is zero and the engine idle. -/
theorem hmac_rfc2104 (A : Alg) (hA : A.Ok) (hf : ∀ n, A.fail n = false) (n : Nat) (kb key : Bytes) (chunks : List Bytes)
    (outLen : Nat) (hkb : kb.length = keyBuf) (hout : A.hashLen ≤ outLen) :
    ∃ n', hmac A ⟨none, n⟩ kb key chunks outLen =
      (.ok, Spec.hmac A.H A.blockSize key chunks.flatten, List.replicate keyBuf 0, ⟨none, n'⟩) := by
  have hb := hA.hb
  have htake : ∀ m, (A.H m).take A.hashLen = A.H m := fun m => List.take_of_length_le (by rw [hA.len]; omega)
  by_cases hlong : key.length > A.blockSize
  · have hk : (A.H key).length ≤ A.blockSize := by rw [hA.len]; exact hb
    have hin := innerKey_take A hA kb (A.H key) hk hkb
    have hou := outerKey_take A hA kb (A.H key) hk hkb
    rw [hA.len] at hin hou
    simp only [hmac, init, hlong, if_true, calculate, hf, Option.isSome_none, Bool.or_self, Bool.false_eq_true, if_false,
      start, update, updates_ok A hf]
    rw [if_neg (by omega)]
    simp only [hmacFinish]
    rw [if_neg (by omega)]
    simp only [finish, hf, start, Option.isSome_none, Bool.or_self, Bool.false_eq_true, if_false, update, htake, hin, hou,
      List.nil_append, Spec.hmac, Spec.blockKey, hlong, if_true, hA.len, Prod.mk.injEq, true_and]
    exact ⟨_, rfl⟩
  · have hk : key.length ≤ A.blockSize := by omega
    have hin := innerKey_take A hA kb key hk hkb
    have hou := outerKey_take A hA kb key hk hkb
    simp only [hmac, init, hlong, if_false, hf, Option.isSome_none, Bool.or_self, Bool.false_eq_true,
      start, update, updates_ok A hf]
    rw [if_neg (by omega)]
    simp only [hmacFinish]
    rw [if_neg (by omega)]
    simp only [finish, hf, start, Option.isSome_none, Bool.or_self, Bool.false_eq_true, if_false, update, htake, hin, hou,
      List.nil_append, Spec.hmac, Spec.blockKey, hlong, Prod.mk.injEq, true_and]
    exact ⟨_, rfl⟩

example : let A : Alg := ⟨fun m => [UInt8.ofNat m.length, m.foldl (· + ·) 0], 2, 4, fun _ => false⟩
    A.Ok ∧ (hmac A ⟨none, 0⟩ (List.replicate 128 9) [1, 2, 3, 4, 5] [[7], [], [8, 9]] 2).2.1 =
      Spec.hmac A.H 4 [1, 2, 3, 4, 5] [7, 8, 9] :=
  ⟨⟨fun _ => rfl, by decide, by decide⟩, by decide +kernel⟩

theorem start_fail {A : Alg} {e e' : Engine} {s} (h : start A e = (s, e')) (hn : e.active = none) (hs : s ≠ .ok) :
    e'.active = none := by
  simp only [start] at h; split at h <;> simp_all
  rw [← h.2]

theorem finish_ok {A : Alg} {e e' : Engine} {out} (h : finish A e = (.ok, out, e')) : e'.active = none := by
  simp only [finish] at h; split at h <;> simp_all
  rw [← h.2]

theorem init_cases (A : Alg) (n : Nat) (kb key : Bytes) :
    (init A ⟨none, n⟩ kb key).1 = .ok ∨
    ((init A ⟨none, n⟩ kb key).2.1 = List.replicate keyBuf 0 ∧ (init A ⟨none, n⟩ kb key).2.2.active = none) := by
  simp only [init]
  split
  · split
    · rename_i h
      have hc : ∀ e, calculate A ⟨none, n⟩ key = e → e.2.2.active = none := by
        intro e he; simp only [calculate] at he; split at he <;> simp [← he]
      have hc := hc _ h
      split
      · split
        · exact .inl rfl
        · exact .inr ⟨rfl, rfl⟩
      · rename_i hne hs
        exact .inr ⟨rfl, start_fail hs hc (by simpa using hne)⟩
    · rename_i h
      refine .inr ⟨rfl, ?_⟩
      have hc : ∀ e, calculate A ⟨none, n⟩ key = e → e.2.2.active = none := by
        intro e he; simp only [calculate] at he; split at he <;> simp [← he]
      have := hc _ h
      exact this
  · split
    · split
      · exact .inl rfl
      · exact .inr ⟨rfl, rfl⟩
    · rename_i hne hs
      exact .inr ⟨rfl, start_fail hs rfl (by simpa using hne)⟩

theorem hmacFinish_clean (A : Alg) (e : Engine) (kb : Bytes) (outLen : Nat) (ho : A.hashLen ≤ outLen) :
    (hmacFinish A e kb outLen).2.2.1 = List.replicate keyBuf 0 ∧ (hmacFinish A e kb outLen).2.2.2.active = none := by
  simp only [hmacFinish]
  rw [if_neg (by omega)]
  split
  · split
    · split
      · split
        · split
          · rename_i h; exact ⟨rfl, finish_ok h⟩
          · exact ⟨rfl, rfl⟩
        · exact ⟨rfl, rfl⟩
      · exact ⟨rfl, rfl⟩
    · exact ⟨rfl, rfl⟩
  · exact ⟨rfl, rfl⟩

/-- C55: however the engine calls fail, at the end of the operation the key buffer is zero and the engine is released. -/
theorem hmac_releases (A : Alg) (n : Nat) (kb key : Bytes) (chunks : List Bytes) (outLen : Nat) :
    (hmac A ⟨none, n⟩ kb key chunks outLen).2.2.1 = List.replicate keyBuf 0 ∧
    (hmac A ⟨none, n⟩ kb key chunks outLen).2.2.2.active = none := by
  simp only [hmac]
  split
  · split
    · exact ⟨rfl, rfl⟩
    · split
      · exact hmacFinish_clean A _ _ _ (by omega)
      · exact ⟨rfl, rfl⟩
  · rename_i hne hi
    have := init_cases A n kb key
    rw [hi] at this
    exact this.resolve_left hne

example : let A : Alg := ⟨fun m => [UInt8.ofNat m.length, m.foldl (· + ·) 0], 2, 4, fun n => n == 5⟩
    (hmac A ⟨none, 0⟩ (List.replicate 128 9) [1, 2, 3] [[7], [], [8, 9]] 2).1 = .hashError := by decide +kernel

/-- C55: a failed HKDF extract leaves no pseudorandom key behind; a successful one stores the RFC 5869 PRK. -/
theorem extract_exact (A : Alg) (n : Nat) (kb ikm salt : Bytes) :
    ((extract A ⟨none, n⟩ kb ikm salt).1 ≠ .ok → (extract A ⟨none, n⟩ kb ikm salt).2.1 = .reset) ∧
    (A.Ok → (∀ n, A.fail n = false) → A.hashLen ≤ prkBuf → kb.length = keyBuf →
      (extract A ⟨none, n⟩ kb ikm salt).1 = .ok ∧ (extract A ⟨none, n⟩ kb ikm salt).2.1.valid = true ∧
      (extract A ⟨none, n⟩ kb ikm salt).2.1.prk.take A.hashLen = Spec.hmac A.H A.blockSize salt ikm) := by
  constructor
  · simp only [extract]; split <;> simp
  · intro hA hf hl hkb
    obtain ⟨n', h⟩ := hmac_rfc2104 A hA hf n kb salt [ikm] prkBuf hkb hl
    simp only [extract, h, List.flatten_cons, List.flatten_nil, List.append_nil, true_and]
    have : (Spec.hmac A.H A.blockSize salt ikm).length = A.hashLen := hA.len _
    simp only [writeAt, List.take_zero, List.nil_append, List.length_replicate, Nat.sub_zero]
    rw [List.take_of_length_le (l := Spec.hmac A.H A.blockSize salt ikm) (by omega), List.take_left' this]

end Verif.Hmac
