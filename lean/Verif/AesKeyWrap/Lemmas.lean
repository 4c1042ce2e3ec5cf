import Verif.AesKeyWrap.Model
import Verif.AesKeyWrap.Spec
import Verif.CommonMath.Props
namespace Verif.AesKeyWrap
open Spec

theorem blocks_flatten : ∀ (l : Bytes), l.length % 8 = 0 → (blocks l).flatten = l := by
  intro l
  fun_induction blocks l with
  | case1 a b c d e f g h rest ih =>
    intro hl
    simp only [List.length_cons] at hl
    simp [ih (by omega)]
  | case2 l hne =>
    intro hl
    match l, hne with
    | [], _ => rfl
    | [_], _ | [_, _], _ | [_, _, _], _ | [_, _, _, _], _ | [_, _, _, _, _], _ | [_, _, _, _, _, _], _
    | [_, _, _, _, _, _, _], _ => simp at hl
    | a :: b :: c :: d :: e :: f :: g :: h :: rest, hne => exact absurd rfl (hne a b c d e f g h rest)

theorem blocks_mem : ∀ (l : Bytes), ∀ b ∈ blocks l, b.length = 8 := by
  intro l
  fun_induction blocks l with
  | case1 a b c d e f g h rest ih =>
    intro x hx
    simp only [List.mem_cons] at hx
    rcases hx with rfl | hx
    · rfl
    · exact ih x hx
  | case2 l hne => simp

theorem blocks_of_flatten : ∀ (rs : List Bytes), (∀ r ∈ rs, r.length = 8) → blocks rs.flatten = rs
  | [], _ => by simp [blocks]
  | r :: rs, h => by
    have hr := h r (by simp)
    match r, hr with
    | [a, b, c, d, e, f, g, i], _ =>
      simp [blocks, blocks_of_flatten rs (fun r hr => h r (by simp [hr]))]

theorem flatten_length : ∀ (rs : List Bytes), (∀ r ∈ rs, r.length = 8) → rs.flatten.length = 8 * rs.length
  | [], _ => rfl
  | r :: rs, h => by
    have := h r (by simp)
    simp only [List.flatten_cons, List.length_append, List.length_cons,
      flatten_length rs (fun r hr => h r (by simp [hr]))]
    omega

theorem blocks_length (l : Bytes) (h : l.length % 8 = 0) : 8 * (blocks l).length = l.length := by
  rw [← flatten_length _ (blocks_mem l), blocks_flatten l h]

@[simp] theorem xorBytes_length (a b : Bytes) : (xorBytes a b).length = min a.length b.length := by
  simp [xorBytes]

theorem xorBytes_cancel : ∀ (a b : Bytes), a.length = b.length → xorBytes (xorBytes a b) b = a
  | [], [], _ => rfl
  | a :: as, b :: bs, h => by
    have := xorBytes_cancel as bs (by simpa using h)
    simp only [xorBytes, List.zipWith_cons_cons] at this ⊢
    rw [this, UInt8.xor_assoc, UInt8.xor_self, UInt8.xor_zero]
  | [], _ :: _, h => by simp at h
  | _ :: _, [], h => by simp at h

theorem toBE_zero8 : toBE 8 0 = List.replicate 8 0 := by decide

theorem inc_toBE (k : Nat) (h : k + 1 < 2 ^ 64) : (CommonMath.increment (toBE 8 k) false).2 = toBE 8 (k + 1) := by
  have e : (256 : Nat) ^ 8 = 2 ^ 64 := by decide
  have hk : beNat (toBE 8 k) = k := by rw [beNat_toBE, e, Nat.mod_eq_of_lt (by omega)]
  obtain ⟨out, h1, h2, h3⟩ := CommonMath.increment_adds_one (toBE 8 k) false
    (by intro h; have := congrArg List.length h; simp at this)
    (by rw [hk, toBE_length, e]; exact h)
  rw [h1]
  apply beNat_inj
  · simp [h2]
  · rw [h3, hk, beNat_toBE, e, Nat.mod_eq_of_lt h]

theorem dec_toBE (k : Nat) (h : k + 1 < 2 ^ 64) : (CommonMath.decrement (toBE 8 (k + 1)) false).2 = toBE 8 k := by
  have e : (256 : Nat) ^ 8 = 2 ^ 64 := by decide
  have hk : beNat (toBE 8 (k + 1)) = k + 1 := by rw [beNat_toBE, e, Nat.mod_eq_of_lt (by omega)]
  obtain ⟨out, h1, h2, h3⟩ := CommonMath.decrement_subtracts_one (toBE 8 (k + 1)) false
    (by rw [hk]; omega)
  rw [h1]
  apply beNat_inj
  · simp [h2]
  · show beNat out = _
    rw [beNat_toBE, e, Nat.mod_eq_of_lt (by omega)]; omega

/-- The index-based pass is `n` shift-register steps. -/
theorem wrapPass_steps (E : Bytes → Bytes) : ∀ (rs : List Bytes) (a : Bytes) (k : Nat) (tail : List Bytes),
    k + rs.length < 2 ^ 64 →
    ∃ a' rs', wrapPass (fun _ b => some (E b)) a (toBE 8 k) rs = some (a', toBE 8 (k + rs.length), rs') ∧
      rs'.length = rs.length ∧ steps E (k + 1) rs.length (a, rs ++ tail) = (a', tail ++ rs')
  | [], a, k, tail, _ => ⟨a, [], by simp [wrapPass, steps]⟩
  | r :: rs, a, k, tail, h => by
    simp only [List.length_cons] at h
    obtain ⟨a', rs', h1, h2, h3⟩ := wrapPass_steps E rs
      (xorBytes ((E (a ++ r)).take 8) (toBE 8 (k + 1))) (k + 1) (tail ++ [(E (a ++ r)).drop 8]) (by omega)
    refine ⟨a', (E (a ++ r)).drop 8 :: rs', ?_, by simp [h2], ?_⟩
    · simp only [wrapPass, Option.bind_eq_bind, Option.bind_some, inc_toBE k (by omega), h1, List.length_cons]
      simp [Nat.add_comm, Nat.add_left_comm]
    · simp only [List.length_cons, List.cons_append, steps, step, List.append_assoc]
      simpa [xorBytes] using h3

theorem steps_add (E : Bytes → Bytes) : ∀ (m n t : Nat) (s), steps E t (m + n) s = steps E (t + m) n (steps E t m s)
  | 0, n, t, s => by simp [steps]
  | m + 1, n, t, s => by
    rw [show m + 1 + n = (m + n) + 1 by omega, steps, steps_add E m n (t + 1), steps,
      show t + 1 + m = t + (m + 1) by omega]

theorem wrapLoop_steps (E : Bytes → Bytes) : ∀ (j : Nat) (rs : List Bytes) (a : Bytes) (k : Nat),
    k + j * rs.length < 2 ^ 64 →
    ∃ a' rs', wrapLoop (fun _ b => some (E b)) j a (toBE 8 k) rs = some (a', toBE 8 (k + j * rs.length), rs') ∧
      rs'.length = rs.length ∧ steps E (k + 1) (j * rs.length) (a, rs) = (a', rs')
  | 0, rs, a, k, _ => ⟨a, rs, by simp [wrapLoop, steps]⟩
  | j + 1, rs, a, k, h => by
    have e : (j + 1) * rs.length = rs.length + j * rs.length := by rw [Nat.add_mul]; omega
    rw [e] at h ⊢
    obtain ⟨a1, rs1, h1, h2, h3⟩ := wrapPass_steps E rs a k [] (by omega)
    obtain ⟨a', rs', h4, h5, h6⟩ := wrapLoop_steps E j rs1 a1 (k + rs.length) (by rw [h2]; omega)
    simp only [List.append_nil, List.nil_append] at h3
    rw [h2] at h4 h5 h6
    refine ⟨a', rs', ?_, h5, ?_⟩
    · simp only [wrapLoop, h1, Option.bind_eq_bind, Option.bind_some, h4, Nat.add_assoc]
    · rw [steps_add, h3, ← h6]; congr 1; omega

/-- One pass keeps the sizes, and the reversed pass undoes it. `tail` is what the outer recursion already did. -/
theorem wrapPass_inv {E D : Bytes → Bytes} (hc : IsCipher E D) : ∀ (rs : List Bytes) (a : Bytes) (k : Nat),
    a.length = 8 → (∀ r ∈ rs, r.length = 8) → k + rs.length < 2 ^ 64 →
    ∃ a' rs', wrapPass (fun _ b => some (E b)) a (toBE 8 k) rs = some (a', toBE 8 (k + rs.length), rs') ∧
      a'.length = 8 ∧ rs'.length = rs.length ∧ (∀ r ∈ rs', r.length = 8) ∧
      ∀ (more : List Bytes), unwrapPass (fun _ b => some (D b)) a' (toBE 8 (k + rs.length)) (rs'.reverse ++ more) =
        (unwrapPass (fun _ b => some (D b)) a (toBE 8 k) more).map (fun (x, y, z) => (x, y, rs.reverse ++ z))
  | [], a, k, ha, _, _ => by
    refine ⟨a, [], by simp [wrapPass], ha, rfl, by simp, ?_⟩
    intro more
    simp only [List.reverse_nil, List.nil_append, List.length_nil, Nat.add_zero]
    cases unwrapPass (fun _ b => some (D b)) a (toBE 8 k) more <;> simp
  | r :: rs, a, k, ha, hr, h => by
    simp only [List.length_cons] at h
    have hr0 := hr r (by simp)
    have hb : (a ++ r).length = 16 := by simp [ha, hr0]
    have hE := hc.len _ hb
    have hx : (xorBytes ((E (a ++ r)).take 8) (toBE 8 (k + 1))).length = 8 := by simp [hE]
    obtain ⟨a', rs', h1, h2, h3, h4, h5⟩ := wrapPass_inv hc rs
      (xorBytes ((E (a ++ r)).take 8) (toBE 8 (k + 1))) (k + 1) hx (fun r hr' => hr r (by simp [hr'])) (by omega)
    refine ⟨a', (E (a ++ r)).drop 8 :: rs', ?_, h2, by simp [h3], ?_, ?_⟩
    · simp only [wrapPass, Option.bind_eq_bind, Option.bind_some, inc_toBE k (by omega), h1, List.length_cons]
      simp [Nat.add_comm, Nat.add_left_comm]
    · intro x hxm
      simp only [List.mem_cons] at hxm
      rcases hxm with rfl | hxm
      · simp [hE]
      · exact h4 x hxm
    · intro more
      have := h5 ((E (a ++ r)).drop 8 :: more)
      simp only [List.length_cons, List.reverse_cons, List.append_assoc, List.cons_append, List.nil_append]
      rw [show k + (rs.length + 1) = k + 1 + rs.length by omega, this]
      have hxc : xorBytes (xorBytes ((E (a ++ r)).take 8) (toBE 8 (k + 1))) (toBE 8 (k + 1)) = (E (a ++ r)).take 8 :=
        xorBytes_cancel _ _ (by simp [hE])
      have ht : (a ++ r).take 8 = a := by rw [← ha, List.take_left]
      have hd : (a ++ r).drop 8 = r := by rw [← ha, List.drop_left]
      simp only [unwrapPass, Option.bind_eq_bind, Option.bind_some, hxc, List.take_append_drop, hc.inv _ hb,
        ht, hd, dec_toBE k (by omega)]
      cases unwrapPass (fun _ b => some (D b)) a (toBE 8 k) more <;> simp

theorem wrapLoop_inv {E D : Bytes → Bytes} (hc : IsCipher E D) : ∀ (j : Nat) (rs : List Bytes) (a : Bytes) (k : Nat),
    a.length = 8 → (∀ r ∈ rs, r.length = 8) → k + j * rs.length < 2 ^ 64 →
    ∃ a' rs', wrapLoop (fun _ b => some (E b)) j a (toBE 8 k) rs = some (a', toBE 8 (k + j * rs.length), rs') ∧
      a'.length = 8 ∧ rs'.length = rs.length ∧ (∀ r ∈ rs', r.length = 8) ∧
      ∀ i, unwrapLoop (fun _ b => some (D b)) (j + i) a' (toBE 8 (k + j * rs.length)) rs'.reverse =
        unwrapLoop (fun _ b => some (D b)) i a (toBE 8 k) rs.reverse
  | 0, rs, a, k, ha, hr, _ => ⟨a, rs, by simpa [wrapLoop] using ⟨ha, hr⟩⟩
  | j + 1, rs, a, k, ha, hr, h => by
    have e : (j + 1) * rs.length = rs.length + j * rs.length := by rw [Nat.add_mul]; omega
    rw [e] at h ⊢
    obtain ⟨a1, rs1, h1, h2, h3, h4, h5⟩ := wrapPass_inv hc rs a k ha hr (by omega)
    obtain ⟨a', rs', g1, g2, g3, g4, g5⟩ := wrapLoop_inv hc j rs1 a1 (k + rs.length) h2 h4 (by rw [h3]; omega)
    rw [h3] at g1 g3 g5
    refine ⟨a', rs', ?_, g2, g3, g4, ?_⟩
    · simp only [wrapLoop, h1, Option.bind_eq_bind, Option.bind_some, g1, Nat.add_assoc]
    · intro i
      rw [show j + 1 + i = j + (i + 1) by omega, ← Nat.add_assoc k, g5 (i + 1)]
      have := h5 []
      simp only [List.append_nil] at this
      simp [unwrapLoop, this, unwrapPass]

/-- `aes_key_wrap_data_unwrap` undoes `aes_key_wrap_data_wrap`, whatever the initial value. -/
theorem dataUnwrap_dataWrap {E D : Bytes → Bytes} (hc : IsCipher E D) (initial data : Bytes) (hi : initial.length = 8)
    (h8 : data.length % 8 = 0) (hlen : data.length < 2 ^ 61) :
    ∃ out, dataWrap (fun _ b => some (E b)) initial data = some out ∧ out.length = data.length + 8 ∧
      dataUnwrap (fun _ b => some (D b)) out = some (initial, data) := by
  have hbl := blocks_length data h8
  obtain ⟨a', rs', h1, h2, h3, h4, h5⟩ := wrapLoop_inv hc 6 (blocks data) initial 0 hi (blocks_mem data) (by omega)
  rw [toBE_zero8] at h1
  refine ⟨a' ++ rs'.flatten, by simp only [dataWrap, h1, Option.bind_eq_bind, Option.bind_some]; rfl, ?_, ?_⟩
  · rw [List.length_append, flatten_length _ h4]; omega
  · have := h5 0
    simp only [Nat.add_zero, Nat.zero_add] at this
    have hn : ((a' ++ rs'.flatten).length - 8) / 8 = (blocks data).length := by
      rw [List.length_append, flatten_length _ h4]; omega
    have ht : (a' ++ rs'.flatten).take 8 = a' := by rw [← h2, List.take_left]
    have hd : (a' ++ rs'.flatten).drop 8 = rs'.flatten := by rw [← h2, List.drop_left]
    simp only [dataUnwrap, hn, ht, hd, blocks_of_flatten _ h4, Nat.mul_comm _ 6, this]
    simp [unwrapLoop, blocks_flatten data h8]

/-- The reversed pass keeps the sizes and the pass undoes it. -/
theorem unwrapPass_inv {E D : Bytes → Bytes} (hc : IsPermutation E D) : ∀ (rs : List Bytes) (a : Bytes) (k : Nat),
    a.length = 8 → (∀ r ∈ rs, r.length = 8) → k + rs.length < 2 ^ 64 →
    ∃ a' rs', unwrapPass (fun _ b => some (D b)) a (toBE 8 (k + rs.length)) rs = some (a', toBE 8 k, rs') ∧
      a'.length = 8 ∧ rs'.length = rs.length ∧ (∀ r ∈ rs', r.length = 8) ∧
      ∀ (more : List Bytes), wrapPass (fun _ b => some (E b)) a' (toBE 8 k) (rs'.reverse ++ more) =
        (wrapPass (fun _ b => some (E b)) a (toBE 8 (k + rs.length)) more).map
          (fun (x, y, z) => (x, y, rs.reverse ++ z))
  | [], a, k, ha, _, _ => by
    refine ⟨a, [], by simp [unwrapPass], ha, rfl, by simp, ?_⟩
    intro more
    simp only [List.reverse_nil, List.nil_append, List.length_nil, Nat.add_zero]
    cases wrapPass (fun _ b => some (E b)) a (toBE 8 k) more <;> simp
  | r :: rs, a, k, ha, hr, h => by
    simp only [List.length_cons] at h
    have hr0 := hr r (by simp)
    have hx : (xorBytes a (toBE 8 (k + (rs.length + 1)))).length = 8 := by simp [ha]
    have hb : (xorBytes a (toBE 8 (k + (rs.length + 1))) ++ r).length = 16 := by
      rw [List.length_append, hx, hr0]
    have hD := hc.dlen _ hb
    obtain ⟨a', rs', h1, h2, h3, h4, h5⟩ := unwrapPass_inv hc rs
      ((D (xorBytes a (toBE 8 (k + (rs.length + 1))) ++ r)).take 8) k (by simp [hD])
      (fun r hr' => hr r (by simp [hr'])) (by omega)
    refine ⟨a', (D (xorBytes a (toBE 8 (k + (rs.length + 1))) ++ r)).drop 8 :: rs', ?_, h2, by simp [h3], ?_, ?_⟩
    · simp only [unwrapPass, Option.bind_eq_bind, Option.bind_some, List.length_cons,
        show k + (rs.length + 1) = k + rs.length + 1 by omega, dec_toBE (k + rs.length) (by omega)]
      simp only [show k + (rs.length + 1) = k + rs.length + 1 by omega] at h1
      rw [h1]; rfl
    · intro x hxm
      simp only [List.mem_cons] at hxm
      rcases hxm with rfl | hxm
      · simp [hD]
      · exact h4 x hxm
    · intro more
      have := h5 ((D (xorBytes a (toBE 8 (k + (rs.length + 1))) ++ r)).drop 8 :: more)
      simp only [List.length_cons, List.reverse_cons, List.append_assoc, List.cons_append, List.nil_append]
      rw [this]
      have hxc : xorBytes (xorBytes a (toBE 8 (k + (rs.length + 1)))) (toBE 8 (k + (rs.length + 1))) = a :=
        xorBytes_cancel _ _ (by simp [ha])
      have ht : (xorBytes a (toBE 8 (k + (rs.length + 1))) ++ r).take 8 = xorBytes a (toBE 8 (k + (rs.length + 1))) := by
        rw [List.take_left' hx]
      have hd : (xorBytes a (toBE 8 (k + (rs.length + 1))) ++ r).drop 8 = r := by rw [List.drop_left' hx]
      simp only [wrapPass, Option.bind_eq_bind, Option.bind_some, List.take_append_drop, hc.dinv _ hb,
        ht, hd, inc_toBE (k + rs.length) (by omega)]
      rw [show k + rs.length + 1 = k + (rs.length + 1) by omega, hxc]
      cases wrapPass (fun _ b => some (E b)) a (toBE 8 (k + (rs.length + 1))) more <;> simp

theorem unwrapLoop_inv {E D : Bytes → Bytes} (hc : IsPermutation E D) : ∀ (j : Nat) (rs : List Bytes) (a : Bytes) (k : Nat),
    a.length = 8 → (∀ r ∈ rs, r.length = 8) → k + j * rs.length < 2 ^ 64 →
    ∃ a' rs', unwrapLoop (fun _ b => some (D b)) j a (toBE 8 (k + j * rs.length)) rs = some (a', toBE 8 k, rs') ∧
      a'.length = 8 ∧ rs'.length = rs.length ∧ (∀ r ∈ rs', r.length = 8) ∧
      ∀ i, wrapLoop (fun _ b => some (E b)) (j + i) a' (toBE 8 k) rs'.reverse =
        wrapLoop (fun _ b => some (E b)) i a (toBE 8 (k + j * rs.length)) rs.reverse
  | 0, rs, a, k, ha, hr, _ => ⟨a, rs, by simpa [unwrapLoop] using ⟨ha, hr⟩⟩
  | j + 1, rs, a, k, ha, hr, h => by
    have e : k + (j + 1) * rs.length = k + j * rs.length + rs.length := by rw [Nat.add_mul]; omega
    rw [e] at h ⊢
    obtain ⟨a1, rs1, h1, h2, h3, h4, h5⟩ := unwrapPass_inv hc rs a (k + j * rs.length) ha hr h
    obtain ⟨a', rs', g1, g2, g3, g4, g5⟩ := unwrapLoop_inv hc j rs1 a1 k h2 h4 (by rw [h3]; omega)
    rw [h3] at g1 g3 g5
    refine ⟨a', rs', ?_, g2, g3, g4, ?_⟩
    · simp only [unwrapLoop, h1, Option.bind_eq_bind, Option.bind_some, g1]
    · intro i
      rw [show j + 1 + i = j + (i + 1) by omega, g5 (i + 1)]
      have := h5 []
      simp only [List.append_nil] at this
      simp [wrapLoop, this, wrapPass]

/-- Whatever `aes_key_wrap_data_unwrap` returns wraps to its input. -/
theorem dataWrap_dataUnwrap {E D : Bytes → Bytes} (hc : IsPermutation E D) (wrapped : Bytes)
    (h8 : wrapped.length % 8 = 0) (h16 : 8 ≤ wrapped.length) (hlen : wrapped.length < 2 ^ 61) :
    ∃ check data, dataUnwrap (fun _ b => some (D b)) wrapped = some (check, data) ∧ check.length = 8 ∧
      data.length + 8 = wrapped.length ∧ dataWrap (fun _ b => some (E b)) check data = some wrapped := by
  have hbl := blocks_length (wrapped.drop 8) (by simp; omega)
  simp only [List.length_drop] at hbl
  obtain ⟨a', rs', h1, h2, h3, h4, h5⟩ := unwrapLoop_inv hc 6 (blocks (wrapped.drop 8)).reverse (wrapped.take 8) 0
    (by simp; omega) (by simpa using blocks_mem _) (by simp; omega)
  simp only [Nat.zero_add, List.length_reverse] at h1 h3 h5
  have hm : ∀ r ∈ rs'.reverse, r.length = 8 := by simpa using h4
  refine ⟨a', rs'.reverse.flatten, ?_, h2, ?_, ?_⟩
  · rw [show 6 * (blocks (wrapped.drop 8)).length = (wrapped.length - 8) / 8 * 6 by omega] at h1
    simp only [dataUnwrap, h1, Option.bind_eq_bind, Option.bind_some]; rfl
  · rw [flatten_length _ hm, List.length_reverse]; omega
  · have := h5 0
    rw [show wrapLoop (fun _ b => some (E b)) 0 (wrapped.take 8) _ _ = some (_, _, _) from rfl] at this
    simp only [Nat.add_zero, toBE_zero8] at this
    simp only [dataWrap, blocks_of_flatten _ hm, this, Option.bind_eq_bind, Option.bind_some,
      List.reverse_reverse, pure, blocks_flatten (wrapped.drop 8) (by simp; omega), List.take_append_drop]

end Verif.AesKeyWrap
