import Verif.Base64.Model
/-! Property C13 of `base64_core.c`. -/
namespace Verif.Base64

/-- RFC 4648 table 1: the value of a base64 character. -/
def sextet (c : UInt8) : Option Nat :=
  if 'A'.toNat ≤ c.toNat ∧ c.toNat ≤ 'Z'.toNat then some (c.toNat - 'A'.toNat)
  else if 'a'.toNat ≤ c.toNat ∧ c.toNat ≤ 'z'.toNat then some (c.toNat - 'a'.toNat + 26)
  else if '0'.toNat ≤ c.toNat ∧ c.toNat ≤ '9'.toNat then some (c.toNat - '0'.toNat + 52)
  else if c.toNat = '+'.toNat then some 62
  else if c.toNat = '/'.toNat then some 63
  else none

/-- RFC 4648 section 4: decode a NUL terminated string of groups of four characters. Padding is only allowed in the
last group and the unused bits must be zero. -/
def decode : Bytes → Option Bytes
  | [0] => some []
  | [a, b, 0x3d, 0x3d, 0] => do
    let x ← sextet a
    let y ← sextet b
    if y % 16 = 0 then some [UInt8.ofNat (x * 4 + y / 16)] else none
  | [a, b, c, 0x3d, 0] => do
    let x ← sextet a
    let y ← sextet b
    let z ← sextet c
    if z % 4 = 0 then some [UInt8.ofNat (x * 4 + y / 16), UInt8.ofNat (y % 16 * 16 + z / 4)] else none
  | a :: b :: c :: d :: rest => do
    let x ← sextet a
    let y ← sextet b
    let z ← sextet c
    let w ← sextet d
    let tail ← decode rest
    some (UInt8.ofNat (x * 4 + y / 16) :: UInt8.ofNat (y % 16 * 16 + z / 4) :: UInt8.ofNat (z % 4 * 64 + w) :: tail)
  | _ => none

theorem sextet_enc : ∀ i : Fin 64, sextet (enc i.val) = some i.val := by decide +kernel
theorem enc_ne_pad : ∀ i : Fin 64, enc i.val ≠ 0x3d ∧ enc i.val ≠ 0 := by decide +kernel

theorem idx1 (x : UInt8) : x.toNat >>> 2 = x.toNat / 4 := by rw [Nat.shiftRight_eq_div_pow]
theorem and3 (n : Nat) : n &&& 3 = n % 4 := Nat.and_two_pow_sub_one_eq_mod n 2
theorem and15 (n : Nat) : n &&& 15 = n % 16 := Nat.and_two_pow_sub_one_eq_mod n 4
theorem and63 (n : Nat) : n &&& 63 = n % 64 := Nat.and_two_pow_sub_one_eq_mod n 6

theorem idx2 (x y : UInt8) : ((x.toNat &&& 3) <<< 4) ||| (y.toNat >>> 4) = x.toNat % 4 * 16 + y.toNat / 16 := by
  have hy := y.toNat_lt
  have h : y.toNat >>> 4 < 2 ^ 4 := by rw [Nat.shiftRight_eq_div_pow]; omega
  rw [← Nat.shiftLeft_add_eq_or_of_lt h, and3, Nat.shiftLeft_eq, Nat.shiftRight_eq_div_pow]

theorem idx3 (x y : UInt8) : ((x.toNat &&& 15) <<< 2) ||| ((y.toNat >>> 6) &&& 3) = x.toNat % 16 * 4 + y.toNat / 64 := by
  have hy := y.toNat_lt
  have e : (y.toNat >>> 6) &&& 3 = y.toNat / 64 := by rw [and3, Nat.shiftRight_eq_div_pow]; omega
  have h : y.toNat / 64 < 2 ^ 2 := by omega
  rw [e, ← Nat.shiftLeft_add_eq_or_of_lt h, and15, Nat.shiftLeft_eq]

theorem ofNat_eq (n : Nat) (x : UInt8) (h : n = x.toNat) : UInt8.ofNat n = x := by
  subst h; simp

/-- C13: decoding the output by the rules of RFC 4648 gives back the input. -/
theorem decode_encodeBody (data : Bytes) : decode (encodeBody data) = some data := by
  fun_induction encodeBody data with
  | case1 b1 b2 b3 rest ih =>
    have h1 := b1.toNat_lt
    have h2 := b2.toNat_lt
    have h3 := b3.toNat_lt
    rw [idx1, idx2, idx3, and63]
    have s1 := sextet_enc ⟨b1.toNat / 4, by omega⟩
    have s2 := sextet_enc ⟨b1.toNat % 4 * 16 + b2.toNat / 16, by omega⟩
    have s3 := sextet_enc ⟨b2.toNat % 16 * 4 + b3.toNat / 64, by omega⟩
    have s4 := sextet_enc ⟨b3.toNat % 64, by omega⟩
    have p4 := (enc_ne_pad ⟨b3.toNat % 64, by omega⟩).1
    simp only at s1 s2 s3 s4 p4
    rw [decode]
    · rw [s1, s2, s3, s4, ih]
      simp only [Option.bind_eq_bind, Option.bind_some, Option.some.injEq, List.cons.injEq, and_true]
      refine ⟨ofNat_eq _ _ (by omega), ofNat_eq _ _ (by omega), ofNat_eq _ _ (by omega)⟩
    · intro _ hd _; exact p4 hd
    · intro hd _; exact p4 hd
  | case2 b1 b2 val =>
    have h1 := b1.toNat_lt
    have h2 := b2.toNat_lt
    simp only [val]
    have e3 : (b2.toNat &&& 15) <<< 2 = b2.toNat % 16 * 4 := by rw [and15, Nat.shiftLeft_eq]
    rw [idx1, idx2, e3]
    have s1 := sextet_enc ⟨b1.toNat / 4, by omega⟩
    have s2 := sextet_enc ⟨b1.toNat % 4 * 16 + b2.toNat / 16, by omega⟩
    have s3 := sextet_enc ⟨b2.toNat % 16 * 4, by omega⟩
    have p3 := (enc_ne_pad ⟨b2.toNat % 16 * 4, by omega⟩).1
    simp only at s1 s2 s3 p3
    rw [decode]
    · rw [s1, s2, s3]
      simp only [Option.bind_eq_bind, Option.bind_some]
      rw [if_pos (by omega)]
      simp only [Option.some.injEq, List.cons.injEq, and_true]
      refine ⟨ofNat_eq _ _ (by omega), ofNat_eq _ _ (by omega)⟩
    · intro h; exact p3 h
  | case3 b1 val =>
    have h1 := b1.toNat_lt
    simp only [val]
    have e2 : (b1.toNat &&& 3) <<< 4 = b1.toNat % 4 * 16 := by rw [and3, Nat.shiftLeft_eq]
    rw [idx1, e2]
    have s1 := sextet_enc ⟨b1.toNat / 4, by omega⟩
    have s2 := sextet_enc ⟨b1.toNat % 4 * 16, by omega⟩
    simp only at s1 s2
    rw [decode, s1, s2]
    simp only [Option.bind_eq_bind, Option.bind_some]
    rw [if_pos (by omega)]
    simp only [Option.some.injEq, List.cons.injEq, and_true]
    exact ofNat_eq _ _ (by omega)
  | case4 => rfl

/-- C13: the number of bytes stored, including the terminator, is four per started group of three plus one. -/
theorem encodeBody_length (data : Bytes) : (encodeBody data).length = (data.length + 2) / 3 * 4 + 1 := by
  fun_induction encodeBody data with
  | case1 b1 b2 b3 rest ih => simp only [List.length_cons, ih]; omega
  | case2 => simp
  | case3 => simp
  | case4 => rfl

/-- C13: an accepted buffer is filled with exactly the advertised length (for inputs below 1 GiB), whose decoding
is the input; a shorter buffer is refused. -/
theorem encode_exact (data : Bytes) (encLength : Nat) (h : data.length < 2 ^ 30) :
    (base64Length data.length ≤ encLength → ∃ out, encode data encLength = some out ∧
      out.length = base64Length data.length ∧ decode out = some data) ∧
    (encLength < base64Length data.length → encode data encLength = none) := by
  have hl : base64Length data.length = (data.length + 2) / 3 * 4 + 1 := by
    unfold base64Length
    generalize data.length = x at h
    rw [Nat.mod_eq_of_lt (by omega : 4 * x < 2 ^ 32)]
    obtain ⟨q, r, hr, rfl⟩ : ∃ q r, r < 3 ∧ x = 3 * q + r := ⟨x / 3, x % 3, by omega, by omega⟩
    have e1 : (3 * q + r + 2) / 3 = q + (r + 2) / 3 := by omega
    have e2 : 4 * (3 * q + r) / 3 = 4 * q + 4 * r / 3 := by omega
    rw [e1, e2]
    have : r = 0 ∨ r = 1 ∨ r = 2 := by omega
    rcases this with rfl | rfl | rfl <;> omega
  constructor
  · intro hle
    refine ⟨encodeBody data, ?_, ?_, decode_encodeBody data⟩
    · unfold encode; rw [if_neg (by omega)]
    · rw [encodeBody_length, hl]
  · intro hlt
    unfold encode; rw [if_pos hlt]

example : encode [0x4d, 0x61] 5 = some [0x54, 0x57, 0x45, 0x3d, 0] ∧ ([0x4d, 0x61] : Bytes).length < 2 ^ 30 := by decide +kernel

/-- C13, false of the code beyond 1 GiB on a 32-bit target: the size computation wraps, so a buffer that is far too small
is accepted. -/
theorem encode_size_check_wraps (data : Bytes) (h : data.length = 2 ^ 30) :
    encode data 1 = some (encodeBody data) ∧ 1 < (encodeBody data).length := by
  constructor
  · unfold encode base64Length; rw [h]; rfl
  · rw [encodeBody_length, h]; decide

example : (List.replicate (2 ^ 30) (0 : UInt8)).length = 2 ^ 30 := List.length_replicate

end Verif.Base64
