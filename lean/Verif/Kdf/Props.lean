import Verif.Kdf.Model
import Verif.Kdf.Spec
/-! Property C16 of `kdf.c`. -/
namespace Verif.Kdf

/-- Writing block `i + 1` (of `h` bytes, cut at the end of the buffer) after the first `i` blocks. -/
theorem write_block {B : Nat → Bytes} {h : Nat} (hh : 0 < h) (out : Bytes) (i c : Nat)
    (hB : (B (i + 1)).length = h) (hi : i * h < out.length) (hc : c = min h (out.length - i * h))
    (hp : ∀ p, p < i * h → out[p]? = (B (p / h + 1))[p % h]?) :
    (writeAt out (i * h) ((B (i + 1)).take c)).length = out.length ∧
    ∀ p, p < min ((i + 1) * h) out.length →
      (writeAt out (i * h) ((B (i + 1)).take c))[p]? = (B (p / h + 1))[p % h]? := by
  have e : (i + 1) * h = i * h + h := by rw [Nat.add_mul]; omega
  have hcl : ((B (i + 1)).take c).length = c := by simp; omega
  have hw : writeAt out (i * h) ((B (i + 1)).take c) =
      out.take (i * h) ++ ((B (i + 1)).take c ++ out.drop (i * h + c)) := by
    unfold writeAt
    simp only [List.append_assoc, hcl]
    rw [List.take_of_length_le (l := (B (i + 1)).take c) (by omega)]
  have ht : (out.take (i * h)).length = i * h := by simp; omega
  constructor
  · simp
  · intro p hp2
    rw [hw]
    by_cases h1 : p < i * h
    · rw [List.getElem?_append_left (by omega), List.getElem?_take_of_lt h1, hp p h1]
    · rw [List.getElem?_append_right (by omega), List.getElem?_append_left (by omega), ht,
        List.getElem?_take_of_lt (by omega)]
      have hd : p / h = i := by
        apply Nat.div_eq_of_lt_le
        · omega
        · omega
      have hm : p % h = p - i * h := by
        have := Nat.div_add_mod p h
        rw [hd, Nat.mul_comm] at this; omega
      rw [hd, hm]

theorem rounds_bounds (h n : Nat) (hh : 0 < h) :
    ∃ r, n / h + (if n % h ≠ 0 then 1 else 0) = r ∧ n ≤ r * h ∧ r * h < n + h := by
  have h1 := Nat.div_add_mod n h
  have h2 := Nat.mod_lt n hh
  refine ⟨_, rfl, ?_⟩
  rw [Nat.mul_comm] at h1
  split <;> rw [Nat.add_mul] <;> omega

theorem counterLoop_spec (mac : Bytes → Bytes) (h : Nat) (hh : 0 < h) (hm : ∀ m, (mac m).length = h)
    (label context : Bytes) (L keyLen : Nat) :
    ∀ (left i : Nat) (status : Status) (key : Bytes), key.length = keyLen →
      (i + left) * h < keyLen + h →
      (∀ p, p < i * h → p < keyLen → key[p]? = (Spec.K mac label context L (p / h + 1))[p % h]?) →
      (counterLoop (fun _ m => some (mac m)) label context L h keyLen left (i + 1) (min (i * h) keyLen) status key).1 =
        (if left = 0 then status else .ok) ∧
      (counterLoop (fun _ m => some (mac m)) label context L h keyLen left (i + 1) (min (i * h) keyLen) status key).2.length
        = keyLen ∧
      ∀ p, p < (i + left) * h → p < keyLen →
        (counterLoop (fun _ m => some (mac m)) label context L h keyLen left (i + 1) (min (i * h) keyLen) status key).2[p]?
          = (Spec.K mac label context L (p / h + 1))[p % h]?
  | 0, i, status, key, hk, _, hp => by simp only [counterLoop, Nat.add_zero]; exact ⟨by simp, hk, hp⟩
  | left + 1, i, status, key, hk, hr, hp => by
    have e1 : (i + (left + 1)) * h = i * h + left * h + h := by simp only [Nat.add_mul]; omega
    have e2 : (i + 1) * h = i * h + h := by rw [Nat.add_mul]; omega
    have hi : i * h < key.length := by omega
    obtain ⟨w1, w2⟩ := write_block (B := Spec.K mac label context L) hh key i (min h (keyLen - i * h))
      (hm _) hi (by rw [hk]) (fun p h1 => hp p h1 (by omega))
    have := counterLoop_spec mac h hh hm label context L keyLen left (i + 1) .ok
      (writeAt key (i * h) ((Spec.K mac label context L (i + 1)).take (min h (keyLen - i * h)))) (by omega)
      (by rw [show i + 1 + left = i + (left + 1) by omega]; exact hr)
      (fun p h1 h2 => w2 p (by omega))
    have hmin : min (i * h) keyLen = i * h := by omega
    have hnext : i * h + min h (keyLen - i * h) = min ((i + 1) * h) keyLen := by omega
    simp only [counterLoop, hmin, hnext]
    simp only [Spec.K] at this
    simp only [counterMessage, Spec.K]
    obtain ⟨g1, g2, g3⟩ := this
    refine ⟨?_, g2, ?_⟩
    · rw [g1]; simp
    · intro p h1 h2
      exact g3 p (by rw [show i + 1 + left = i + (left + 1) by omega]; exact h1) h2

/-- C16: for every key length in bytes representable in the length field, the counter-mode KDF succeeds and its output is the
prefix of `K(1) || K(2) || ...` as defined by NIST SP 800-108. -/
theorem counterMode_sp800_108 (mac : Bytes → Bytes) (h : Nat) (hh : 0 < h) (hm : ∀ m, (mac m).length = h)
    (label context : Bytes) (keyLen : Nat) (h0 : 0 < keyLen) (hmax : keyLen * 8 < 2 ^ 32) :
    ∃ key, counterMode (fun _ m => some (mac m)) h label context keyLen = (.ok, key) ∧ key.length = keyLen ∧
      Spec.IsPrefixOfBlocks (Spec.K mac label context (keyLen * 8)) h key := by
  obtain ⟨r, hr, hr1, hr2⟩ := rounds_bounds h keyLen hh
  have hr0 : r ≠ 0 := by rintro rfl; omega
  have := counterLoop_spec mac h hh hm label context (keyLen * 8) keyLen r 0 .uninitialised (List.replicate keyLen 0)
    (by simp) (by rw [Nat.zero_add]; exact hr2) (by intro p h1; omega)
  simp only [Nat.zero_mul, Nat.zero_min, Nat.zero_add, hr0, if_false] at this
  obtain ⟨g1, g2, g3⟩ := this
  refine ⟨_, Prod.ext ?_ rfl, ?_, ?_⟩
  · simpa only [counterMode, hr, Nat.mod_eq_of_lt hmax] using g1
  · simpa only [counterMode, hr, Nat.mod_eq_of_lt hmax] using g2
  · intro p hp
    simp only [counterMode, hr, Nat.mod_eq_of_lt hmax] at hp ⊢
    have hp' : p < keyLen := Nat.lt_of_lt_of_eq hp g2
    exact g3 p (by omega) hp'

example : let mac : Bytes → Bytes := fun m => [m.getD 3 0, m.getLastD 0, 7]
    (∀ m, (mac m).length = 3) ∧
    counterMode (fun _ m => some (mac m)) 3 [1] [2] 8 = (.ok, [1, 64, 7, 2, 64, 7, 3, 64]) :=
  ⟨fun _ => rfl, by decide +kernel⟩

theorem counterLoop_left_succ (mac : Nat → Bytes → Option Bytes) (label context : Bytes) (L h keyLen : Nat) :
    ∀ (left i pos : Nat) (status : Status) (key : Bytes),
      (counterLoop mac label context L h keyLen left i pos status key).1 = status ∨
      (counterLoop mac label context L h keyLen left i pos status key).1 = .ok ∨
      (counterLoop mac label context L h keyLen left i pos status key).1 = .failed
  | 0, _, _, _, _ => .inl rfl
  | left + 1, i, pos, status, key => by
    simp only [counterLoop]
    split
    · exact .inr (.inr rfl)
    · rcases counterLoop_left_succ mac label context L h keyLen left (i + 1) _ .ok _ with h | h | h
      · exact .inr (.inl h)
      · exact .inr (.inl h)
      · exact .inr (.inr h)

/-- Asking the counter-mode KDF for zero bytes returns a variable that was never set: the result is indeterminate. -/
theorem counterMode_zero_length (mac : Nat → Bytes → Option Bytes) (h : Nat) (label context : Bytes) :
    (counterMode mac h label context 0).1 = .uninitialised := by
  simp [counterMode, counterLoop]

/-- This is the only such case. -/
theorem counterMode_defined (mac : Nat → Bytes → Option Bytes) (h : Nat) (hh : 0 < h) (label context : Bytes) (keyLen : Nat)
    (h0 : 0 < keyLen) : (counterMode mac h label context keyLen).1 ≠ .uninitialised := by
  obtain ⟨r, hr, hr1, hr2⟩ := rounds_bounds h keyLen hh
  match r, hr1, hr with
  | 0, hr1, _ => omega
  | r + 1, _, hr =>
    simp only [counterMode, hr, counterLoop]
    split
    · simp
    · rcases counterLoop_left_succ mac label context (keyLen * 8 % 2 ^ 32) h keyLen r (1 + 1) _ .ok _ with h | h | h <;>
        rw [h] <;> simp

theorem expandLoop_spec (mac : Bytes → Bytes) (h : Nat) (hh : 0 < h) (hm : ∀ m, (mac m).length = h) (info : Bytes) (n outLen : Nat)
    (hn : n ≤ 255) (hn1 : outLen ≤ n * h) (hn2 : n * h < outLen + h) :
    ∀ (left i : Nat) (out : Bytes), out.length = outLen → i + left = n →
      (∀ p, p < i * h → p < outLen → out[p]? = (Spec.T mac info (p / h + 1))[p % h]?) →
      (expandLoop (fun _ m => some (mac m)) info h outLen n left (i + 1) (i * h) (Spec.T mac info i) out).1 = .ok ∧
      (expandLoop (fun _ m => some (mac m)) info h outLen n left (i + 1) (i * h) (Spec.T mac info i) out).2.length = outLen ∧
      ∀ p, p < outLen →
        (expandLoop (fun _ m => some (mac m)) info h outLen n left (i + 1) (i * h) (Spec.T mac info i) out).2[p]?
          = (Spec.T mac info (p / h + 1))[p % h]?
  | 0, i, out, hk, hi, hp => by
    simp only [expandLoop]
    have : i = n := by omega
    subst this
    exact ⟨trivial, hk, fun p h1 => hp p (by omega) h1⟩
  | left + 1, i, out, hk, hi, hp => by
    have e2 : (i + 1) * h = i * h + h := by rw [Nat.add_mul]; omega
    have e3 : (i + 1) * h ≤ n * h := Nat.mul_le_mul_right h (by omega)
    have hi' : i * h < out.length := by omega
    have hT : mac (Spec.T mac info i ++ info ++ [UInt8.ofNat (i + 1)]) = Spec.T mac info (i + 1) := rfl
    have hand : (i + 1) &&& 0xff = i + 1 := by
      rw [show 0xff = 2 ^ 8 - 1 from rfl, Nat.and_two_pow_sub_one_eq_mod, Nat.mod_eq_of_lt (by omega)]
    have hcopy : (if i + 1 ≠ n then h else outLen - i * h) = min h (outLen - i * h) := by
      split
      · have : (i + 2) * h ≤ n * h := Nat.mul_le_mul_right h (by omega)
        rw [Nat.add_mul] at this; omega
      · have : i + 1 = n := by omega
        rw [this] at e2; omega
    obtain ⟨w1, w2⟩ := write_block (B := Spec.T mac info) hh out i (min h (outLen - i * h))
      (hm _) hi' (by rw [hk]) (fun p h1 => hp p h1 (by omega))
    have := expandLoop_spec mac h hh hm info n outLen hn hn1 hn2 left (i + 1)
      (writeAt out (i * h) ((Spec.T mac info (i + 1)).take (min h (outLen - i * h)))) (by omega) (by omega)
      (fun p h1 h2 => w2 p (by omega))
    rw [e2] at this
    simp only [expandLoop, hand, hT, hcopy]
    exact this

/-- C16: whenever the requested length is at most 255 digests, HKDF-expand succeeds and returns the prefix of
`T(1) || T(2) || ...` of RFC 5869. -/
theorem hkdfExpand_rfc5869 (mac : Bytes → Bytes) (h : Nat) (hh : 0 < h) (hm : ∀ m, (mac m).length = h)
    (info out : Bytes) (prkLen : Nat) (hprk : h ≤ prkLen) (hmax : out.length ≤ 255 * h) :
    ∃ okm, hkdfExpand (fun _ m => some (mac m)) h prkLen info out = (.ok, okm) ∧ okm.length = out.length ∧
      Spec.IsPrefixOfBlocks (Spec.T mac info) h okm := by
  obtain ⟨r, hr, hr1, hr2⟩ := rounds_bounds h out.length hh
  have hr3 : r ≤ 255 := by
    have : r * h < 256 * h := by omega
    have := Nat.lt_of_mul_lt_mul_right this
    omega
  have := expandLoop_spec mac h hh hm info r out.length hr3 hr1 hr2 r 0 out rfl (by omega) (by intro p h1; omega)
  simp only [Nat.zero_mul, Nat.zero_add, Spec.T] at this
  obtain ⟨g1, g2, g3⟩ := this
  refine ⟨_, Prod.ext ?_ rfl, ?_, ?_⟩
  · simp only [hkdfExpand, hr]
    rw [if_neg (by omega), if_neg (by omega)]; exact g1
  · simp only [hkdfExpand, hr]
    rw [if_neg (by omega), if_neg (by omega)]; exact g2
  · intro p hp
    simp only [hkdfExpand, hr] at hp ⊢
    rw [if_neg (by omega), if_neg (by omega)] at hp ⊢
    exact g3 p (Nat.lt_of_lt_of_eq hp g2)

example : let mac : Bytes → Bytes := fun m => [m.getLastD 0, UInt8.ofNat m.length]
    (∀ m, (mac m).length = 2) ∧
    hkdfExpand (fun _ m => some (mac m)) 2 2 [9] [0, 0, 0, 0, 0] = (.ok, [1, 2, 2, 4, 3]) :=
  ⟨fun _ => rfl, by decide +kernel⟩

/-- C16: longer requests and too short keys are refused without output. -/
theorem hkdfExpand_refused (mac : Nat → Bytes → Option Bytes) (h : Nat) (hh : 0 < h) (info out : Bytes) (prkLen : Nat)
    (hbad : prkLen < h ∨ 255 * h < out.length) :
    (hkdfExpand mac h prkLen info out).1 ≠ .ok ∧ (hkdfExpand mac h prkLen info out).2 = out := by
  obtain ⟨r, hr, hr1, hr2⟩ := rounds_bounds h out.length hh
  simp only [hkdfExpand, hr]
  split
  · simp
  · rw [if_pos]
    · simp
    · have : 255 * h < r * h := by omega
      exact Nat.lt_of_mul_lt_mul_right this

end Verif.Kdf
