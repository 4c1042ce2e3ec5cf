import Verif.RiotSha.Props
import Verif.Hmac.Spec
/-!
C128: HMAC and key derivation of the RIoT reference code, `core/riot/reference/RiotHmac.c` and
`RiotKdf.c`, on a little-endian host.
-/
namespace Verif.RiotSha

/-! ### Model -/

/-- `RIOT_HMAC_SHA256_CTX`, RiotHmac.h:37-40. -/
structure HCtx where
  /-- `hashCtx`. -/
  hash : Ctx
  /-- `opad[64]`. -/
  opad : Bytes

/-- `RIOT_HMAC_SHA256_Init`, RiotHmac.c:26-68; `old` is what `opad` held before. The xor loops are
written as maps over the bytes concerned. -/
def hmacInit (old key : Bytes) : HCtx :=
  let (pad, len) :=
    if key.length > 64 then (writeAt old 0 (block key), 32) else (writeAt old 0 key, key.length)
  let pad := (pad.take len).map (· ^^^ 0x36) ++ pad.drop len
  let pad := writeAt pad len (List.replicate (64 - len) 0x36)
  { hash := update init pad, opad := pad.map (· ^^^ (0x5c ^^^ 0x36)) }

/-- `RIOT_HMAC_SHA256_Update`, RiotHmac.c:70-74. -/
def hmacUpdate (c : HCtx) (data : Bytes) : HCtx := { c with hash := update c.hash data }

/-- `RIOT_HMAC_SHA256_Final`, RiotHmac.c:76-87. -/
def hmacFinal (c : HCtx) : Bytes :=
  let inner := final c.hash
  final (update (update init c.opad) inner)

/-- `UINT32_TO_BIGENDIAN`, RiotKdf.c:28-32: the shifts bind stronger than `&`, so they apply to the
masks. -/
def toBigEndian (i : UInt32) : UInt32 :=
  (i &&& ((0xff000000 : UInt32) >>> 24)) ||| (i &&& ((0x00ff0000 : UInt32) >>> 8)) ||| (i &&& ((0x0000ff00 : UInt32) <<< 8))
    ||| (i &&& ((0x000000ff : UInt32) <<< 24))

/-- `RIOT_KDF_FIXED`, RiotKdf.c:48-69, into a buffer that is large enough (assertion at 54);
`none` is a null pointer. -/
def kdfFixed (label context : Option Bytes) (bits : UInt32) : Bytes :=
  label.getD [] ++ [0] ++ context.getD [] ++ store32 (toBigEndian bits)

/-- `RIOT_KDF_SHA256`, RiotKdf.c:83-100: the output and the new counter. `old` is the content of
the local context. -/
def kdf (old key : Bytes) (counter : Option UInt32) (fixed : Bytes) : Bytes × Option UInt32 :=
  let counter := counter.map (· + 1)
  let ctr := toBigEndian (counter.getD 1)
  (hmacFinal (hmacUpdate (hmacUpdate (hmacInit old key) (store32 ctr)) fixed), counter)

/-! ### Specification: SP 800-108, counter mode -/

/-- One block of the key derivation in counter mode: `PRF (K, [i] || Label || 0x00 || Context || [L])`,
numbers with the most significant byte first. -/
def Spec.kdfBlock (prf : Bytes → Bytes → Bytes) (key : Bytes) (i : Nat) (label context : Bytes) (L : Nat) :
    Bytes :=
  prf key (toBE 4 i ++ (label ++ [0] ++ context ++ toBE 4 L))

/-! ### Theorems -/

theorem sha256_length (m : Bytes) : (Spec.sha256 m).length = 32 := by
  simp [Spec.sha256]

/-- The keyed pads. -/
theorem hmacInit_pads (old key : Bytes) (h : old.length = 64) :
    (hmacInit old key).opad = (Hmac.Spec.blockKey Spec.sha256 64 key).map (· ^^^ 0x5c)
    ∧ (hmacInit old key).hash = update init ((Hmac.Spec.blockKey Spec.sha256 64 key).map (· ^^^ 0x36)) := by
  have key' : ∀ k : Bytes, k.length ≤ 64 →
      writeAt (((writeAt old 0 k).take k.length).map (· ^^^ 0x36) ++ (writeAt old 0 k).drop k.length)
        k.length (List.replicate (64 - k.length) 0x36)
      = (k ++ List.replicate (64 - k.length) 0).map (· ^^^ 0x36) := by
    intro k hk
    have ht := take_writeAt old k 0 (by omega)
    rw [Nat.zero_add] at ht
    rw [ht]
    have hl : (((old.take 0 ++ k).map (· ^^^ (0x36 : UInt8))) ++ (writeAt old 0 k).drop k.length).length = 64 := by
      simp [h]; omega
    have := take_writeAt (((old.take 0 ++ k).map (· ^^^ (0x36 : UInt8))) ++ (writeAt old 0 k).drop k.length)
      (List.replicate (64 - k.length) 0x36) k.length (by rw [hl]; simp; omega)
    rw [List.take_of_length_le (by rw [writeAt_length, hl]; simp; omega)] at this
    rw [this, List.take_append_of_le_length (by simp), List.take_of_length_le (by simp)]
    simp
  have hx : ∀ b : UInt8, b ^^^ 0x36 ^^^ (0x5c ^^^ 0x36) = b ^^^ 0x5c := by
    intro b
    rw [UInt8.xor_assoc]; rfl
  unfold hmacInit Hmac.Spec.blockKey
  by_cases h64 : key.length > 64
  · simp only [if_pos h64, block_exact]
    have := key' (Spec.sha256 key) (by rw [sha256_length]; omega)
    rw [sha256_length] at this
    rw [this, sha256_length]
    refine ⟨?_, rfl⟩
    rw [List.map_map]
    apply List.map_congr_left
    intro b _
    exact hx b
  · simp only [if_neg h64]
    rw [key' key (by omega)]
    refine ⟨?_, rfl⟩
    rw [List.map_map]
    apply List.map_congr_left
    intro b _
    exact hx b

/-- **C128** For every key and every split of the message the result is HMAC-SHA-256 (RFC 2104),
whatever the context contained before. -/
theorem hmac_exact (old key : Bytes) (chunks : List Bytes) (h : old.length = 64) :
    hmacFinal (chunks.foldl hmacUpdate (hmacInit old key))
      = Hmac.Spec.hmac Spec.sha256 64 key chunks.flatten := by
  obtain ⟨h1, h2⟩ := hmacInit_pads old key h
  have hf : ∀ (l : List Bytes) (c : HCtx),
      (l.foldl hmacUpdate c).hash = l.foldl update c.hash ∧ (l.foldl hmacUpdate c).opad = c.opad := by
    intro l
    induction l with
    | nil => intro c; exact ⟨rfl, rfl⟩
    | cons d l ih =>
      intro c
      simp only [List.foldl_cons]
      obtain ⟨e1, e2⟩ := ih (hmacUpdate c d)
      exact ⟨e1, e2⟩
  obtain ⟨f1, f2⟩ := hf chunks (hmacInit old key)
  unfold hmacFinal
  rw [f1, f2, h1, h2]
  have inner := sha256_exact ((Hmac.Spec.blockKey Spec.sha256 64 key).map (· ^^^ 0x36) :: chunks)
  rw [List.foldl_cons, List.flatten_cons] at inner
  simp only [inner]
  have outer := sha256_exact [(Hmac.Spec.blockKey Spec.sha256 64 key).map (· ^^^ 0x5c),
    Spec.sha256 ((Hmac.Spec.blockKey Spec.sha256 64 key).map (· ^^^ 0x36) ++ chunks.flatten)]
  simp only [List.foldl_cons, List.foldl_nil, List.flatten_cons, List.flatten_nil, List.append_nil] at outer
  rw [outer]
  rfl

theorem toBigEndian_id (i : UInt32) : toBigEndian i = i := by
  apply UInt32.toBitVec_inj.mp
  apply BitVec.eq_of_getLsbD_eq
  intro j hj
  simp only [toBigEndian]
  interval_cases j <;> simp

/-- **C128** (partial) What the key derivation computes: one block of counter mode with the counter
and the length written with the LEAST significant byte first. The counter is advanced first. -/
theorem kdf_value_partial (old key : Bytes) (counter : Option UInt32) (label context : Option Bytes)
    (bits : UInt32) (h : old.length = 64) :
    kdf old key counter (kdfFixed label context bits)
      = (Hmac.Spec.hmac Spec.sha256 64 key
          (toLE 4 ((counter.map (· + 1)).getD 1).toNat
            ++ (label.getD [] ++ [0] ++ context.getD [] ++ toLE 4 bits.toNat)),
         counter.map (· + 1)) := by
  unfold kdf kdfFixed
  simp only [toBigEndian_id]
  have := hmac_exact old key [store32 ((counter.map (· + 1)).getD 1),
    label.getD [] ++ [0] ++ context.getD [] ++ store32 bits] h
  simp only [List.foldl_cons, List.foldl_nil, List.flatten_cons, List.flatten_nil, List.append_nil] at this
  rw [this]
  rfl

/-- **C128, false of the code**: the result is not the one of SP 800-108. -/
theorem kdf_not_sp800_108 :
    ∃ key label context, ∃ bits : UInt32,
      (kdf (List.replicate 64 0) key none (kdfFixed (some label) (some context) bits)).1
        ≠ Spec.kdfBlock (Hmac.Spec.hmac Spec.sha256 64) key 1 label context bits.toNat := by
  refine ⟨[1], [2], [3], 256, ?_⟩
  rw [kdf_value_partial _ _ _ _ _ _ rfl]
  decide +kernel

/-- A key longer than a block and one that is shorter, in two parts. -/
example : hmacFinal ([[1], [2, 3]].foldl hmacUpdate (hmacInit (List.replicate 64 7) (List.replicate 65 5)))
    = Hmac.Spec.hmac Spec.sha256 64 (List.replicate 65 5) [1, 2, 3] :=
  hmac_exact _ _ _ rfl

/-- HMAC-SHA-256 of `"Hi There"` under twenty bytes `0x0b` (RFC 4231, test case 1). -/
example : (Hmac.Spec.hmac Spec.sha256 64 (List.replicate 20 0x0b)
    [0x48, 0x69, 0x20, 0x54, 0x68, 0x65, 0x72, 0x65]).take 4 = [0xb0, 0x34, 0x4c, 0x61] := by
  decide +kernel

end Verif.RiotSha
