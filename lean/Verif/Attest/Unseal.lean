import Verif.Attest.Spec
/-! Unsealing. -/
namespace Verif.Attest

theorem scan_true {len : Nat} : ∀ {s : Bytes} {j : Nat}, scan len j s = .ok true ↔ ∀ b ∈ s, b = 0 := by
  intro s
  induction s with
  | nil => intro j; simp [scan]
  | cons b s ih =>
    intro j
    rw [scan]
    by_cases hb : b = 0
    · rw [if_neg (by simpa using hb), ih]; simp [hb]
    · rw [if_pos hb]
      constructor
      · intro h; split at h <;> cases h
      · intro h; exact absurd (h b (by simp)) hb

theorem scan_false {len : Nat} : ∀ {s : Bytes} {j : Nat}, scan len j s = .ok false ↔ (∃ b ∈ s, b ≠ 0) ∧ ∀ i b, s[i]? = some b → j + i < 64 - len → b = 0 := by
  intro s
  induction s with
  | nil => intro j; simp [scan]
  | cons b s ih =>
    intro j
    rw [scan]
    by_cases hb : b = 0
    · rw [if_neg (by simpa using hb), ih]
      constructor
      · rintro ⟨⟨x, hx, hx0⟩, h⟩
        refine ⟨⟨x, by simp [hx], hx0⟩, fun i y hy hi => ?_⟩
        cases i with
        | zero => simp at hy; rw [← hy]; exact hb
        | succ i => exact h i y (by simpa using hy) (by omega)
      · rintro ⟨⟨x, hx, hx0⟩, h⟩
        refine ⟨⟨x, ?_, hx0⟩, fun i y hy hi => h (i + 1) y (by simpa using hy) (by omega)⟩
        rcases List.mem_cons.mp hx with rfl | hx
        · exact absurd hb hx0
        · exact hx
    · rw [if_pos hb]
      by_cases hj : j < 64 - len
      · rw [if_pos hj]
        constructor
        · intro h; cases h
        · rintro ⟨-, h⟩; exact absurd (h 0 b rfl (by omega)) hb
      · rw [if_neg hj]
        exact ⟨fun _ => ⟨⟨b, by simp, hb⟩, fun i y _ hi => (by omega)⟩, fun _ => rfl⟩

theorem take_zeros {s : Bytes} {n : Nat} (hn : n ≤ s.length) : s.take n = List.replicate n 0 ↔ ∀ i b, s[i]? = some b → i < n → b = 0 := by
  constructor
  · intro h i b hb hi
    have : (s.take n)[i]? = some b := by rw [List.getElem?_take, if_pos hi, hb]
    rw [h, List.getElem?_replicate, if_pos hi] at this
    injection this with this; exact this.symm
  · intro h
    refine List.ext_getElem? fun i => ?_
    rw [List.getElem?_take, List.getElem?_replicate]
    by_cases hi : i < n
    · rw [if_pos hi, if_pos hi]
      have : s[i]? = some s[i] := List.getElem?_eq_getElem (by omega)
      rw [this, h i _ this hi]
    · rw [if_neg hi, if_neg hi]

/-- The devices PCRs have their lengths, at most 64, and PCRs that do not exist have no value. -/
structure PcrsFit (dev : Device) : Prop where
  len : ∀ i l, dev.pcrLen i = some l → l ≤ 64
  value : ∀ i l v, dev.pcrLen i = some l → dev.pcr i = .ok v → v.length = l
  missing : ∀ i v, dev.pcrLen i = none → dev.pcr i ≠ .ok v

theorem checkPcr_ok {dev : Device} (hd : PcrsFit dev) {i : Nat} (hi : i < 256) {s : Bytes} (hs : s.length = 64) : checkPcr dev i s = .ok () ↔ Allows dev i s := by
  unfold checkPcr Allows
  rw [Nat.mod_eq_of_lt hi]
  simp only
  have hz : (∀ b ∈ s, b = 0) ↔ s = List.replicate 64 0 := by rw [List.eq_replicate_iff]; simp [hs]
  cases hsc : scan ((dev.pcrLen i).getD 64) 0 s with
  | error e =>
    simp only
    constructor
    · intro h; cases h
    · rintro (h | ⟨v, len, hl, hv, h⟩)
      · rw [scan_true.mpr (hz.mpr h)] at hsc; cases hsc
      · have hl64 := hd.len i len hl
        by_cases hall : ∀ b ∈ s, b = 0
        · rw [scan_true.mpr hall] at hsc; cases hsc
        · have : scan ((dev.pcrLen i).getD 64) 0 s = .ok false := by
            rw [scan_false, hl]
            refine ⟨by simpa using hall, ?_⟩
            have ht : s.take (64 - len) = List.replicate (64 - len) 0 := by rw [h]; exact List.take_left' (by simp)
            have := (take_zeros (by omega)).mp ht
            intro j b hb hj
            exact this j b hb (by simpa using hj)
          rw [this] at hsc; cases hsc
  | ok byp =>
    cases byp with
    | true => simp only [true_iff]; exact .inl (hz.mp (scan_true.mp hsc))
    | false =>
      obtain ⟨hne, hpre⟩ := scan_false.mp hsc
      have hnz : s ≠ List.replicate 64 0 := fun h => by
        obtain ⟨b, hb, h0⟩ := hne
        exact h0 (hz.mpr h b hb)
      simp only
      cases hv : dev.pcr i with
      | error e =>
        constructor
        · intro h; cases h
        · rintro (h | ⟨v, len, -, h, -⟩)
          · exact absurd h hnz
          · cases h
      | ok v =>
        cases hl : dev.pcrLen i with
        | none => exact absurd hv (hd.missing i v hl)
        | some len =>
          have hl64 := hd.len i len hl
          have hvl := hd.value i len v hl hv
          rw [hl] at hpre
          simp only [Option.getD_some, Nat.zero_add] at hpre ⊢
          have htk : v.take len = v := List.take_of_length_le (by omega)
          simp only [htk]
          by_cases he : v = s.drop (64 - len)
          · rw [if_pos he]
            simp only [true_iff]
            refine .inr ⟨v, len, rfl, rfl, ?_⟩
            rw [← (take_zeros (by omega)).mpr hpre, he, List.take_append_drop]
          · rw [if_neg he]
            constructor
            · intro h; cases h
            · rintro (h | ⟨v', len', hx, hy, h⟩)
              · exact absurd h hnz
              · injection hx with hx; injection hy with hy
                subst hx; subst hy
                exact absurd (by rw [h, List.drop_left' (by simp)]) he

theorem checkPcrs_ok {dev : Device} (hd : PcrsFit dev) : ∀ {ss : List Bytes} {i : Nat}, i + ss.length ≤ 256 → (∀ s ∈ ss, s.length = 64) →
    (checkPcrs dev i ss = .ok () ↔ ∀ j s, ss[j]? = some s → Allows dev (i + j) s) := by
  intro ss
  induction ss with
  | nil => intro i _ _; simp [checkPcrs]
  | cons s ss ih =>
    intro i hi hl
    rw [checkPcrs]
    simp only [List.length_cons] at hi
    have h1 := checkPcr_ok hd (i := i) (by omega) (hl s (by simp))
    have h2 := ih (i := i + 1) (by omega) (fun x hx => hl x (by simp [hx]))
    cases hc : checkPcr dev i s with
    | error e =>
      constructor
      · intro h; cases h
      · intro h; have := h1.mpr (h 0 s rfl); rw [hc] at this; cases this
    | ok u =>
      simp only
      rw [h2]
      constructor
      · intro h j x hx
        cases j with
        | zero => simp at hx; subst hx; exact h1.mp hc
        | succ j => have := h j x (by simpa using hx); rwa [show i + 1 + j = i + (j + 1) by omega] at this
      · intro h j x hx
        have := h (j + 1) x (by simpa using hx); rwa [show i + (j + 1) = i + 1 + j by omega] at this

theorem mapError_ok {α : Type} {x : Except Nat α} {a : α} : (x.mapError UErr.step = .ok a) ↔ x = .ok a := by
  cases x with
  | error e => constructor <;> intro h <;> cases h
  | ok b => exact ⟨fun h => by injection h with h; rw [h], fun h => by injection h with h; rw [h]; rfl⟩

theorem getSecret_ok {dev : Device} {r : Request} {secret : Bytes} : getSecret dev r = .ok secret ↔ SeedIs dev r secret := by
  unfold getSecret
  by_cases t0 : r.seedType = 0
  · rw [if_pos t0]
    by_cases p1 : r.seedParam = 1
    · rw [if_pos p1, mapError_ok]
      exact ⟨.oaepSha1 t0 p1, fun h => by cases h with
        | oaepSha1 _ _ h => exact h
        | oaepSha256 _ p => omega
        | ecdhRaw t => omega
        | ecdhSha256 t => omega⟩
    · rw [if_neg p1]
      by_cases p2 : r.seedParam = 2
      · rw [if_pos p2, mapError_ok]
        exact ⟨.oaepSha256 t0 p2, fun h => by cases h with
          | oaepSha1 _ p => omega
          | oaepSha256 _ _ h => exact h
          | ecdhRaw t => omega
          | ecdhSha256 t => omega⟩
      · rw [if_neg p2]
        exact ⟨fun h => (by cases h), fun h => by cases h <;> omega⟩
  · rw [if_neg t0]
    by_cases t1 : r.seedType = 1
    · rw [if_pos t1]
      by_cases p : r.seedParam ≠ 0 ∧ r.seedParam ≠ 1
      · rw [if_pos p]
        exact ⟨fun h => (by cases h), fun h => by cases h <;> omega⟩
      · rw [if_neg p, mapError_ok]
        by_cases p1 : r.seedParam = 1
        · rw [decide_eq_true p1]
          exact ⟨.ecdhSha256 t1 p1, fun h => by cases h with
            | oaepSha1 t => omega
            | oaepSha256 t => omega
            | ecdhRaw _ p => omega
            | ecdhSha256 _ _ h => exact h⟩
        · rw [decide_eq_false p1]
          exact ⟨.ecdhRaw t1 (by omega), fun h => by cases h with
            | oaepSha1 t => omega
            | oaepSha256 t => omega
            | ecdhRaw _ _ h => exact h
            | ecdhSha256 _ p => omega⟩
    · rw [if_neg t1]
      exact ⟨fun h => (by cases h), fun h => by cases h <;> omega⟩

/-- A key is given exactly if the request is complete, the seed gives a secret, the HMAC, with a key derived from the secret, of ciphertext and sealing policy is the one of the request, and the policy allows every PCR of the device;
and it is the encryption key derived from the same secret. -/
theorem unseal_exact (dev : Device) (hd : PcrsFit dev) (r : Request) (hl : ∀ s ∈ r.sealing, s.length = 64) (hc : r.sealing.length ≤ 256) (key : Bytes) :
    unsealKey dev r = .ok key ↔
      r.seed ≠ [] ∧ r.cipher ≠ [] ∧ r.sealing ≠ [] ∧ r.keyType = 32 ∧ r.hmacType = 1 ∧ 32 ≤ r.keyRoom ∧
      ∃ secret sk mac, SeedIs dev r secret ∧ dev.kdf secret "signing key" = .ok sk ∧ dev.hmac sk (r.cipher ++ r.sealing.flatten) = .ok mac ∧
        r.hmac.take 32 = mac.take 32 ∧ (∀ i s, r.sealing[i]? = some s → Allows dev i s) ∧ dev.kdf secret "encryption key" = .ok key := by
  unfold unsealKey
  by_cases c1 : r.seed = [] ∨ r.cipher = [] ∨ r.sealing = []
  · rw [if_pos c1]
    constructor
    · intro h; cases h
    · rintro ⟨a, b, c, -⟩
      rcases c1 with x | x | x
      · exact absurd x a
      · exact absurd x b
      · exact absurd x c
  · rw [if_neg c1]
    have n1 : r.seed ≠ [] := fun x => c1 (.inl x)
    have n2 : r.cipher ≠ [] := fun x => c1 (.inr (.inl x))
    have n3 : r.sealing ≠ [] := fun x => c1 (.inr (.inr x))
    by_cases c2 : r.keyType = 32
    · rw [if_neg (by simpa using c2)]
      by_cases c3 : r.hmacType = 1
      · rw [if_neg (by simpa using c3)]
        by_cases c4 : r.keyRoom < 32
        · rw [if_pos c4]
          constructor
          · intro h; cases h
          · rintro ⟨-, -, -, -, -, h, -⟩; omega
        · rw [if_neg c4]
          have hp := checkPcrs_ok hd (ss := r.sealing) (i := 0) (by omega) hl
          simp only [Nat.zero_add] at hp
          constructor
          · intro h
            refine ⟨n1, n2, n3, c2, c3, by omega, ?_⟩
            cases hs : getSecret dev r with
            | error e => rw [hs] at h; cases h
            | ok secret =>
              rw [hs] at h; simp only at h
              cases hk : dev.kdf secret "signing key" with
              | error e => rw [hk] at h; cases h
              | ok sk =>
                rw [hk] at h; simp only at h
                cases hm : dev.hmac sk (r.cipher ++ r.sealing.flatten) with
                | error e => rw [hm] at h; cases h
                | ok mac =>
                  rw [hm] at h; simp only at h
                  by_cases he : r.hmac.take 32 = mac.take 32
                  · rw [if_neg (by simpa using he)] at h
                    cases hcp : checkPcrs dev 0 r.sealing with
                    | error e => rw [hcp] at h; cases h
                    | ok u =>
                      rw [hcp] at h
                      exact ⟨secret, sk, mac, getSecret_ok.mp hs, hk, hm, he, hp.mp hcp, mapError_ok.mp h⟩
                  · rw [if_pos he] at h; cases h
          · rintro ⟨-, -, -, -, -, -, secret, sk, mac, hs, hk, hm, he, hpc, hkey⟩
            rw [getSecret_ok.mpr hs]
            simp only [hk, hm, he, ne_eq, not_true_eq_false, if_false, hp.mpr hpc, hkey]
            rfl
      · rw [if_pos c3]
        constructor
        · intro h; cases h
        · rintro ⟨-, -, -, -, h, -⟩; exact absurd h c3
    · rw [if_pos c2]
      constructor
      · intro h; cases h
      · rintro ⟨-, -, -, h, -⟩; exact absurd h c2

end Verif.Attest
