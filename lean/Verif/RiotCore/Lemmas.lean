import Verif.RiotCore.Spec
import Verif.RiotCore.Model
import Verif.Kdf.Props
import Verif.CertBuild.Props
/-! Helper lemmas for the DICE layer 0 handler. -/
namespace Verif.RiotCore
open Verif
open Verif.RiotDer Verif.CertBuild

theorem enc_ne (i : Nat) (h : i < 64) : Base64.enc i ≠ 0 := (Base64.enc_ne_pad ⟨i, h⟩).2

theorem encodeBody_text (d : Bytes) : ∃ text, Base64.encodeBody d = text ++ [0] ∧ ∀ b ∈ text, b ≠ 0 := by
  induction d using Base64.encodeBody.induct with
  | case1 b1 b2 b3 rest ih =>
    obtain ⟨t, h1, h2⟩ := ih
    refine ⟨Base64.enc (b1.toNat >>> 2) :: Base64.enc (((b1.toNat &&& 0x03) <<< 4) ||| (b2.toNat >>> 4)) ::
      Base64.enc (((b2.toNat &&& 0x0f) <<< 2) ||| ((b3.toNat >>> 6) &&& 0x03)) :: Base64.enc (b3.toNat &&& 0x3f) :: t, ?_, ?_⟩
    · simp [Base64.encodeBody, h1]
    · have l1 := b1.toNat_lt; have l2 := b2.toNat_lt; have l3 := b3.toNat_lt
      intro b hb
      simp only [List.mem_cons] at hb
      rcases hb with rfl | rfl | rfl | rfl | hb
      · rw [Base64.idx1]; exact enc_ne _ (by omega)
      · rw [Base64.idx2]; exact enc_ne _ (by omega)
      · rw [Base64.idx3]; exact enc_ne _ (by omega)
      · rw [Base64.and63]; exact enc_ne _ (by omega)
      · exact h2 b hb
  | case2 b1 b2 =>
    refine ⟨[Base64.enc (b1.toNat >>> 2), Base64.enc (((b1.toNat &&& 0x03) <<< 4) ||| (b2.toNat >>> 4)),
      Base64.enc ((b2.toNat &&& 0x0f) <<< 2), 0x3d], by simp [Base64.encodeBody], ?_⟩
    have l1 := b1.toNat_lt; have l2 := b2.toNat_lt
    intro b hb
    simp only [List.mem_cons, List.not_mem_nil, or_false] at hb
    rcases hb with rfl | rfl | rfl | rfl
    · rw [Base64.idx1]; exact enc_ne _ (by omega)
    · rw [Base64.idx2]; exact enc_ne _ (by omega)
    · rw [Base64.and15, Nat.shiftLeft_eq]; exact enc_ne _ (by omega)
    · decide
  | case3 b1 =>
    refine ⟨[Base64.enc (b1.toNat >>> 2), Base64.enc ((b1.toNat &&& 0x03) <<< 4), 0x3d, 0x3d], by simp [Base64.encodeBody], ?_⟩
    have l1 := b1.toNat_lt
    intro b hb
    simp only [List.mem_cons, List.not_mem_nil, or_false] at hb
    rcases hb with rfl | rfl | rfl | rfl
    · rw [Base64.idx1]; exact enc_ne _ (by omega)
    · rw [Base64.and3, Nat.shiftLeft_eq]; exact enc_ne _ (by omega)
    · decide
    · decide
  | case4 => exact ⟨[], rfl, by simp⟩

/-- The name is the first 64 characters of the base64 text, and has no zero byte. -/
theorem commonName_spec {d name : Bytes} (h : commonName d = some name) :
    (∃ text, Base64.decode (text ++ [0]) = some d ∧ name = text.take 64) ∧ ∀ b ∈ name, b ≠ 0 := by
  unfold commonName Base64.encode at h
  split at h
  · simp at h
  · obtain ⟨t, h1, h2⟩ := encodeBody_text d
    simp only [Option.map_some, Option.some.injEq, h1] at h
    have e : (t ++ [0]).takeWhile (fun x : UInt8 => decide (x ≠ 0)) = t := by
      rw [List.takeWhile_append_of_pos (by simpa using h2)]
      simp
    rw [e] at h
    subst h
    exact ⟨⟨t, by rw [← h1]; exact Base64.decode_encodeBody d, rfl⟩, fun b hb => h2 b (List.mem_of_mem_take hb)⟩

theorem commonName_some {d : Bytes} (h : d.length ≤ 64) : ∃ name, commonName d = some name := by
  obtain ⟨out, h1, _⟩ := (Base64.encode_exact d 89 (by omega)).1 (by
    unfold Base64.base64Length
    rw [Nat.mod_eq_of_lt (by omega : 4 * d.length < 2 ^ 32)]
    exact Nat.le_trans (Nat.mod_le _ _) (by omega))
  exact ⟨_, by unfold commonName; rw [h1]; rfl⟩

theorem counterLoop_faults (k : Nat → Bool) (g : Bytes → Bytes) (label context : Bytes) (L h n : Nat) :
    ∀ (left i pos : Nat) (s : Kdf.Status) (key out : Bytes),
      Kdf.counterLoop (fun i m => if k i then none else some (g m)) label context L h n left i pos s key = (.ok, out) →
      Kdf.counterLoop (fun _ m => some (g m)) label context L h n left i pos s key = (.ok, out)
  | 0, _, _, _, _, _, hh => hh
  | left + 1, i, pos, s, key, out, hh => by
    simp only [Kdf.counterLoop] at hh ⊢
    cases hk : k i with
    | true => simp [hk] at hh
    | false =>
      simp only [hk, Bool.false_eq_true, if_false] at hh
      exact counterLoop_faults k g label context L h n left _ _ _ _ out hh

theorem counterMode_faults {k : Nat → Bool} {g : Bytes → Bytes} {h : Nat} (hh : 0 < h) (hm : ∀ m, (g m).length = h)
    {label context : Bytes} {n : Nat} (h0 : 0 < n) (hmax : n * 8 < 2 ^ 32) {out : Bytes}
    (hc : Kdf.counterMode (fun i m => if k i then none else some (g m)) h label context n = (.ok, out)) :
    Spec.Derived g h label context n out := by
  have h1 := counterLoop_faults k g label context _ _ _ _ _ _ _ _ _ hc
  obtain ⟨key, h2, h3, h4⟩ := Kdf.counterMode_sp800_108 g h hh hm label context n h0 hmax
  have : key = out := by
    unfold Kdf.counterMode at h2
    rw [h2] at h1
    exact (Prod.mk.inj h1).2
  subst this
  exact ⟨h3, h4⟩

theorem maskSeed_eq {n : Nat} {seed : Bytes} (h : seed.length = n) : maskSeed n seed = Spec.fitCurve seed := by
  unfold maskSeed Spec.fitCurve
  cases seed with
  | nil =>
    subst h
    rfl
  | cons b rest =>
    subst h
    simp only
    split
    · rename_i h66
      simp [writeAt]
    · rfl

theorem serialData_eq (g : Bytes → Bytes) : g serialData = Spec.identity g := by
  unfold Spec.identity Kdf.Spec.K
  exact congrArg g (by decide +kernel)

/-- What the environment has to provide: engines for the algorithm of the key length; the encoding of a
private key is not that of a public key. -/
structure Env.Ok (env : Env) : Prop where
  params : params env.keyLen = some (env.sig, env.digestLen)
  hash : ∀ m, (env.hash m).length = env.digestLen
  hmac : ∀ k m, (env.hmac k m).length = env.digestLen
  max : env.x.maxCert < 65536
  malloc : ∀ n, n ≤ 65536 → env.x.malloc n = true
  priv : ∀ k r, Dec.getPubKey (env.keyDer k) ≠ .ok r

theorem Env.Ok.lens {env : Env} (h : env.Ok) : 0 < env.keyLen ∧ env.keyLen ≤ 66 ∧ 0 < env.digestLen ∧ env.digestLen ≤ 64 ∧
    8 ≤ env.digestLen := by
  have := h.params
  unfold RiotCore.params at this
  split at this
  · simp at this; omega
  · simp at this; omega
  · simp at this; omega
  · simp at this

end Verif.RiotCore
