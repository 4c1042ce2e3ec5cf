import Verif.Rfc6979.Model
import Verif.Rfc6979.Spec
import Verif.Hmac.Props
import Verif.CommonMath.Props
/-! Property C150: deterministic ECDSA nonces. -/
namespace Verif.Rfc6979
open Hmac (Alg Engine keyBuf)
open Spec (qlen)

/-- The algorithm with an engine that never fails. -/
def good (A : Alg) : Alg := { A with fail := fun _ => false }

theorem start_good {A : Alg} {e e'} (h : Hmac.start A e = (.ok, e')) : Hmac.start (good A) e = (.ok, e') := by
  simp only [Hmac.start, good] at *
  split at h
  · simp at h
  · rename_i hc; simp only [Bool.or_eq_true, not_or, Bool.not_eq_true] at hc
    simp [hc.2, h]

theorem update_good {A : Alg} {e e' d} (h : Hmac.update A e d = (.ok, e')) : Hmac.update (good A) e d = (.ok, e') := by
  simp only [Hmac.update, good] at *
  split at h
  · rename_i a h1 h2; simp [h2, h]
  · simp at h

theorem finish_good {A : Alg} {e e' o} (h : Hmac.finish A e = (.ok, o, e')) : Hmac.finish (good A) e = (.ok, o, e') := by
  simp only [Hmac.finish, good] at *
  split at h
  · rename_i a h1 h2; simp [h2, h]
  · simp at h

theorem calculate_good {A : Alg} {e e' d o} (h : Hmac.calculate A e d = (.ok, o, e')) :
    Hmac.calculate (good A) e d = (.ok, o, e') := by
  simp only [Hmac.calculate, good] at *
  split at h
  · simp at h
  · rename_i hc; simp only [Bool.or_eq_true, not_or, Bool.not_eq_true] at hc
    simp [hc.2, h]

theorem updates_good {A : Alg} {e e' ds} (h : Hmac.updates A e ds = (.ok, e')) :
    Hmac.updates (good A) e ds = (.ok, e') := by
  induction ds generalizing e with
  | nil => exact h
  | cons d ds ih =>
    simp only [Hmac.updates] at h ⊢
    split at h
    · rename_i hu; rw [update_good hu]; exact ih h
    · rename_i hne; exact absurd h (hne _)

theorem init_good {A : Alg} {e e' kb key kb'} (h : Hmac.init A e kb key = (.ok, kb', e')) :
    Hmac.init (good A) e kb key = (.ok, kb', e') := by
  have hi : ∀ kb n, Hmac.innerKey (good A) kb n = Hmac.innerKey A kb n := fun _ _ => rfl
  have ho : ∀ kb, Hmac.outerKey (good A) kb = Hmac.outerKey A kb := fun _ => rfl
  have hb : (good A).blockSize = A.blockSize := rfl
  have hh : (good A).hashLen = A.hashLen := rfl
  simp only [Hmac.init, hi, ho, hb, hh] at h ⊢
  split at h
  · rename_i hl
    rw [if_pos hl]
    split at h
    · rename_i hc; rw [calculate_good hc]
      simp only
      split at h
      · rename_i hs; rw [start_good hs]
        simp only
        split at h
        · rename_i hu; rw [update_good hu]; exact h
        · rename_i hne hu; simp only [Prod.mk.injEq] at h; exact absurd (h.1) hne
      · rename_i hne hs; simp only [Prod.mk.injEq] at h; exact absurd h.1 hne
    · rename_i hne hs; simp only [Prod.mk.injEq] at h; exact absurd h.1 hne
  · rename_i hl
    rw [if_neg hl]
    split at h
    · rename_i hs; rw [start_good hs]
      simp only
      split at h
      · rename_i hu; rw [update_good hu]; exact h
      · rename_i hne hu; simp only [Prod.mk.injEq] at h; exact absurd (h.1) hne
    · rename_i hne hs; simp only [Prod.mk.injEq] at h; exact absurd h.1 hne

theorem hmacFinish_good {A : Alg} {e kb n r} (h : Hmac.hmacFinish A e kb n = (.ok, r)) :
    Hmac.hmacFinish (good A) e kb n = (.ok, r) := by
  have hb : (good A).blockSize = A.blockSize := rfl
  have hh : (good A).hashLen = A.hashLen := rfl
  simp only [Hmac.hmacFinish, hb, hh] at h ⊢
  split at h
  · simp at h
  rename_i hl; rw [if_neg hl]
  split at h
  · rename_i h1; rw [finish_good h1]; simp only
    split at h
    · rename_i h1; rw [start_good h1]; simp only
      split at h
      · rename_i h1; rw [update_good h1]; simp only
        split at h
        · rename_i h1; rw [update_good h1]; simp only
          split at h
          · rename_i h1; rw [finish_good h1]; exact h
          · rename_i hne hs; simp only [Prod.mk.injEq] at h; exact absurd h.1 hne
        · rename_i hne hs; simp only [Prod.mk.injEq] at h; exact absurd h.1 hne
      · rename_i hne hs; simp only [Prod.mk.injEq] at h; exact absurd h.1 hne
    · rename_i hne hs; simp only [Prod.mk.injEq] at h; exact absurd h.1 hne
  · rename_i hne hs; simp only [Prod.mk.injEq] at h; exact absurd h.1 hne

theorem hmac_good {A : Alg} {e kb key cs n r} (h : Hmac.hmac A e kb key cs n = (.ok, r)) :
    Hmac.hmac (good A) e kb key cs n = (.ok, r) := by
  have hh : (good A).hashLen = A.hashLen := rfl
  simp only [Hmac.hmac, hh] at h ⊢
  split at h
  · rename_i h1; rw [init_good h1]; simp only
    split at h
    · simp at h
    · rename_i hl; rw [if_neg hl]
      split at h
      · rename_i h1; rw [updates_good h1]; exact hmacFinish_good h
      · rename_i hne hs; simp only [Prod.mk.injEq] at h; exact absurd h.1 hne
  · rename_i hne hs; simp only [Prod.mk.injEq] at h; exact absurd h.1 hne

/-- What the platform provides: digests of the announced length, at least one byte, that fit in the buffers. -/
structure Fits (E : Env) (A : Alg) : Prop where
  ok : A.Ok
  pos : 0 < A.hashLen
  max : A.hashLen ≤ maxHashLen
  junk : E.junk.length = keyBuf

/-- RFC 2104 HMAC with the hash function of the algorithm. -/
abbrev hm (A : Alg) (key text : Bytes) : Bytes := Hmac.Spec.hmac A.H A.blockSize key text

theorem mac_spec {E : Env} {A : Alg} (F : Fits E A) {e : Engine} (he : e.active = none) (key : Bytes) (cs : List Bytes) :
    (mac E A e key cs).2.active = none ∧
    (∀ x, (mac E A e key cs).1 = some x → x = hm A key cs.flatten ∧ x.length = A.hashLen) ∧
    ((∀ n, A.fail n = false) → (mac E A e key cs).1 ≠ none) := by
  obtain ⟨a, n⟩ := e
  simp only at he
  subst he
  have hr := (Hmac.hmac_releases A n E.junk key cs maxHashLen).2
  refine ⟨?_, ?_, ?_⟩
  · simp only [mac]; split <;> (rename_i h; rw [h] at hr; exact hr)
  · intro x hx
    simp only [mac] at hx
    split at hx
    · rename_i h
      have h := hmac_good h
      obtain ⟨n', h'⟩ := Hmac.hmac_rfc2104 (good A) ⟨F.ok.len, F.ok.hb, F.ok.bk⟩ (fun _ => rfl) n E.junk key cs maxHashLen F.junk F.max
      rw [h'] at h
      simp only [Prod.mk.injEq, true_and] at h
      simp only [Option.some.injEq] at hx
      rw [← hx, ← h.1]
      exact ⟨rfl, F.ok.len _⟩
    · simp at hx
  · intro hf
    obtain ⟨n', h'⟩ := Hmac.hmac_rfc2104 A F.ok hf n E.junk key cs maxHashLen F.junk F.max
    simp [mac, h']

/-- The generator holds the values `(K, V)` of the specification. -/
structure Holds (A : Alg) (d : Drbg) (s : Spec.KV) : Prop where
  lk : d.key.length = maxHashLen
  lv : d.value.length = maxHashLen
  k : d.key.take A.hashLen = s.1
  v : d.value.take A.hashLen = s.2

theorem take_writeAt {buf x : Bytes} {n m : Nat} (hx : x.length = n) (hb : buf.length = m) (hn : n ≤ m) :
    (writeAt buf 0 x).take n = x := by
  simp only [writeAt, List.take_zero, List.nil_append, Nat.sub_zero]
  rw [List.take_of_length_le (l := x) (by omega), List.take_left' hx]

theorem rekey_spec {E : Env} {A : Alg} (F : Fits E A) {e : Engine} (he : e.active = none) {d : Drbg} {s : Spec.KV}
    (hd : Holds A d s) (cs : List Bytes) :
    (rekey E A e d cs).2.2.active = none ∧
    (rekey E A e d cs).2.1.algo = d.algo ∧ (rekey E A e d cs).2.1.first = d.first ∧
    ((rekey E A e d cs).1 = true → Holds A (rekey E A e d cs).2.1 (Spec.update (hm A) s cs.flatten)) ∧
    ((∀ n, A.fail n = false) → (rekey E A e d cs).1 = true) := by
  have m1 := mac_spec F he (d.key.take A.hashLen) (d.value.take A.hashLen :: cs)
  simp only [rekey]
  split
  · rename_i k e1 h1
    rw [h1] at m1
    obtain ⟨a1, b1, _⟩ := m1
    obtain ⟨hk, hkl⟩ := b1 k rfl
    have htk : (writeAt d.key 0 k).take A.hashLen = k := take_writeAt hkl hd.lk F.max
    have m2 := mac_spec F a1 ((writeAt d.key 0 k).take A.hashLen) [d.value.take A.hashLen]
    split
    · rename_i v e2 h2
      rw [h2] at m2
      obtain ⟨a2, b2, _⟩ := m2
      obtain ⟨hv, hvl⟩ := b2 v rfl
      refine ⟨a2, rfl, rfl, fun _ => ⟨by simp [hd.lk], by simp [hd.lv], ?_, ?_⟩, fun _ => rfl⟩
      · rw [htk, hk, hd.k, List.flatten_cons, hd.v]; rfl
      · rw [take_writeAt hvl hd.lv F.max, hv, htk, hk, hd.k, hd.v, List.flatten_cons, List.flatten_cons, List.flatten_nil,
          List.append_nil]; rfl
    · rename_i e2 h2
      rw [h2] at m2
      exact ⟨m2.1, rfl, rfl, by simp, fun hf => absurd rfl (m2.2.2 hf)⟩
  · rename_i e1 h1
    rw [h1] at m1
    exact ⟨m1.1, rfl, rfl, by simp, fun hf => absurd rfl (m1.2.2 hf)⟩

theorem lt_qlen (L t : Nat) : 8 * t < qlen L ↔ t < L := by
  unfold qlen; split <;> omega

theorem fill_spec {E : Env} {A : Alg} (F : Fits E A) (L : Nat) (key kk : Bytes) (hkey : key.take A.hashLen = kk) :
    ∀ (fuel fuel' : Nat) (e : Engine) (v V T : Bytes), e.active = none → v.length = maxHashLen → v.take A.hashLen = V →
      L - T.length ≤ fuel → L - T.length ≤ fuel' →
      (fill E A key fuel e v (L - T.length) (T.take L)).2.2.active = none ∧
      (∀ out, (fill E A key fuel e v (L - T.length) (T.take L)).1 = some out →
        out = (Spec.collect (hm A) kk (qlen L) fuel' V T).2.take L ∧
        (Spec.collect (hm A) kk (qlen L) fuel' V T).2.length ≥ L ∧
        (fill E A key fuel e v (L - T.length) (T.take L)).2.1.length = maxHashLen ∧
        (fill E A key fuel e v (L - T.length) (T.take L)).2.1.take A.hashLen =
          (Spec.collect (hm A) kk (qlen L) fuel' V T).1) ∧
      ((∀ n, A.fail n = false) → (fill E A key fuel e v (L - T.length) (T.take L)).1 ≠ none) := by
  intro fuel
  induction fuel with
  | zero =>
    intro fuel' e v V T he hv hV h1 h2
    have hT : ¬ T.length < L := by omega
    have hc : Spec.collect (hm A) kk (qlen L) fuel' V T = (V, T) := by
      cases fuel' with
      | zero => rfl
      | succ f => rw [Spec.collect, if_neg (by rw [lt_qlen]; exact hT)]
    rw [hc]
    simp only [fill]
    refine ⟨he, ?_, by simp⟩
    intro out ho
    simp only [Option.some.injEq] at ho
    exact ⟨ho.symm, by omega, hv, hV⟩
  | succ fuel ih =>
    intro fuel' e v V T he hv hV h1 h2
    by_cases hT : T.length < L
    · obtain ⟨f', rfl⟩ : ∃ f, fuel' = f + 1 := ⟨fuel' - 1, by omega⟩
      rw [Spec.collect, if_pos (by rw [lt_qlen]; exact hT)]
      simp only [fill]
      rw [if_neg (by omega)]
      have m := mac_spec F he (key.take A.hashLen) [v.take A.hashLen]
      split
      · rename_i x e1 hx
        rw [hx] at m
        obtain ⟨a1, b1, _⟩ := m
        obtain ⟨hxe, hxl⟩ := b1 x rfl
        have hxe' : x = hm A kk V := by
          rw [hxe, hkey, hV]; simp
        have htx : (writeAt v 0 x).take A.hashLen = x := take_writeAt hxl hv F.max
        have hrem : L - T.length - min A.hashLen (L - T.length) = L - (T ++ hm A kk V).length := by
          rw [List.length_append, ← hxe', hxl]; omega
        have hout : T.take L ++ (writeAt v 0 x).take (min A.hashLen (L - T.length)) = (T ++ hm A kk V).take L := by
          rw [List.take_append, ← hxe', Nat.min_comm, ← List.take_take, htx]
        rw [hrem, hout]
        have hlen : (T ++ hm A kk V).length = T.length + A.hashLen := by
          rw [List.length_append, ← hxe', hxl]
        have hp := F.pos
        exact ih f' e1 (writeAt v 0 x) (hm A kk V) (T ++ hm A kk V) a1 (by simp [hv]) (by rw [htx, hxe'])
          (by omega) (by omega)
      · rename_i e1 hx
        rw [hx] at m
        exact ⟨m.1, by simp, fun hf => absurd rfl (m.2.2 hf)⟩
    · have hc : Spec.collect (hm A) kk (qlen L) fuel' V T = (V, T) := by
        cases fuel' with
        | zero => rfl
        | succ f => rw [Spec.collect, if_neg (by rw [lt_qlen]; exact hT)]
      rw [hc]
      simp only [fill]
      rw [if_pos (by omega)]
      refine ⟨he, ?_, by simp⟩
      intro out ho
      simp only [Option.some.injEq] at ho
      exact ⟨ho.symm, by omega, hv, hV⟩

theorem beNat_take (T : Bytes) (L : Nat) (h : L ≤ T.length) : beNat (T.take L) = beNat T / 2 ^ (8 * (T.length - L)) := by
  have e : beNat T = beNat (T.take L) * 256 ^ (T.drop L).length + beNat (T.drop L) := by
    rw [← beNat_append, List.take_append_drop]
  have e2 : (2 : Nat) ^ (8 * (T.length - L)) = 256 ^ (T.drop L).length := by
    rw [Nat.pow_mul, List.length_drop]
  rw [e2, e, Nat.mul_comm, Nat.mul_add_div (Nat.pow_pos (by omega)), Nat.div_eq_of_lt (beNat_lt _), Nat.add_zero]

/-- The leftmost `qlen L` bits of `T`, in `L` bytes. -/
theorem cut_spec (T : Bytes) (L : Nat) (h : L ≤ T.length) :
    let k := if L = keyLength521 then CommonMath.rightShift (T.take L) 7 else T.take L
    k.length = L ∧ beNat k = Spec.bits2int (qlen L) T := by
  have hk : keyLength521 = 66 := rfl
  by_cases h66 : L = 66
  · subst h66
    have hr := CommonMath.rightShift_divides (T.take 66) 7
    have hq : qlen 66 = 521 := rfl
    simp only [hk, if_true, hq, Spec.bits2int]
    rw [hr.1, hr.2, if_pos (by omega), beNat_take T 66 h, Nat.div_div_eq_div_mul, ← Nat.pow_add,
      show 8 * (T.length - 66) + 7 = 8 * T.length - 521 by omega]
    exact ⟨by rw [List.length_take]; omega, rfl⟩
  · have hq : qlen L = 8 * L := if_neg h66
    simp only [hk, if_neg h66, hq, Spec.bits2int]
    rw [beNat_take T L h]
    refine ⟨by rw [List.length_take]; omega, ?_⟩
    split
    · rw [show 8 * (T.length - L) = 8 * T.length - 8 * L by omega]
    · rw [show T.length - L = 0 by omega, Nat.mul_zero, Nat.pow_zero, Nat.div_one]

theorem generate_spec {E : Env} {A : Alg} (F : Fits E A) {e : Engine} (he : e.active = none) {d : Drbg} {s : Spec.KV}
    (ha : E.alg d.algo = some A) (hd : Holds A d s) (L : Nat) :
    let s' := if d.first then s else Spec.update (hm A) s [0x00]
    let r := generate E e d L
    r.2.2.2.active = none ∧ r.2.2.1.algo = d.algo ∧
    (r.1 = .ok → r.2.1.length = L ∧ beNat r.2.1 = (Spec.candidate (hm A) (qlen L) s').2 ∧
      r.2.2.1.first = false ∧ Holds A r.2.2.1 (Spec.candidate (hm A) (qlen L) s').1) ∧
    ((∀ n, A.fail n = false) → r.1 = .ok) := by
  simp only [generate, ha]
  have key : ∀ (d1 : Drbg) (e1 : Engine) (s1 : Spec.KV), e1.active = none → Holds A d1 s1 → d1.algo = d.algo →
      let r := (match fill E A d1.key L e1 d1.value L [] with
        | (none, v, e) => (Status.hashError, ([] : Bytes), ({ d1 with first := false, value := v } : Drbg), e)
        | (some out, v, e) =>
          (.ok, if L = keyLength521 then CommonMath.rightShift out 7 else out, { d1 with first := false, value := v }, e))
      r.2.2.2.active = none ∧ r.2.2.1.algo = d.algo ∧
      (r.1 = .ok → r.2.1.length = L ∧ beNat r.2.1 = (Spec.candidate (hm A) (qlen L) s1).2 ∧
        r.2.2.1.first = false ∧ Holds A r.2.2.1 (Spec.candidate (hm A) (qlen L) s1).1) ∧
      ((∀ n, A.fail n = false) → r.1 = .ok) := by
    intro d1 e1 s1 h1 h2 h3
    have hq : L ≤ qlen L := by unfold qlen; split <;> omega
    have f := fill_spec F L d1.key s1.1 h2.k L (qlen L) e1 d1.value s1.2 [] h1 h2.lv h2.v (by simp) (by simpa using hq)
    simp only [List.length_nil, Nat.sub_zero, List.take_nil] at f
    simp only
    split
    · rename_i v e2 hf
      rw [hf] at f
      exact ⟨f.1, h3, by simp, fun hn => absurd rfl (f.2.2 hn)⟩
    · rename_i out v e2 hf
      rw [hf] at f
      obtain ⟨a, b, _⟩ := f
      obtain ⟨b1, b2, b3, b4⟩ := b out rfl
      have c := cut_spec _ L b2
      simp only at c
      rw [← b1] at c
      exact ⟨a, h3, fun _ => ⟨c.1, c.2, rfl, ⟨h2.lk, b3, h2.k, b4⟩⟩, fun _ => rfl⟩
  by_cases hf : d.first = true
  · simp only [hf, if_true]
    exact key d e s he hd rfl
  · simp only [Bool.not_eq_true] at hf
    simp only [hf, Bool.false_eq_true, if_false]
    have rk := rekey_spec F he hd [[0]]
    split
    · rename_i d1 e1 h1
      rw [h1] at rk
      exact ⟨rk.1, rk.2.1, by simp, fun hn => absurd (rk.2.2.2.2 hn) (by simp)⟩
    · rename_i d1 e1 h1
      rw [h1] at rk
      exact key d1 e1 _ rk.1 (rk.2.2.2.1 rfl) rk.2.1

theorem generateN_spec {E : Env} {A : Alg} (F : Fits E A) {e : Engine} (he : e.active = none) {d : Drbg} {s : Spec.KV}
    (ha : E.alg d.algo = some A) (hd : Holds A d s) (h1 : d.first = true) (L n : Nat) :
    let r := generateN E e d L n
    r.2.2.2.active = none ∧ r.2.2.1.algo = d.algo ∧
    (r.1 = .ok → r.2.1.length = L ∧ beNat r.2.1 = (Spec.nth (hm A) (qlen L) s n).2 ∧
      r.2.2.1.first = false ∧ Holds A r.2.2.1 (Spec.nth (hm A) (qlen L) s n).1) ∧
    ((∀ n, A.fail n = false) → r.1 = .ok) := by
  induction n with
  | zero =>
    have g := generate_spec F he ha hd L
    simp only [h1, if_true] at g
    exact g
  | succ n ih =>
    simp only at ih
    simp only [generateN]
    split
    · rename_i o d1 e1 hr
      rw [hr] at ih
      obtain ⟨a, b, c, _⟩ := ih
      obtain ⟨_, _, c3, c4⟩ := c rfl
      simp only at a b c3 c4
      have g := generate_spec F a (by rw [b]; exact ha) c4 L
      simp only [c3, Bool.false_eq_true, if_false] at g
      rw [← b]
      exact g
    · rename_i r hne
      refine ⟨ih.1, ih.2.1, ?_, ih.2.2.2⟩
      intro hok
      exfalso
      generalize hg : generateN E e d L n = r at *
      obtain ⟨a, b, c, f⟩ := r
      simp only at hok
      subst hok
      exact hne b c f rfl

theorem instantiate_spec {E : Env} {A : Alg} (F : Fits E A) {e : Engine} (he : e.active = none) (d : Drbg) (algo : Nat)
    (ha : E.alg algo = some A) (h x : Bytes) :
    let r := instantiate E e d algo (some h) (some x)
    r.2.2.active = none ∧
    (r.1 = .ok → r.2.1.algo = algo ∧ r.2.1.first = true ∧ Holds A r.2.1 (Spec.start (hm A) A.hashLen x h)) ∧
    (r.1 ≠ .ok → r.2.1 = .zero) ∧
    ((∀ n, A.fail n = false) → r.1 = .ok) := by
  simp only [instantiate, ha]
  have h0 : Holds A ⟨algo, List.replicate maxHashLen 0, List.replicate maxHashLen 1, true⟩
      (List.replicate A.hashLen 0x00, List.replicate A.hashLen 0x01) :=
    ⟨by simp, by simp, by simp [Nat.min_eq_left F.max], by simp [Nat.min_eq_left F.max]⟩
  have r1 := rekey_spec F he h0 [[0], x, h]
  split
  · rename_i d1 e1 hr
    rw [hr] at r1
    obtain ⟨a, b, c, f, _⟩ := r1
    have r2 := rekey_spec F a (f rfl) [[1], x, h]
    simp only at b c
    split
    · rename_i d2 e2 hr2
      rw [hr2] at r2
      obtain ⟨a2, b2, c2, f2, _⟩ := r2
      refine ⟨a2, fun _ => ⟨by rw [b2, b], by rw [c2, c], ?_⟩, by simp, fun _ => rfl⟩
      have := f2 rfl
      simpa [Spec.start] using this
    · rename_i d2 e2 hr2
      rw [hr2] at r2
      exact ⟨r2.1, by simp, fun _ => rfl, fun hn => absurd (r2.2.2.2.2 hn) (by simp)⟩
  · rename_i d1 e1 hr
    rw [hr] at r1
    exact ⟨r1.1, by simp, fun _ => rfl, fun hn => absurd (r1.2.2.2.2 hn) (by simp)⟩

/-- The first steps of a signature: instantiate, then take the `n`-th candidate. -/
def run (E : Env) (e : Engine) (d : Drbg) (algo : Nat) (digest priv : Bytes) (L n : Nat) : Status × Bytes :=
  match instantiate E e d algo (some digest) (some priv) with
  | (.ok, d, e) => let r := generateN E e d L n; (r.1, r.2.1)
  | (s, _, _) => (s, [])

theorem run_spec {E : Env} {A : Alg} (F : Fits E A) {e : Engine} (he : e.active = none) (d : Drbg) (algo : Nat)
    (ha : E.alg algo = some A) (h x : Bytes) (L n : Nat) :
    ((run E e d algo h x L n).1 = .ok → (run E e d algo h x L n).2.length = L ∧
      beNat (run E e d algo h x L n).2 = (Spec.nth (hm A) (qlen L) (Spec.start (hm A) A.hashLen x h) n).2) ∧
    ((∀ n, A.fail n = false) → (run E e d algo h x L n).1 = .ok) := by
  have i := instantiate_spec F he d algo ha h x
  simp only at i
  simp only [run]
  split
  · rename_i d1 e1 hi
    rw [hi] at i
    obtain ⟨a, b, _, _⟩ := i
    obtain ⟨b1, b2, b3⟩ := b rfl
    simp only at b1
    have g := generateN_spec F a (by rw [b1]; exact ha) b3 b2 L n
    simp only at g ⊢
    exact ⟨fun hok => ⟨(g.2.2.1 hok).1, (g.2.2.1 hok).2.1⟩, g.2.2.2⟩
  · rename_i s d1 e1 hne hi
    rw [hi] at i
    exact ⟨fun hok => absurd hok (by simpa using hne), fun hn => absurd (i.2.2.2 hn) (by simpa using hne)⟩

/-- C150: whatever engine calls fail, if a signer that passes the private key and the digest in the form the RFC prescribes gets an
`n`-th candidate, it is the one of RFC 6979, in `L` bytes; and it gets one if the engine does not fail. -/
theorem rfc6979_partial {E : Env} {A : Alg} (F : Fits E A) {e : Engine} (he : e.active = none) (d : Drbg) (algo : Nat)
    (ha : E.alg algo = some A) (q x : Nat) (h1 : Bytes) (L n : Nat) :
    let r := run E e d algo (Spec.bits2octets q (qlen L) h1) (Spec.int2octets (qlen L) x) L n
    (r.1 = .ok → r.2.length = L ∧ beNat r.2 = Spec.k (hm A) A.hashLen q (qlen L) x h1 n) ∧
    ((∀ n, A.fail n = false) → r.1 = .ok) :=
  run_spec F he d algo ha _ _ L n

/-- C150: the nonce depends only on the algorithm, the octets of the key and of the digest, the length and the number of the
candidate: not on earlier content of the context, the engine, its failures or uninitialised memory. -/
theorem deterministic {E E' : Env} {A : Alg} {g : Nat → Bool} (F : Fits E A) (F' : Fits E' { A with fail := g }) {e e' : Engine}
    (he : e.active = none) (he' : e'.active = none) (d d' : Drbg) (algo algo' : Nat) (ha : E.alg algo = some A)
    (ha' : E'.alg algo' = some { A with fail := g }) (h x : Bytes) (L n : Nat)
    (h1 : (run E e d algo h x L n).1 = .ok) (h2 : (run E' e' d' algo' h x L n).1 = .ok) :
    (run E e d algo h x L n).2 = (run E' e' d' algo' h x L n).2 := by
  have a := (run_spec F he d algo ha h x L n).1 h1
  have b := (run_spec F' he' d' algo' ha' h x L n).1 h2
  exact beNat_inj (by rw [a.1, b.1]) (by rw [a.2, b.2])

/-- C150: when the generator cannot be instantiated because of the hash engine, nothing of the key stays in the context, and the
engine is released; `clear` does the same for the context. -/
theorem failed_instantiate_erases {E : Env} {A : Alg} (F : Fits E A) {e : Engine} (he : e.active = none) (d : Drbg) (algo : Nat)
    (ha : E.alg algo = some A) (h x : Bytes) (hs : (instantiate E e d algo (some h) (some x)).1 ≠ .ok) :
    (instantiate E e d algo (some h) (some x)).2.1.key = List.replicate 64 0 ∧
    (instantiate E e d algo (some h) (some x)).2.1.value = List.replicate 64 0 ∧
    (instantiate E e d algo (some h) (some x)).2.2.active = none ∧
    (clear d).key = List.replicate 64 0 ∧ (clear d).value = List.replicate 64 0 := by
  have i := instantiate_spec F he d algo ha h x
  simp only at i
  rw [i.2.2.1 hs]
  exact ⟨rfl, rfl, i.1, rfl, rfl⟩

/-- A toy hash with two-byte digests. -/
def toy (fail : Nat → Bool) : Alg :=
  ⟨fun m => [UInt8.ofNat m.length, m.foldl (fun a b => a * 3 + b + 1) 0], 2, 4, fail⟩

/-- Algorithm 0 is the toy hash. -/
def toyEnv (fail : Nat → Bool) : Env := ⟨fun n => if n = 0 then some (toy fail) else none, List.replicate 128 7⟩

theorem toy_fits (fail : Nat → Bool) : Fits (toyEnv fail) (toy fail) :=
  ⟨⟨fun _ => rfl, (by decide : 2 ≤ 4), (by decide : 4 ≤ 128)⟩, (by decide : 0 < 2), (by decide : 2 ≤ 64), by simp [toyEnv, keyBuf]⟩

example : (run (toyEnv fun _ => false) ⟨none, 0⟩ .zero 0 [1, 2, 3] [4, 5, 6] 3 1).1 = .ok ∧
    (run (toyEnv fun _ => false) ⟨none, 0⟩ .zero 0 [1, 2, 3] [4, 5, 6] 3 1).2 ≠
      (run (toyEnv fun _ => false) ⟨none, 0⟩ .zero 0 [1, 2, 3] [4, 5, 6] 3 0).2 := by decide +kernel

example : (instantiate (toyEnv fun n => n == 30) ⟨none, 0⟩ .zero 0 (some [1, 2, 3]) (some [4, 5, 6])).1 = .hashError := by
  decide +kernel

/-- C150, false for digests as the hash function returns them, which the interface allows: the candidate differs from that of RFC
6979, because the digest is not reduced modulo the group order. -/
theorem counterexample_raw_digest :
    ∃ (E : Env) (A : Alg) (q x : Nat) (h1 : Bytes), Fits E A ∧ E.alg 0 = some A ∧ h1.length = A.hashLen ∧ 2 ^ 15 < q ∧ q < 2 ^ 16 ∧
      (run E ⟨none, 0⟩ .zero 0 h1 (Spec.int2octets (qlen 2) x) 2 0).1 = .ok ∧
      beNat (run E ⟨none, 0⟩ .zero 0 h1 (Spec.int2octets (qlen 2) x) 2 0).2 ≠ Spec.k (hm A) A.hashLen q (qlen 2) x h1 0 :=
  ⟨toyEnv fun _ => false, toy fun _ => false, 40000, 5, [255, 255], toy_fits _, rfl, rfl, by decide, by decide,
    by decide +kernel, by decide +kernel⟩

/-- C150, false for a generator that was cleared or failed to be instantiated: it still gives candidates, the same ones for all keys
and digests (the zeroised context names the first algorithm and is treated as in use). -/
theorem counterexample_after_clear :
    ∃ (E : Env) (A : Alg), Fits E A ∧ E.alg 0 = some A ∧
      ∀ d, (generate E ⟨none, 0⟩ (clear d) 3).1 = .ok ∧
        (generate E ⟨none, 0⟩ (clear d) 3).2.1 = (generate E ⟨none, 0⟩ .zero 3).2.1 :=
  ⟨toyEnv fun _ => false, toy fun _ => false, toy_fits _, rfl, fun _ =>
    ⟨(by decide +kernel : (generate (toyEnv fun _ => false) ⟨none, 0⟩ .zero 3).1 = .ok), rfl⟩⟩

end Verif.Rfc6979
