import Verif.CertBuild.Sign
/-!
C131: certificates and requests a device issues are the X.509 structures for the data given, signed
over exactly the part that says so, and a certificate issued under a CA names that CA and its key.
-/
namespace Verif.CertBuild
open Verif
open Verif.RiotDer

/-- The public key of a private key, as encoded and as raw bits, according to the engine. -/
def PublicOf (e : Engine) (priv der raw : Bytes) : Prop := e.pubDer priv = .ok der ∧ e.decodePub der = some raw

/-- C131 (part). A self-signed certificate that is created has the given serial number, name, role and
extensions, the public key of the private key, its digest as subject and authority key identifier, and
a signature with that key over exactly the to-be-signed part. Missing: serial numbers of 127 bytes and
more, and buffers of 64 KiB and more. -/
theorem self_signed_exact_partial (e : Engine) (priv : Bytes) (hash : SigHash) (serial name : Bytes) (type : Nat)
    (extra : List Builder) (c : Ctx) (live : List Obj) (hmax : e.maxCert < 65536) (hs : serial.length < 127)
    (h : selfSigned e priv hash serial name type extra = (.ok c, live)) :
    ∃ alg keyDer key digest sig, hash.oid = some alg ∧ PublicOf e priv keyDer key ∧ e.sha1 key = .ok digest ∧
      e.sign hash priv (Spec.tbs ⟨beNat serial, alg, name, name, keyDer, digest, digest, role type, built extra⟩) = .ok sig ∧
      c.out = Spec.signed (Spec.tbs ⟨beNat serial, alg, name, name, keyDer, digest, digest, role type, built extra⟩) alg sig ∧
      c.out.length ≤ e.maxCert ∧ beNat serial ≠ 0 ∧ (∀ r, some r ∈ extra → ∃ x, r = .ok x) ∧ live = [.cert] := by
  unfold selfSigned at h
  cases ho : hash.oid with
  | none => simp [ho] at h
  | some alg =>
    simp only [ho] at h
    by_cases hser : serialOk serial = false
    · simp [hser] at h
    · rw [if_neg hser] at h
      cases hi : e.initKey priv with
      | error s => simp [hi] at h
      | ok _ =>
        simp only [hi] at h
        cases hk : e.pubDer priv with
        | error s => simp [hk] at h
        | ok keyDer =>
          simp only [hk] at h
          cases hd : e.decodePub keyDer with
          | none => simp [hd] at h
          | some key =>
            simp only [hd] at h
            cases hg : e.sha1 key with
            | error s => simp [hg] at h
            | ok digest =>
              simp only [hg] at h
              by_cases hm : e.ctxMem = true
              · rw [if_pos hm] at h
                unfold finish at h
                cases hb : buildAndSign e hash priv alg (certTbs name digest name digest serial keyDer alg type extra) with
                | err s => simp [hb] at h
                | oob => simp [hb] at h
                | ok c' =>
                  simp only [hb, Prod.mk.injEq, Res.ok.injEq] at h
                  obtain ⟨rfl, rfl⟩ := h
                  obtain ⟨sig, a1, a2, _, _, a5, c1, a6⟩ := buildAndSign_ok hmax (oid_good ho)
                    (ef_certTbs name digest name digest serial keyDer alg type extra hs (oid_good ho)) hb
                  exact ⟨alg, keyDer, key, digest, sig, rfl, ⟨hk, hd⟩, hg, a1, a2, a5,
                    (serialOk_iff serial).1 (by simpa using hser), certTbs_builders a6, rfl⟩
              · rw [if_neg hm] at h; simp at h

/-- The key a certificate is issued for: a public key in its encoding, or the public key of a private
key. -/
def SubjectKey (e : Engine) (key der raw : Bytes) : Prop :=
  (der = key ∧ ∃ off len, Dec.getPubKey key = .ok (off, len) ∧ off + len ≤ key.length ∧ raw = window key off len) ∨
  PublicOf e key der raw

theorem subjectKey_ok {e : Engine} {key der raw : Bytes} {own : Bool} {l : List Obj}
    (h : subjectKey e key = (.ok (der, raw, own), l)) : SubjectKey e key der raw := by
  unfold subjectKey at h
  cases hg : Dec.getPubKey key with
  | oob => simp [hg] at h
  | ok x =>
    obtain ⟨off, len⟩ := x
    simp only [hg] at h
    split at h
    · rename_i hle
      simp only [Prod.mk.injEq, Res.ok.injEq] at h
      obtain ⟨⟨rfl, rfl, _⟩, _⟩ := h
      exact .inl ⟨rfl, off, len, hg, hle, rfl⟩
    · simp at h
  | err s =>
    simp only [hg] at h
    cases hi : e.initKey key with
    | error s => simp [hi] at h
    | ok _ =>
      simp only [hi] at h
      cases hk : e.pubDer key with
      | error s => simp [hk] at h
      | ok d =>
        simp only [hk] at h
        cases hd : e.decodePub d with
        | none => simp [hd] at h
        | some r =>
          simp only [hd, Prod.mk.injEq, Res.ok.injEq] at h
          obtain ⟨⟨rfl, rfl, _⟩, _⟩ := h
          exact .inr ⟨hk, hd⟩

/-- C131 (part). A certificate issued under a CA has the given serial number, name, role, key and
extensions, the subject of the CA certificate as issuer, the digest of the CA key as authority key
identifier, and a signature with the CA key over exactly the to-be-signed part. Missing: serial
numbers of 127 bytes and more, and buffers of 64 KiB and more. -/
theorem ca_signed_exact_partial (e : Engine) (key serial name : Bytes) (type : Nat) (caPriv : Bytes) (hash : SigHash)
    (ca : Bytes) (extra : List Builder) (c : Ctx) (live : List Obj) (hmax : e.maxCert < 65536)
    (hs : serial.length < 127) (h : caSigned e key serial name type caPriv hash ca extra = (.ok c, live)) :
    ∃ alg authDer authKey authDigest subjDer subjKey subjDigest issuer sig, hash.oid = some alg ∧
      PublicOf e caPriv authDer authKey ∧ e.sha1 authKey = .ok authDigest ∧
      SubjectKey e key subjDer subjKey ∧ e.sha1 subjKey = .ok subjDigest ∧
      Dec.getSubjectName e.malloc ca = .ok issuer ∧
      e.sign hash caPriv (Spec.tbs ⟨beNat serial, alg, issuer, name, subjDer, subjDigest, authDigest, role type, built extra⟩) = .ok sig ∧
      c.out = Spec.signed (Spec.tbs ⟨beNat serial, alg, issuer, name, subjDer, subjDigest, authDigest, role type, built extra⟩) alg sig ∧
      c.out.length ≤ e.maxCert ∧ beNat serial ≠ 0 ∧ (∀ r, some r ∈ extra → ∃ x, r = .ok x) ∧ live = [.cert] := by
  unfold caSigned at h
  cases ho : hash.oid with
  | none => simp [ho] at h
  | some alg =>
    simp only [ho] at h
    by_cases hser : serialOk serial = false
    · simp [hser] at h
    · rw [if_neg hser] at h
      cases hi : e.initKey caPriv with
      | error s => simp [hi] at h
      | ok _ =>
        simp only [hi] at h
        cases hk : e.pubDer caPriv with
        | error s => simp [hk] at h
        | ok authDer =>
          simp only [hk] at h
          cases hd : e.decodePub authDer with
          | none => simp [hd] at h
          | some authKey =>
            simp only [hd] at h
            cases hg : e.sha1 authKey with
            | error s => simp [hg] at h
            | ok authDigest =>
              simp only [hg] at h
              cases hsk : subjectKey e key with
              | mk r l =>
                simp only [hsk] at h
                match r, hsk, h with
                | .oob, _, h => simp at h
                | .err s, _, h => simp at h
                | .ok (subjDer, subjKey, own), hsk, h =>
                  simp only at h
                  cases hg2 : e.sha1 subjKey with
                  | error s => simp [hg2] at h
                  | ok subjDigest =>
                    simp only [hg2] at h
                    cases hn : Dec.getSubjectName e.malloc ca with
                    | oob => simp [hn] at h
                    | err s => simp [hn] at h
                    | ok issuer =>
                      simp only [hn] at h
                      by_cases hm : e.ctxMem = true
                      · rw [if_pos hm] at h
                        unfold finish at h
                        cases hb : buildAndSign e hash caPriv alg
                          (certTbs issuer authDigest name subjDigest serial subjDer alg type extra) with
                        | err s => simp [hb] at h
                        | oob => simp [hb] at h
                        | ok c' =>
                          simp only [hb, Prod.mk.injEq, Res.ok.injEq] at h
                          obtain ⟨rfl, rfl⟩ := h
                          obtain ⟨sig, a1, a2, _, _, a5, c1, a6⟩ := buildAndSign_ok hmax (oid_good ho)
                            (ef_certTbs issuer authDigest name subjDigest serial subjDer alg type extra hs (oid_good ho)) hb
                          exact ⟨alg, authDer, authKey, authDigest, subjDer, subjKey, subjDigest, issuer, sig, rfl, ⟨hk, hd⟩,
                            hg, subjectKey_ok hsk, hg2, rfl, a1, a2, a5,
                            (serialOk_iff serial).1 (by simpa using hser), certTbs_builders a6, rfl⟩
                      · rw [if_neg hm] at h; simp at h

/-- A certificate in the shape the decoder expects. -/
theorem signed_certWith (f : Spec.Fields) (alg : List Nat) (sig : Bytes) :
    Spec.signed (Spec.tbs f) alg sig = Dec.certWith (RiotDer.Spec.intContent 2) (RiotDer.Spec.intContent f.serial)
      (RiotDer.Spec.oid f.sigAlg) (RiotDer.Spec.oidContent [2, 5, 4, 3]) f.issuer
      ([RiotDer.Spec.tlv 0x17 [49, 56, 48, 49, 48, 49, 48, 48, 48, 48, 48, 48, 90],
       RiotDer.Spec.tlv 0x18 [57, 57, 57, 57, 49, 50, 51, 49, 50, 51, 53, 57, 53, 57, 90]]).flatten
      (RiotDer.Spec.oidContent [2, 5, 4, 3]) f.subject
      (f.publicKeyInfo ++ RiotDer.Spec.explicit 3 [RiotDer.Spec.seq ([Spec.subjectKeyId f.subjectKeyDigest,
        Spec.authorityKeyId f.authorityKeyDigest, Spec.keyUsage f.role.isCa] ++ f.role.constraints ++
        f.extras.map Spec.Extra.der)])
      (Spec.algorithm alg ++ RiotDer.Spec.bits 0 sig) := by
  simp [Spec.signed, Spec.tbs, Dec.certWith, Spec.algorithm, Spec.name, Spec.validity, RiotDer.Spec.seq,
    RiotDer.Spec.set, RiotDer.Spec.int, RiotDer.Spec.oid, RiotDer.Spec.explicit]

/-- C131 (part). A certificate issued under a self-signed one, with its key, chains to it: the issuer
is the subject of the CA certificate and the authority key identifier is the subject key identifier of
the CA certificate. The name of the CA is a C string, and memory for it is available. -/
theorem chain_links_partial (e : Engine) (priv : Bytes) (hash hash' : SigHash) (serial serial' name name' key : Bytes)
    (type type' : Nat) (extra extra' : List Builder) (c c' : Ctx) (live live' : List Obj) (hmax : e.maxCert < 65536)
    (hs : serial.length < 127) (hs' : serial'.length < 127) (hz : ∀ b ∈ name, b ≠ 0)
    (hm : ∀ n, n ≤ 65536 → e.malloc n = true)
    (h : selfSigned e priv hash serial name type extra = (.ok c, live))
    (h' : caSigned e key serial' name' type' priv hash' c.out extra' = (.ok c', live')) :
    ∃ f f' alg alg' sig sig', c.out = Spec.signed (Spec.tbs f) alg sig ∧ c'.out = Spec.signed (Spec.tbs f') alg' sig' ∧
      e.sign hash' priv (Spec.tbs f') = .ok sig' ∧ f.subject = name ∧ f'.subject = name' ∧
      f'.issuer = f.subject ∧ f'.authorityKeyDigest = f.subjectKeyDigest := by
  obtain ⟨alg, keyDer, k, digest, sig, _, ⟨p1, p2⟩, p3, _, p5, p6, _⟩ := self_signed_exact_partial _ _ _ _ _ _ _ _ _ hmax hs h
  obtain ⟨alg', authDer, authKey, authDigest, subjDer, subjKey, subjDigest, issuer, sig', _, ⟨q1, q2⟩, q3, _, _, q6, q7, q8, _⟩ :=
    ca_signed_exact_partial _ _ _ _ _ _ _ _ _ _ _ hmax hs' h'
  have e1 := signed_certWith ⟨beNat serial, alg, name, name, keyDer, digest, digest, role type, built extra⟩ alg sig
  rw [e1] at p5
  have hlen : c.out.length < 65536 := by omega
  rw [p5] at hlen
  have hf := (Dec.subject_found _ _ _ _ _ _ _ name _ _ e.malloc hm hz hlen).1
  rw [p5, hf] at q6
  simp only [Res.ok.injEq] at q6
  rw [p1] at q1
  cases q1
  rw [p2] at q2
  cases q2
  rw [p3] at q3
  cases q3
  exact ⟨_, _, alg, alg', sig, sig', by rw [p5, ← e1], q8, q7, rfl, rfl, q6.symm, rfl⟩

/-- C131 (part). A request that is created has the given name, role, purpose and extensions and the
public key of the private key, and is signed with that key over exactly the request information. -/
theorem csr_exact_partial (e : Engine) (priv : Bytes) (hash : SigHash) (name : Bytes) (type : Nat) (eku : Option Bytes)
    (extra : List Builder) (c : Ctx) (live : List Obj) (hmax : e.maxCert < 65536)
    (h : createCsr e priv hash name type eku extra = (.ok c, live)) :
    ∃ alg keyDer sig, hash.oid = some alg ∧ e.pubDer priv = .ok keyDer ∧
      e.sign hash priv (Spec.requestInfo name keyDer (role type) eku (built extra)) = .ok sig ∧
      c.out = Spec.signed (Spec.requestInfo name keyDer (role type) eku (built extra)) alg sig ∧
      ((role type).isCa = false → eku = none) ∧ (∀ r, some r ∈ extra → ∃ x, r = .ok x) ∧ live = [.cert] := by
  unfold createCsr at h
  by_cases h0 : type = 0 ∧ eku.isSome = true
  · simp [h0] at h
  · rw [if_neg h0] at h
    cases ho : hash.oid with
    | none => simp [ho] at h
    | some alg =>
      simp only [ho] at h
      cases hi : e.initKey priv with
      | error s => simp [hi] at h
      | ok _ =>
        simp only [hi] at h
        cases hk : e.pubDer priv with
        | error s => simp [hk] at h
        | ok keyDer =>
          simp only [hk] at h
          by_cases hm : e.ctxMem = true
          · rw [if_pos hm] at h
            unfold finish at h
            cases hb : buildAndSign e hash priv alg (csrTbs name keyDer type eku extra) with
            | err s => simp [hb] at h
            | oob => simp [hb] at h
            | ok c' =>
              simp only [hb, Prod.mk.injEq, Res.ok.injEq] at h
              obtain ⟨rfl, rfl⟩ := h
              obtain ⟨sig, a1, a2, _, _, a5, c1, a6⟩ := buildAndSign_ok hmax (oid_good ho)
                (ef_csrTbs name keyDer type eku extra) hb
              refine ⟨alg, keyDer, sig, rfl, rfl, a1, a2, ?_, csrTbs_builders a6, rfl⟩
              intro hr
              have ht : type = 0 := by
                unfold role at hr
                by_cases ht : type = 0
                · exact ht
                · rw [if_neg ht] at hr
                  split at hr <;> simp [Spec.Role.isCa] at hr
              cases he : eku with
              | none => rfl
              | some p => exact absurd ⟨ht, by rw [he]; rfl⟩ h0
          · rw [if_neg hm] at h; simp at h

/-- C131 (part). If the engines work, memory is available and the buffer has 32 bytes to spare, the
certificate is created; names of up to 126 bytes. -/
theorem self_signed_total_partial (e : Engine) (priv : Bytes) (hash : SigHash) (serial name : Bytes) (type : Nat)
    (extra : List Builder) (alg : List Nat) (keyDer key digest sig : Bytes) (hmax : e.maxCert < 65536)
    (hn : name.length < 127) (hs : serial.length < 127) (hser : beNat serial ≠ 0) (hx : Builders extra)
    (ho : hash.oid = some alg) (hi : e.initKey priv = .ok ()) (hp : PublicOf e priv keyDer key)
    (hg : e.sha1 key = .ok digest) (hm : e.ctxMem = true)
    (hsig : e.sign hash priv (Spec.tbs ⟨beNat serial, alg, name, name, keyDer, digest, digest, role type, built extra⟩) = .ok sig)
    (hroom : (Spec.signed (Spec.tbs ⟨beNat serial, alg, name, name, keyDer, digest, digest, role type, built extra⟩)
      alg sig).length + 32 ≤ e.maxCert) :
    ∃ c, selfSigned e priv hash serial name type extra = (.ok c, [.cert]) := by
  obtain ⟨c, hc⟩ := buildAndSign_fits hmax (oid_good ho)
    (ef_certTbs name digest name digest serial keyDer alg type extra hs (oid_good ho)) (by decide) ⟨hn, hn, hs, hx⟩ hsig hroom
  refine ⟨c, ?_⟩
  unfold selfSigned
  simp only [ho, (serialOk_iff serial).2 hser, Bool.true_eq_false, if_false, hi, hp.1, hp.2, hg, hm, if_true, hc]
  rfl

/-- C131 (part). The same for a certificate issued under a CA for a public key. -/
theorem ca_signed_total_partial (e : Engine) (key serial name : Bytes) (type : Nat) (caPriv : Bytes) (hash : SigHash)
    (ca : Bytes) (extra : List Builder) (alg : List Nat) (authDer authKey authDigest subjDigest issuer sig : Bytes)
    (off len : Nat) (hmax : e.maxCert < 65536) (hn : name.length < 127) (hiss : issuer.length < 127)
    (hs : serial.length < 127) (hser : beNat serial ≠ 0) (hx : Builders extra) (ho : hash.oid = some alg)
    (hi : e.initKey caPriv = .ok ()) (hp : PublicOf e caPriv authDer authKey) (hg : e.sha1 authKey = .ok authDigest)
    (hk : Dec.getPubKey key = .ok (off, len)) (hin : off + len ≤ key.length)
    (hg2 : e.sha1 (window key off len) = .ok subjDigest) (hca : Dec.getSubjectName e.malloc ca = .ok issuer)
    (hm : e.ctxMem = true)
    (hsig : e.sign hash caPriv (Spec.tbs ⟨beNat serial, alg, issuer, name, key, subjDigest, authDigest, role type, built extra⟩) = .ok sig)
    (hroom : (Spec.signed (Spec.tbs ⟨beNat serial, alg, issuer, name, key, subjDigest, authDigest, role type, built extra⟩)
      alg sig).length + 32 ≤ e.maxCert) :
    ∃ c, caSigned e key serial name type caPriv hash ca extra = (.ok c, [.cert]) := by
  obtain ⟨c, hc⟩ := buildAndSign_fits hmax (oid_good ho)
    (ef_certTbs issuer authDigest name subjDigest serial key alg type extra hs (oid_good ho)) (by decide)
    ⟨hiss, hn, hs, hx⟩ hsig hroom
  refine ⟨c, ?_⟩
  unfold caSigned subjectKey
  simp only [ho, (serialOk_iff serial).2 hser, Bool.true_eq_false, if_false, hi, hp.1, hp.2, hg, hk, if_pos hin, hg2, hca,
    hm, if_true, hc]
  rfl

/-- C131 (part). The same for a request. -/
theorem csr_total_partial (e : Engine) (priv : Bytes) (hash : SigHash) (name : Bytes) (type : Nat) (eku : Option Bytes)
    (extra : List Builder) (alg : List Nat) (keyDer sig : Bytes) (hmax : e.maxCert < 65536) (hn : name.length < 127)
    (hek : ∀ p, eku = some p → p.length < 127 ∧ type ≠ 0) (hx : Builders extra) (ho : hash.oid = some alg)
    (hi : e.initKey priv = .ok ()) (hp : e.pubDer priv = .ok keyDer) (hm : e.ctxMem = true)
    (hsig : e.sign hash priv (Spec.requestInfo name keyDer (role type) eku (built extra)) = .ok sig)
    (hroom : (Spec.signed (Spec.requestInfo name keyDer (role type) eku (built extra)) alg sig).length + 32 ≤ e.maxCert) :
    ∃ c, createCsr e priv hash name type eku extra = (.ok c, [.cert]) := by
  obtain ⟨c, hc⟩ := buildAndSign_fits hmax (oid_good ho) (ef_csrTbs name keyDer type eku extra) (by decide)
    ⟨hn, fun p hp => (hek p hp).1, hx⟩ hsig hroom
  refine ⟨c, ?_⟩
  unfold createCsr
  rw [if_neg (by
    rintro ⟨h0, h1⟩
    obtain ⟨p, hp⟩ := Option.isSome_iff_exists.1 h1
    exact (hek p hp).2 h0)]
  simp only [ho, hi, hp, hm, if_true, hc]
  rfl

theorem finish_live {r : Out} {l : List Obj} (h : ∀ c, r ≠ .ok c) : (finish r l).2 = l := by
  unfold finish; split
  · rename_i c; exact absurd rfl (h c)
  · rfl
theorem finish_fst (r : Out) (l : List Obj) : (finish r l).1 = r := by
  cases r <;> rfl

theorem subjectKey_live (e : Engine) (key : Bytes) : (subjectKey e key).2 = [] := by
  unfold subjectKey
  cases Dec.getPubKey key with
  | oob => rfl
  | ok x => simp only; split <;> rfl
  | err s =>
    simp only
    cases e.initKey key with
    | error s => rfl
    | ok _ =>
      simp only
      cases e.pubDer key with
      | error s => rfl
      | ok d => simp only; cases e.decodePub d <;> rfl

/-- C131 (part). A failed request or certificate leaves nothing allocated, as long as the engine gives
public keys that can be decoded. -/
theorem no_leak_partial (e : Engine) (hdec : ∀ p d, e.pubDer p = .ok d → e.decodePub d ≠ none)
    (priv key serial name ca : Bytes) (hash : SigHash) (type : Nat) (eku : Option Bytes) (extra : List Builder) :
    ((∀ c, (createCsr e priv hash name type eku extra).1 ≠ .ok c) → (createCsr e priv hash name type eku extra).2 = []) ∧
    ((∀ c, (selfSigned e priv hash serial name type extra).1 ≠ .ok c) →
      (selfSigned e priv hash serial name type extra).2 = []) ∧
    ((∀ c, (caSigned e key serial name type priv hash ca extra).1 ≠ .ok c) →
      (caSigned e key serial name type priv hash ca extra).2 = []) := by
  refine ⟨?_, ?_, ?_⟩
  · unfold createCsr
    split
    · intro _; rfl
    · cases hash.oid with
      | none => intro _; rfl
      | some alg =>
        simp only
        cases e.initKey priv with
        | error s => intro _; rfl
        | ok _ =>
          simp only
          cases e.pubDer priv with
          | error s => intro _; rfl
          | ok keyDer =>
            simp only
            split
            · intro h; exact finish_live fun c hc => h c (by rw [finish_fst]; exact hc)
            · intro _; rfl
  · unfold selfSigned
    cases hash.oid with
    | none => intro _; rfl
    | some alg =>
      simp only
      split
      · intro _; rfl
      · cases e.initKey priv with
        | error s => intro _; rfl
        | ok _ =>
          simp only
          cases hk : e.pubDer priv with
          | error s => intro _; rfl
          | ok keyDer =>
            simp only
            cases hd : e.decodePub keyDer with
            | none => exact absurd hd (hdec _ _ hk)
            | some k =>
              simp only
              cases e.sha1 k with
              | error s => intro _; rfl
              | ok digest =>
                simp only
                split
                · intro h; exact finish_live fun c hc => h c (by rw [finish_fst]; exact hc)
                · intro _; rfl
  · unfold caSigned
    cases hash.oid with
    | none => intro _; rfl
    | some alg =>
      simp only
      split
      · intro _; rfl
      · cases e.initKey priv with
        | error s => intro _; rfl
        | ok _ =>
          simp only
          cases hk : e.pubDer priv with
          | error s => intro _; rfl
          | ok keyDer =>
            simp only
            cases hd : e.decodePub keyDer with
            | none => exact absurd hd (hdec _ _ hk)
            | some k =>
              simp only
              cases e.sha1 k with
              | error s => intro _; rfl
              | ok digest =>
                simp only
                have hl := subjectKey_live e key
                cases hsk : subjectKey e key with
                | mk r l =>
                  rw [hsk] at hl
                  simp only at hl
                  subst hl
                  match r with
                  | .oob => intro _; rfl
                  | .err s => intro _; rfl
                  | .ok (subjDer, subjKey, own) =>
                    simp only
                    cases e.sha1 subjKey with
                    | error s => intro _; rfl
                    | ok sd =>
                      simp only
                      cases Dec.getSubjectName e.malloc ca with
                      | oob => intro _; rfl
                      | err s => intro _; rfl
                      | ok issuer =>
                        simp only
                        split
                        · intro h; exact finish_live fun c hc => h c (by rw [finish_fst]; exact hc)
                        · intro _; rfl

/-- A toy engine. -/
def toy (maxCert : Nat) : Engine where
  maxCert := maxCert
  initKey _ := .ok ()
  pubDer p := .ok ([0x30, 4, 0x30, 0, 0x03, 2, 0] ++ p.take 1)
  decodePub d := some (d.drop 7)
  sha1 d := .ok (d ++ List.replicate 19 7)
  sign _ p m := .ok (p ++ m.take 2)
  ctxMem := true
  malloc _ := true

/-- A serial number of zero is refused, whatever its length. -/
theorem zero_serial (e : Engine) (priv name : Bytes) (hash : SigHash) (serial : Bytes) (type : Nat)
    (extra : List Builder) (hz : beNat serial = 0) (c : Ctx) (l : List Obj) :
    selfSigned e priv hash serial name type extra ≠ (.ok c, l) := by
  have hs : serialOk serial = false := by
    cases h : serialOk serial with
    | false => rfl
    | true => exact absurd hz ((serialOk_iff serial).1 h)
  unfold selfSigned
  cases hash.oid with
  | none => simp
  | some alg => simp [hs]

/-- The claims are about something: a CA certificate with path length 3 and an extension, and one
issued under it. -/
example : ∃ c c', selfSigned (toy 600) [9] .sha256 [0, 5] [65, 66] 4 [none, some (.ok ⟨true, [1, 2], [3, 4]⟩)] = (.ok c, [.cert]) ∧
    caSigned (toy 600) [0x30, 5, 0x30, 0, 0x03, 1, 0, 0] [6] [67] 0 [9] .sha384 c.out [] = (.ok c', [.cert]) := by
  have h : (match (selfSigned (toy 600) [9] .sha256 [0, 5] [65, 66] 4 [none, some (.ok ⟨true, [1, 2], [3, 4]⟩)]) with
    | (.ok c, [.cert]) => match (caSigned (toy 600) [0x30, 5, 0x30, 0, 0x03, 1, 0, 0] [6] [67] 0 [9] .sha384 c.out []) with
      | (.ok _, [.cert]) => true
      | _ => false
    | _ => false) = true := by decide +kernel
  split at h
  · rename_i c hc
    split at h
    · rename_i c' hc'
      exact ⟨c, c', hc, hc'⟩
    · exact absurd h (by simp)
  · exact absurd h (by simp)

/-! ### What fails -/

/-- A public key the engine made but that cannot be decoded is not released. -/
theorem leak (e : Engine) (priv serial name keyDer : Bytes) (hash : SigHash) (alg : List Nat) (type : Nat)
    (extra : List Builder) (ho : hash.oid = some alg) (hs : beNat serial ≠ 0) (hi : e.initKey priv = .ok ())
    (hk : e.pubDer priv = .ok keyDer) (hd : e.decodePub keyDer = none) :
    selfSigned e priv hash serial name type extra = (.err badKeyDer, [.keyDer]) := by
  unfold selfSigned
  simp only [ho, (serialOk_iff serial).2 hs, Bool.true_eq_false, if_false, hi, hk, hd]

/-- C131 is false of the code: an extension larger than the buffer is not refused, the certificate is
written past its end. -/
theorem extension_overflow :
    (selfSigned (toy 400) [9] .sha256 [5] [65] 1 [some (.ok ⟨false, [1], List.replicate 300 7⟩)]).1 = .oob := by
  decide +kernel

/-- A public key whose BIT STRING is empty makes the hash read outside the key. -/
theorem empty_key_overread :
    (caSigned (toy 600) [0x30, 4, 0x30, 0, 0x03, 0] [6] [67] 0 [9] .sha256 [] []).1 = .oob := by
  decide +kernel

end Verif.CertBuild
