import Verif.RiotCore.Lemmas
/-!
# C133: the DICE keys and certificates of a device
-/
namespace Verif.RiotCore
open Verif
open Verif.RiotDer Verif.CertBuild

/-- The state holds a Device ID made from `cdi`, and its certificate. -/
def DevGood (env : Env) (st : St) : Prop :=
  ∃ cdi seed key name c live, cdi ≠ [] ∧ st.cdi = env.hash cdi ∧
    Spec.Derived (env.hmac (env.hash cdi)) env.digestLen Spec.deviceLabel Spec.dice env.keyLen seed ∧
    env.derive (Spec.fitCurve seed) = some key ∧ st.devDer = some (env.keyDer key) ∧
    Spec.IsName (env.hmac (env.hash cdi)) name ∧ (∀ b ∈ name, b ≠ 0) ∧
    selfSigned env.x (env.keyDer key) env.sig ((Spec.identity (env.hmac (env.hash cdi))).take 8) name 1 env.devExt = (.ok c, live) ∧
    st.devCtx = some c.out

/-- The state holds an alias key made from the CDI and `fwid`, and its certificate. -/
def AliasGood (env : Env) (st : St) : Prop :=
  ∃ fwid seed key name devDer ca c live, fwid ≠ [] ∧
    Spec.Derived (env.hmac (env.hmac st.cdi fwid)) env.digestLen Spec.aliasLabel Spec.dice env.keyLen seed ∧
    env.derive (Spec.fitCurve seed) = some key ∧ st.aliasDer = some (env.keyDer key) ∧
    Spec.IsName (env.hmac (env.hmac st.cdi fwid)) name ∧ st.devDer = some devDer ∧ st.devCtx = some ca ∧
    caSigned env.x (env.keyDer key) ((Spec.identity (env.hmac (env.hmac st.cdi fwid))).take 8) name 0 devDer env.sig ca
      env.aliasExt = (.ok c, live) ∧
    st.aliasCtx = some c.out

/-- Invariant. -/
structure Inv (env : Env) (st : St) : Prop where
  dev : st.devCertValid = true → DevGood env st
  als : st.aliasCertValid = true → st.devCertValid = true ∧ AliasGood env st

theorem selfSigned_fst {e : Engine} {priv serial name : Bytes} {hash : SigHash} {type : Nat} {extra : List Builder} {c : Ctx}
    (h : (selfSigned e priv hash serial name type extra).1 = .ok c) :
    ∃ live, selfSigned e priv hash serial name type extra = (.ok c, live) := ⟨_, by rw [← h]⟩

theorem caSigned_fst {e : Engine} {key caPriv ca serial name : Bytes} {hash : SigHash} {type : Nat} {extra : List Builder} {c : Ctx}
    (h : (caSigned e key serial name type caPriv hash ca extra).1 = .ok c) :
    ∃ live, caSigned e key serial name type caPriv hash ca extra = (.ok c, live) := ⟨_, by rw [← h]⟩

/-- What the creation of the certificate does to the state. -/
theorem createDeviceCert_cases (env : Env) (f : Faults) (key : Bytes) (st : St) :
    ((createDeviceCert env f key st).2.devCertValid = st.devCertValid ∧ (createDeviceCert env f key st).1 ≠ .ok ()) ∨
    (∃ name c, (createDeviceCert env f key st).1 = .ok () ∧
      commonName ((env.hmac st.cdi serialData).take env.digestLen) = some name ∧
      (selfSigned env.x (env.keyDer key) env.sig ((env.hmac st.cdi serialData).take 8) name 1 env.devExt).1 = .ok c ∧
      (createDeviceCert env f key st).2.cdi = st.cdi ∧ (createDeviceCert env f key st).2.devDer = some (env.keyDer key) ∧
      (createDeviceCert env f key st).2.devCtx = some c.out) := by
  unfold createDeviceCert
  simp only
  split
  · exact .inl ⟨by trivial, by simp⟩
  · split
    · exact .inl ⟨by trivial, by simp⟩
    · split
      · exact .inl ⟨by trivial, by simp⟩
      · cases hn : commonName ((env.hmac st.cdi serialData).take env.digestLen) with
        | none => exact .inl ⟨by trivial, by simp⟩
        | some name =>
          simp only
          by_cases hs : serialOk ((env.hmac st.cdi serialData).take 8) = false
          · simp only [if_pos hs]
            exact .inl ⟨by trivial, by simp [statusOf]⟩
          · simp only [if_neg hs]
            cases hf : f.cert with
            | true =>
              simp only [if_true]
              exact .inl ⟨by trivial, by simp [statusOf]⟩
            | false =>
              simp only [Bool.false_eq_true, if_false]
              cases hc : (selfSigned env.x (env.keyDer key) env.sig ((env.hmac st.cdi serialData).take 8) name 1 env.devExt).1 with
              | err e => exact .inl ⟨by trivial, by simp [statusOf]⟩
              | oob => exact .inl ⟨by trivial, by simp [statusOf]⟩
              | ok c =>
                refine .inr ⟨name, c, rfl, rfl, hc, rfl, rfl, ?_⟩
                simp only [newCtx, if_neg hs]

/-- A Device ID that is generated is the one of the CDI, with its certificate, whatever the state before. -/
theorem generateDeviceId_cases (env : Env) (he : env.Ok) (f : Faults) (cdi : Bytes) (st : St) :
    ((generateDeviceId env f cdi st).2.1.devCertValid = st.devCertValid ∧ (generateDeviceId env f cdi st).1 ≠ .ok ()) ∨
    ((generateDeviceId env f cdi st).1 = .ok () ∧ (generateDeviceId env f cdi st).2.2 = [] ∧
      (generateDeviceId env f cdi st).2.1.cdi = env.hash cdi ∧ DevGood env (generateDeviceId env f cdi st).2.1) := by
  unfold generateDeviceId
  match cdi with
  | [] => exact .inl ⟨by trivial, by simp⟩
  | first :: rest =>
    simp only
    match hh : f.hash with
    | some 1 => exact .inl ⟨by trivial, by simp⟩
    | some 0 => exact .inl ⟨by trivial, by simp⟩
    | some (n + 2) => exact .inl ⟨by trivial, by simp⟩
    | none =>
      simp only
      cases hk : Kdf.counterMode (fun i m => if f.kdf i then none else some (env.hmac (env.hash (first :: rest)) m))
        env.digestLen deviceLabel diceContext env.keyLen with
      | mk s seed =>
        cases s with
        | ok =>
          simp only
          cases hd : (if f.derive then none else env.derive (maskSeed env.keyLen seed)) with
          | none => exact .inl ⟨by trivial, by simp⟩
          | some key =>
            simp only
            have hl := he.lens
            have hder := counterMode_faults hl.2.2.1 (he.hmac _) hl.1 (by omega) hk
            rw [maskSeed_eq hder.1] at hd
            have hd' : env.derive (Spec.fitCurve seed) = some key := by
              cases hf : f.derive with
              | true => simp [hf] at hd
              | false => simpa [hf] using hd
            generalize hst : ({ st with cdi := env.hash (first :: rest), devKey := some key, lost := (st.devKey.map Lost.key).toList ++ st.lost } : St) = st1
            have e1 : st1.cdi = env.hash (first :: rest) := by rw [← hst]
            have e2 : st1.devCertValid = st.devCertValid := by rw [← hst]
            rcases createDeviceCert_cases env f key st1 with ⟨a, b⟩ | ⟨name, c, a1, a2, a3, a4, a5, a6⟩
            · exact .inl ⟨a.trans e2, b⟩
            · refine .inr ⟨a1, by trivial, a4.trans e1, ?_⟩
              rw [e1, serialData_eq (env.hmac (env.hash (first :: rest)))] at a2 a3
              rw [List.take_of_length_le (by rw [Spec.identity, Kdf.Spec.K, he.hmac]; exact Nat.le_refl _)] at a2
              obtain ⟨b1, b2⟩ := commonName_spec a2
              obtain ⟨live, b3⟩ := selfSigned_fst a3
              exact ⟨first :: rest, seed, key, name, c, live, by simp, a4.trans e1, hder, hd', a5, b1, b2, b3, a6⟩
        | failed => exact .inl ⟨by trivial, by simp⟩
        | inputKeyTooShort => exact .inl ⟨by trivial, by simp⟩
        | outputKeyTooLong => exact .inl ⟨by trivial, by simp⟩
        | uninitialised => exact .inl ⟨by trivial, by simp⟩

/-- The parts of the state the alias key does not touch. -/
def SameDev (a b : St) : Prop :=
  a.cdi = b.cdi ∧ a.devDer = b.devDer ∧ a.devCtx = b.devCtx ∧ a.devCertValid = b.devCertValid

theorem createAliasCert_cases (env : Env) (f : Faults) (h key : Bytes) (st : St) :
    SameDev (createAliasCert env f h key st).2 st ∧
    (((createAliasCert env f h key st).2.aliasCertValid = st.aliasCertValid ∧ (createAliasCert env f h key st).1 ≠ .ok ()) ∨
    (∃ name devDer ca c, (createAliasCert env f h key st).1 = .ok () ∧
      commonName ((env.hmac h serialData).take env.digestLen) = some name ∧ st.devDer = some devDer ∧ st.devCtx = some ca ∧
      (caSigned env.x (env.keyDer key) ((env.hmac h serialData).take 8) name 0 devDer env.sig ca env.aliasExt).1 = .ok c ∧
      (createAliasCert env f h key st).2.aliasDer = some (env.keyDer key) ∧
      (createAliasCert env f h key st).2.aliasCtx = some c.out)) := by
  unfold createAliasCert
  simp only
  split
  · exact ⟨⟨rfl, rfl, rfl, rfl⟩, .inl ⟨by trivial, by simp⟩⟩
  · split
    · exact ⟨⟨rfl, rfl, rfl, rfl⟩, .inl ⟨by trivial, by simp⟩⟩
    · split
      · exact ⟨⟨rfl, rfl, rfl, rfl⟩, .inl ⟨by trivial, by simp⟩⟩
      · cases hn : commonName ((env.hmac h serialData).take env.digestLen) with
        | none => exact ⟨⟨rfl, rfl, rfl, rfl⟩, .inl ⟨by trivial, by simp⟩⟩
        | some name =>
          simp only
          cases hd : st.devDer with
          | none => exact ⟨⟨rfl, hd.symm ▸ rfl, rfl, rfl⟩, .inl ⟨by trivial, by simp⟩⟩
          | some devDer =>
            simp only
            by_cases hs : serialOk ((env.hmac h serialData).take 8) = false
            · simp only [if_pos hs]
              exact ⟨⟨rfl, hd.symm ▸ rfl, rfl, rfl⟩, .inl ⟨by trivial, by simp [statusOf]⟩⟩
            · simp only [if_neg hs]
              cases hf : f.cert with
              | true =>
                simp only [if_true]
                exact ⟨⟨rfl, hd.symm ▸ rfl, rfl, rfl⟩, .inl ⟨by trivial, by simp [statusOf]⟩⟩
              | false =>
                simp only [Bool.false_eq_true, if_false]
                cases hctx : st.devCtx with
                | none => exact ⟨⟨rfl, hd.symm ▸ rfl, hctx.symm ▸ rfl, rfl⟩, .inl ⟨by trivial, by simp [statusOf]⟩⟩
                | some ca =>
                  simp only
                  cases hc : (caSigned env.x (env.keyDer key) ((env.hmac h serialData).take 8) name 0 devDer env.sig ca env.aliasExt).1 with
                  | err e => exact ⟨⟨rfl, hd.symm ▸ rfl, hctx.symm ▸ rfl, rfl⟩, .inl ⟨by trivial, by simp [statusOf]⟩⟩
                  | oob => exact ⟨⟨rfl, hd.symm ▸ rfl, hctx.symm ▸ rfl, rfl⟩, .inl ⟨by trivial, by simp [statusOf]⟩⟩
                  | ok c =>
                    refine ⟨⟨rfl, hd.symm ▸ rfl, hctx.symm ▸ rfl, rfl⟩, .inr ⟨name, devDer, ca, c, rfl, rfl, rfl, rfl, hc, rfl, ?_⟩⟩
                    simp only [newCtx, if_neg hs]

/-- An alias key that is generated is the one of the CDI and the FWID, with its certificate. -/
theorem generateAlias_cases (env : Env) (he : env.Ok) (f : Faults) (fwid : Bytes) (st : St) :
    SameDev (generateAlias env f fwid st).2.1 st ∧
    (((generateAlias env f fwid st).2.1.aliasCertValid = st.aliasCertValid ∧ (generateAlias env f fwid st).1 ≠ .ok ()) ∨
    ((generateAlias env f fwid st).1 = .ok () ∧ st.devCertValid = true ∧ (generateAlias env f fwid st).2.2 = [env.hmac st.cdi fwid] ∧
      AliasGood env (generateAlias env f fwid st).2.1)) := by
  unfold generateAlias
  by_cases h0 : fwid = []
  · rw [if_pos h0]; exact ⟨⟨rfl, rfl, rfl, rfl⟩, .inl ⟨by trivial, by simp⟩⟩
  · rw [if_neg h0]
    by_cases hv : st.devCertValid = false
    · rw [if_pos hv]; exact ⟨⟨rfl, rfl, rfl, rfl⟩, .inl ⟨by trivial, by simp⟩⟩
    · rw [if_neg hv]
      cases hf : f.fwid with
      | true => exact ⟨⟨rfl, rfl, rfl, rfl⟩, .inl ⟨by trivial, by simp⟩⟩
      | false =>
        simp only [Bool.false_eq_true, if_false]
        cases hk : Kdf.counterMode (fun i m => if f.kdf i then none else some (env.hmac (env.hmac st.cdi fwid) m))
          env.digestLen aliasLabel diceContext env.keyLen with
        | mk s seed =>
          cases s with
          | ok =>
            simp only
            cases hd : (if f.derive then none else env.derive (maskSeed env.keyLen seed)) with
            | none => exact ⟨⟨rfl, rfl, rfl, rfl⟩, .inl ⟨by trivial, by simp⟩⟩
            | some key =>
              simp only
              have hl := he.lens
              have hder := counterMode_faults hl.2.2.1 (he.hmac _) hl.1 (by omega) hk
              rw [maskSeed_eq hder.1] at hd
              have hd' : env.derive (Spec.fitCurve seed) = some key := by
                cases hf : f.derive with
                | true => simp [hf] at hd
                | false => simpa [hf] using hd
              generalize hst : ({ st with aliasKey := some key, lost := (st.aliasKey.map Lost.key).toList ++ st.lost } : St) = st1
              have e0 : SameDev st1 st := by rw [← hst]; exact ⟨rfl, rfl, rfl, rfl⟩
              have e2 : st1.aliasCertValid = st.aliasCertValid := by rw [← hst]
              obtain ⟨⟨s1, s2, s3, s4⟩, hc⟩ := createAliasCert_cases env f (env.hmac st.cdi fwid) key st1
              have same : SameDev (createAliasCert env f (env.hmac st.cdi fwid) key st1).2 st :=
                ⟨s1.trans e0.1, s2.trans e0.2.1, s3.trans e0.2.2.1, s4.trans e0.2.2.2⟩
              refine ⟨same, ?_⟩
              rcases hc with ⟨a, b⟩ | ⟨name, devDer, ca, c, a1, a2, a3, a4, a5, a6, a7⟩
              · exact .inl ⟨a.trans e2, b⟩
              · refine .inr ⟨a1, by simpa using hv, by trivial, ?_⟩
                rw [serialData_eq (env.hmac (env.hmac st.cdi fwid))] at a2 a5
                rw [List.take_of_length_le (by rw [Spec.identity, Kdf.Spec.K, he.hmac]; exact Nat.le_refl _)] at a2
                obtain ⟨b1, b2⟩ := commonName_spec a2
                obtain ⟨live, b3⟩ := caSigned_fst a5
                refine ⟨fwid, seed, key, name, devDer, ca, c, live, h0, ?_, hd', a6, ?_, s2.trans a3, s3.trans a4, ?_, a7⟩
                · rw [same.1]; exact hder
                · rw [same.1]; exact b1
                · rw [same.1]; exact b3
          | failed => exact ⟨⟨rfl, rfl, rfl, rfl⟩, .inl ⟨by trivial, by simp⟩⟩
          | inputKeyTooShort => exact ⟨⟨rfl, rfl, rfl, rfl⟩, .inl ⟨by trivial, by simp⟩⟩
          | outputKeyTooLong => exact ⟨⟨rfl, rfl, rfl, rfl⟩, .inl ⟨by trivial, by simp⟩⟩
          | uninitialised => exact ⟨⟨rfl, rfl, rfl, rfl⟩, .inl ⟨by trivial, by simp⟩⟩

/-- A call that is not a second generation: the Device ID is not generated again once there is one, nor
the alias key. Failed calls can be repeated. -/
def Fresh (st : St) : Op → Prop
  | .device _ _ => st.devCertValid = false
  | .alias _ _ => st.aliasCertValid = false

/-- The states of a handler that is used that way, with any failures. -/
inductive Run (env : Env) : St → Prop
  | init : Run env .initial
  | step (st : St) (op : Op) : Run env st → Fresh st op → Run env (step env st op)

theorem DevGood.same {env : Env} {a b : St} (h : DevGood env b) (s : SameDev a b) : DevGood env a := by
  obtain ⟨cdi, seed, key, name, c, live, a1, a2, a3, a4, a5, a6, a7, a8, a9⟩ := h
  exact ⟨cdi, seed, key, name, c, live, a1, s.1.trans a2, a3, a4, s.2.1.trans a5, a6, a7, a8, s.2.2.1.trans a9⟩

theorem createDeviceCert_als (env : Env) (f : Faults) (key : Bytes) (st : St) :
    (createDeviceCert env f key st).2.aliasCertValid = st.aliasCertValid := by
  unfold createDeviceCert
  simp only
  split
  · rfl
  · split
    · rfl
    · split
      · rfl
      · cases commonName ((env.hmac st.cdi serialData).take env.digestLen) with
        | none => rfl
        | some name => simp only; split <;> rfl

theorem generateDeviceId_als (env : Env) (f : Faults) (cdi : Bytes) (st : St) :
    (generateDeviceId env f cdi st).2.1.aliasCertValid = st.aliasCertValid := by
  unfold generateDeviceId
  match cdi with
  | [] => rfl
  | first :: rest =>
    simp only
    match f.hash with
    | some 1 => rfl
    | some 0 => rfl
    | some (n + 2) => rfl
    | none =>
      simp only
      cases Kdf.counterMode (fun i m => if f.kdf i then none else some (env.hmac (env.hash (first :: rest)) m))
        env.digestLen deviceLabel diceContext env.keyLen with
      | mk s seed =>
        cases s with
        | ok =>
          simp only
          cases (if f.derive then none else env.derive (maskSeed env.keyLen seed)) with
          | none => rfl
          | some key => exact createDeviceCert_als env f key _
        | failed => rfl
        | inputKeyTooShort => rfl
        | outputKeyTooLong => rfl
        | uninitialised => rfl

theorem run_inv {env : Env} (he : env.Ok) {st : St} (h : Run env st) : Inv env st := by
  induction h with
  | init => exact ⟨nofun, nofun⟩
  | step st op h hf ih =>
    cases op with
    | device f cdi =>
      have hf : st.devCertValid = false := hf
      have ha : st.aliasCertValid = false := by
        cases ha : st.aliasCertValid with
        | false => rfl
        | true => have := (ih.als ha).1; rw [hf] at this; simp at this
      have ha' := generateDeviceId_als env f cdi st
      refine ⟨fun hv => ?_, fun hv => ?_⟩
      · rcases generateDeviceId_cases env he f cdi st with ⟨a, _⟩ | ⟨_, _, _, b⟩
        · have : (generateDeviceId env f cdi st).2.1.devCertValid = true := hv
          rw [a, hf] at this; simp at this
        · exact b
      · have : (generateDeviceId env f cdi st).2.1.aliasCertValid = true := hv
        rw [ha', ha] at this; simp at this
    | alias f fwid =>
      have hf : st.aliasCertValid = false := hf
      obtain ⟨same, hc⟩ := generateAlias_cases env he f fwid st
      refine ⟨fun hv => ?_, fun hv => ?_⟩
      · have hv : (generateAlias env f fwid st).2.1.devCertValid = true := hv
        rw [same.2.2.2] at hv
        exact (ih.dev hv).same same
      · have hv : (generateAlias env f fwid st).2.1.aliasCertValid = true := hv
        rcases hc with ⟨a, _⟩ | ⟨_, b, _, d⟩
        · rw [a, hf] at hv; simp at hv
        · exact ⟨same.2.2.2.trans b, d⟩

/-- **C133, Device ID.** The Device ID certificate that is handed out is self-signed with a key derived
from the CDI alone; name and serial number are derived from it too. -/
theorem device_cert_partial (env : Env) (he : env.Ok) (st : St) (h : Run env st) (d : Bytes) (hd : getDeviceCert st = .ok d) :
    ∃ cdi seed key raw f alg sg, cdi ≠ [] ∧
      Spec.Derived (env.hmac (env.hash cdi)) env.digestLen Spec.deviceLabel Spec.dice env.keyLen seed ∧
      env.derive (Spec.fitCurve seed) = some key ∧
      d = CertBuild.Spec.signed (CertBuild.Spec.tbs f) alg sg ∧
      env.x.sign env.sig (env.keyDer key) (CertBuild.Spec.tbs f) = .ok sg ∧
      PublicOf env.x (env.keyDer key) f.publicKeyInfo raw ∧ env.x.sha1 raw = .ok f.subjectKeyDigest ∧
      f.serial = Spec.serial (env.hmac (env.hash cdi)) ∧ f.serial ≠ 0 ∧
      Spec.IsName (env.hmac (env.hash cdi)) f.subject ∧ f.issuer = f.subject ∧ f.role = .ca (some 0) := by
  unfold getDeviceCert at hd
  split at hd
  · rename_i hv
    obtain ⟨cdi, seed, key, name, c, live, a1, a2, a3, a4, a5, a6, a7, a8, a9⟩ := (run_inv he h).dev hv
    rw [a9] at hd
    cases hd
    obtain ⟨alg, keyDer, k, digest, sg, _, p, p3, p4, p5, _, p7, _⟩ := self_signed_exact_partial _ _ _ _ _ _ _ _ _ he.max
      (by rw [List.length_take]; omega) a8
    exact ⟨cdi, seed, key, k, _, alg, sg, a1, a3, a4, p5, p4, p, p3, rfl, p7, a6, rfl, rfl⟩
  · simp at hd

/-- **C133, alias key.** Whenever an alias certificate is handed out, so are the Device ID certificate
and the private key of the alias; the alias key is derived from CDI and FWID, the certificate is for
exactly that key, signed with the key of the Device ID certificate, and names it as issuer. -/
theorem alias_chain_partial (env : Env) (he : env.Ok) (st : St) (h : Run env st) (a : Bytes) (ha : getAliasCert st = .ok a) :
    ∃ cdi fwid devSeed devKey seed key d raw rawDev f f' alg alg' sg sg', fwid ≠ [] ∧
      getDeviceCert st = .ok d ∧ getAliasKey st = .ok (env.keyDer key) ∧
      Spec.Derived (env.hmac (env.hash cdi)) env.digestLen Spec.deviceLabel Spec.dice env.keyLen devSeed ∧
      env.derive (Spec.fitCurve devSeed) = some devKey ∧
      Spec.Derived (env.hmac (env.hmac (env.hash cdi) fwid)) env.digestLen Spec.aliasLabel Spec.dice env.keyLen seed ∧
      env.derive (Spec.fitCurve seed) = some key ∧
      d = CertBuild.Spec.signed (CertBuild.Spec.tbs f) alg sg ∧ PublicOf env.x (env.keyDer devKey) f.publicKeyInfo rawDev ∧
      a = CertBuild.Spec.signed (CertBuild.Spec.tbs f') alg' sg' ∧
      env.x.sign env.sig (env.keyDer devKey) (CertBuild.Spec.tbs f') = .ok sg' ∧
      PublicOf env.x (env.keyDer key) f'.publicKeyInfo raw ∧
      f'.issuer = f.subject ∧ f'.authorityKeyDigest = f.subjectKeyDigest ∧
      f'.serial = Spec.serial (env.hmac (env.hmac (env.hash cdi) fwid)) ∧ f'.serial ≠ 0 ∧
      Spec.IsName (env.hmac (env.hmac (env.hash cdi) fwid)) f'.subject ∧ f'.role = .endEntity := by
  unfold getAliasCert at ha
  split at ha
  · rename_i hv
    have inv := run_inv he h
    obtain ⟨hdv, fwid, seed, key, name, devDer, ca, c', live', b1, b2, b3, b4, b5, b6, b7, b8, b9⟩ := inv.als hv
    obtain ⟨cdi, devSeed, devKey, dname, c, live, a1, a2, a3, a4, a5, a6, a7, a8, a9⟩ := inv.dev hdv
    rw [b9] at ha
    cases ha
    rw [a5] at b6
    cases b6
    rw [a9] at b7
    cases b7
    rw [a2] at b2 b5 b8
    obtain ⟨alg, keyDer, k, digest, sg, _, ⟨p1, p2⟩, p3, p4, p5, p6, p7, _⟩ := self_signed_exact_partial _ _ _ _ _ _ _ _ _ he.max
      (by rw [List.length_take]; omega) a8
    obtain ⟨alg', authDer, authKey, authDigest, subjDer, subjKey, subjDigest, issuer, sg', _, ⟨q1, q2⟩, q3, q4, q5, q6, q7, q8, _, q9, _⟩ :=
      ca_signed_exact_partial _ _ _ _ _ _ _ _ _ _ _ he.max (by rw [List.length_take]; omega) b8
    have e1 := signed_certWith ⟨beNat ((Spec.identity (env.hmac (env.hash cdi))).take 8), alg, dname, dname, keyDer, digest, digest, role 1, built env.devExt⟩ alg sg
    have hlen : c.out.length < 65536 := by have := he.max; omega
    have p5' := p5
    rw [e1] at p5'
    rw [p5'] at hlen
    have hf := (Dec.subject_found _ _ _ _ _ _ _ dname _ _ env.x.malloc he.malloc a7 hlen).1
    rw [p5', hf] at q6
    simp only [Res.ok.injEq] at q6
    rw [p1] at q1
    cases q1
    rw [p2] at q2
    cases q2
    rw [p3] at q3
    cases q3
    have hpub : PublicOf env.x (env.keyDer key) subjDer subjKey := by
      rcases q4 with ⟨_, off, len, g, _⟩ | g
      · exact absurd g (he.priv _ _)
      · exact g
    refine ⟨cdi, fwid, devSeed, devKey, seed, key, c.out, subjKey, k, _, _, alg, alg', sg, sg', b1, ?_, ?_, a3, a4, b2, b3, p5,
      ⟨p1, p2⟩, q8, q7, hpub, q6.symm, rfl, rfl, q9, b5, rfl⟩
    · unfold getDeviceCert
      rw [if_pos hdv, a9]; rfl
    · unfold getAliasKey
      rw [b4]
  · simp at ha

/-- **C133, reads.** Nothing handed out is read through a null pointer. -/
theorem getters_safe_partial (env : Env) (he : env.Ok) (st : St) (h : Run env st) :
    getDeviceCert st ≠ .oob ∧ getAliasCert st ≠ .oob := by
  have inv := run_inv he h
  refine ⟨?_, ?_⟩
  · unfold getDeviceCert
    split
    · rename_i hv
      obtain ⟨_, _, _, _, _, _, _, _, _, _, _, _, _, _, a9⟩ := inv.dev hv
      rw [a9]; simp [certDer]
    · simp
  · unfold getAliasCert
    split
    · rename_i hv
      obtain ⟨_, _, _, _, _, _, _, _, _, _, _, _, _, _, _, _, _, b9⟩ := inv.als hv
      rw [b9]; simp [certDer]
    · simp

/-- Nothing but the CDI (and the FWID) decides about a key: what is derived is unique. -/
theorem derived_unique (mac : Bytes → Bytes) (h : Nat) (label context : Bytes) (n : Nat) (a b : Bytes)
    (ha : Spec.Derived mac h label context n a) (hb : Spec.Derived mac h label context n b) : a = b := by
  obtain ⟨l1, e1⟩ := ha
  obtain ⟨l2, e2⟩ := hb
  refine List.ext_getElem (l1.trans l2.symm) fun i h1 h2 => ?_
  have := (e1 i (by omega)).trans (e2 i (by omega)).symm
  simpa [List.getElem?_eq_getElem h1, List.getElem?_eq_getElem h2] using this

/-- **C133, secrets of the Device ID.** A Device ID that is generated leaves no secret behind in local
variables. -/
theorem device_id_cleared (env : Env) (he : env.Ok) (f : Faults) (cdi : Bytes) (st : St)
    (h : (generateDeviceId env f cdi st).1 = .ok ()) : (generateDeviceId env f cdi st).2.2 = [] := by
  rcases generateDeviceId_cases env he f cdi st with ⟨_, b⟩ | ⟨_, b, _⟩
  · exact absurd h b
  · exact b

/-- The encoding of the Device ID key is overwritten before it is freed. -/
theorem device_encoding_wiped (st : St) (d : Bytes) (h : st.devDer = some d) :
    (release st).1.head? = some (List.replicate d.length 0) ∧ (release st).2 = .initial := by
  simp [release, h]

/-- A failed or successful first call loses nothing. -/
theorem first_device_id_keeps (env : Env) (f : Faults) (cdi : Bytes) :
    (generateDeviceId env f cdi .initial).2.1.lost = [] := by
  have key : ∀ k (st : St), st.devDer = none → st.devCtx = none → st.lost = [] → (createDeviceCert env f k st).2.lost = [] := by
    intro k st h1 h2 h3
    unfold createDeviceCert
    simp only [h1, h2, h3, Option.map_none, Option.toList_none, List.append_nil]
    split
    · rfl
    · split
      · rfl
      · split
        · rfl
        · cases commonName ((env.hmac st.cdi serialData).take env.digestLen) with
          | none => rfl
          | some name =>
            simp only [lostCtx, Option.map_none, Option.toList_none, ite_self]
            split <;> rfl
  unfold generateDeviceId
  match cdi with
  | [] => rfl
  | first :: rest =>
    simp only
    match f.hash with
    | some 1 => rfl
    | some 0 => rfl
    | some (n + 2) => rfl
    | none =>
      simp only
      cases Kdf.counterMode (fun i m => if f.kdf i then none else some (env.hmac (env.hash (first :: rest)) m))
        env.digestLen deviceLabel diceContext env.keyLen with
      | mk s seed =>
        cases s with
        | ok =>
          simp only
          cases (if f.derive then none else env.derive (maskSeed env.keyLen seed)) with
          | none => rfl
          | some k => exact key k _ rfl rfl rfl
        | failed => rfl
        | inputKeyTooShort => rfl
        | outputKeyTooLong => rfl
        | uninitialised => rfl

/-! ### A concrete device -/

/-- A toy environment. -/
def toyEnv : Env where
  keyLen := 32
  sig := .sha256
  digestLen := 32
  hash m := (m ++ List.replicate 32 1).take 32
  hmac k m := (List.zipWith (· + ·) (k ++ List.replicate 32 1) (m ++ List.replicate 32 1)).take 32
  derive s := some (s.take 1)
  keyDer k := [k.getD 0 0]
  x := toy 600
  devExt := [none]
  aliasExt := []

theorem toyEnv_ok : toyEnv.Ok where
  params := rfl
  hash m := by simp [toyEnv]
  hmac k m := by simp [toyEnv]
  max := by decide
  malloc _ _ := rfl
  priv k r := by
    have key : ∀ b : UInt8, (match Dec.getPubKey [b] with
        | .ok _ => false
        | _ => true) = true := by decide +kernel
    intro h
    have := key (k.getD 0 0)
    rw [show Dec.getPubKey [k.getD 0 0] = .ok r from h] at this
    simp at this

/-- Calls one after the other. -/
def runs (ops : List Op) : St := ops.foldl (step toyEnv) .initial

/-- No call of the list is a second generation. -/
def freshAll (env : Env) : St → List Op → Bool
  | _, [] => true
  | st, op :: rest =>
    (match op with
      | .device _ _ => !st.devCertValid
      | .alias _ _ => !st.aliasCertValid) && freshAll env (step env st op) rest

theorem run_foldl (env : Env) (ops : List Op) : ∀ st, Run env st → freshAll env st ops = true →
    Run env (ops.foldl (step env) st) := by
  induction ops with
  | nil => intro st h _; exact h
  | cons op rest ih =>
    intro st h hf
    simp only [freshAll, Bool.and_eq_true] at hf
    exact ih _ (.step st op h (by cases op <;> simpa [Fresh] using hf.1)) hf.2

/-- Device ID and alias key, after failed calls. -/
def toyOps : List Op :=
  [.device { Faults.none with cert := true } [1], .device .none [1], .alias { Faults.none with fwid := true } [3], .alias .none [3]]

/-- The claims are about something. -/
example : Run toyEnv (runs toyOps) ∧ (runs toyOps).devCertValid = true ∧ (runs toyOps).aliasCertValid = true ∧
    getAliasKey (runs toyOps) = .ok [4] ∧ (runs toyOps).devDer = some [1] :=
  ⟨run_foldl _ _ _ .init (by decide +kernel), by decide +kernel⟩

/-! ### What fails

Each of these needs a second generation, or concerns what is left in memory. -/

/-- A second Device ID that fails half way leaves the old certificate with the new key: alias keys are
certified from then on with a key that is not the one of the Device ID certificate. -/
theorem regenerate_breaks_chain :
    let one := runs [.device .none [1]]
    let two := runs [.device .none [1], .device { Faults.none with serial := true } [2], .alias .none [3]]
    getDeviceCert two = getDeviceCert one ∧ one.devDer = some [1] ∧ two.devDer = some [2] ∧
      two.aliasCertValid = true ∧ getAliasCert two ≠ .oob := by
  decide +kernel

/-- A second Device ID that fails in the certificate leaves a certificate marked as valid that is not
there; reading it dereferences a null pointer. -/
theorem regenerate_null_cert :
    getDeviceCert (runs [.device .none [1], .device { Faults.none with cert := true } [1]]) = .oob := by
  decide +kernel

/-- A second alias key that fails half way: the key handed out is not the one of the certificate handed
out. -/
theorem alias_key_mismatch :
    let one := runs [.device .none [1], .alias .none [3]]
    let two := runs [.device .none [1], .alias .none [3], .alias { Faults.none with serial := true } [5]]
    getAliasCert two = getAliasCert one ∧ getAliasKey one = .ok [4] ∧ getAliasKey two = .ok [6] := by
  decide +kernel

/-- A repeated generation after a failure loses the first key and its encoding; neither is released or
cleared. -/
theorem retry_loses_key :
    (runs [.device { Faults.none with serial := true } [1], .device .none [1]]).lost = [.der [1], .key [1]] := by
  decide +kernel

/-- A Device ID that is not generated leaves the seed of its key in local memory. -/
theorem seed_left :
    (generateDeviceId toyEnv { Faults.none with derive := true } [1] .initial).2.2.length = 1 ∧
    (generateDeviceId toyEnv { Faults.none with hash := some 1 } [7] .initial).2.2 = [[7]] := by
  decide +kernel

/-- The secret all alias keys of a firmware come from is always left in local memory. -/
theorem alias_secret_left (env : Env) (he : env.Ok) (f : Faults) (fwid : Bytes) (st : St)
    (h : (generateAlias env f fwid st).1 = .ok ()) : (generateAlias env f fwid st).2.2 = [env.hmac st.cdi fwid] := by
  rcases (generateAlias_cases env he f fwid st).2 with ⟨_, b⟩ | ⟨_, _, b, _⟩
  · exact absurd h b
  · exact b

/-- The encoding of the alias private key is freed with its contents. -/
theorem alias_encoding_not_wiped (st : St) (a : Bytes) (h : st.aliasDer = some a) : a ∈ (release st).1 := by
  simp [release, h]

end Verif.RiotCore
