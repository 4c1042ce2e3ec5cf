import Verif.Requester.Run
import Verif.Requester.FlowSpec
import Verif.Requester.VerdictProps
/-! What is known after a measurement was taken. -/
namespace Verif.Requester

variable {env : Env} {eid : Nat} {c : Component}

theorem take_two (l : Bytes) : leNat (l.take 2) = (l.getD 0 0).toNat + 256 * (l.getD 1 0).toNat := by
  match l with
  | [] => rfl
  | [x] => simp [leNat]
  | x :: y :: _ => simp [leNat, Nat.mul_comm]

theorem take_three (l : Bytes) : leNat (l.take 3) = (l.getD 0 0).toNat + 256 * (l.getD 1 0).toNat + 65536 * (l.getD 2 0).toNat := by
  match l with
  | [] => rfl
  | [x] => simp [leNat]
  | [x, y] => simp [leNat]
  | x :: y :: z :: _ => simp [leNat]; omega

theorem u16_two (b : Bytes) (i : Nat) : u16 b i = two b i := by
  unfold u16 window two
  rw [take_two]
  simp [List.getD_eq_getElem?_getD]

theorem recordLen_three (b : Bytes) : recordLen b = three b 5 := by
  unfold recordLen window three
  rw [take_three]
  simp [List.getD_eq_getElem?_getD]

theorem getD_of_take {a b : Bytes} {n i : Nat} (h : a.take n = b.take n) (hi : i < n) : a.getD i 0 = b.getD i 0 := by
  have : (a.take n)[i]? = (b.take n)[i]? := by rw [h]
  simpa [List.getElem?_take, hi, List.getD_eq_getElem?_getD] using congrArg (Option.getD · 0) this

theorem window_of_take {a b : Bytes} {n i k : Nat} (h : a.take n = b.take n) (hi : i + k ≤ n) : window a i k = window b i k := by
  have e : ∀ x : Bytes, window x i k = window (x.take n) i k := by
    intro x
    simp only [window, List.drop_take, List.take_take]
    congr 1
    omega
  rw [e a, e b, h]

theorem signedPart_eq (t : Txn) : measLen t = signedPart t.buf := by
  simp only [measLen, signedPart, recordLen_three, u16_two]
  congr 2
  omega

theorem signedPart_of_take {a b : Bytes} (h : a.take (signedPart b) = b.take (signedPart b)) : signedPart a = signedPart b := by
  have hn : 42 + three b 5 ≤ signedPart b := by unfold signedPart; omega
  have h3 : three a 5 = three b 5 := by
    unfold three
    rw [getD_of_take h (by omega), getD_of_take h (i := 5 + 1) (by omega), getD_of_take h (i := 5 + 2) (by omega)]
  unfold signedPart at hn ⊢
  rw [h3]
  congr 1
  unfold two
  rw [getD_of_take h (i := 40 + three b 5) (by unfold signedPart; omega), getD_of_take h (i := 40 + three b 5 + 1) (by unfold signedPart; omega)]

theorem blocks_values {n op : Nat} {raw : Bool} {b : Bytes} : ∀ {k off : Nat} {acc v : Bytes}, blocks n op raw b k off acc = .ok v →
    ∃ w, v = acc ++ w ∧ Values op raw b k off w
  | 0, off, acc, v, h => by
    simp only [blocks, Except.ok.injEq] at h
    exact ⟨[], by simp [h], .none off⟩
  | k + 1, off, acc, v, h => by
    rw [blocks] at h
    split at h
    · cases h
    · split at h
      · cases h
      · split at h
        · cases h
        · rename_i h1 h2
          simp only at h
          split at h
          · cases h
          · split at h
            · cases h
            · obtain ⟨w, e, hw⟩ := blocks_values h
              refine ⟨window b (off + 7) (u16 b (off + 5)) ++ w, by rw [e, List.append_assoc], ?_⟩
              refine .block ?_ ?_ (by rw [u16_two]; rfl) hw
              · unfold u8 at h1
                omega
              · have hb : (u8 b (off + 4)) < 256 := (b.getD (off + 4) 0).toNat_lt
                have h2 : decide (u8 b (off + 4) / 128 = 1) = raw := Decidable.of_not_not h2
                rw [← h2]
                have : (u8 b (off + 4) / 128 = 1) ↔ 128 ≤ (b.getD (off + 4) 0).toNat := by
                  unfold u8 at *
                  omega
                simp only [this]

theorem sigPrefix_two (ch : Bool) : sigPrefix 2 ch = preamble (if ch then "responder-challenge_auth signing" else "responder-measurements signing") := by
  cases ch <;> decide +kernel

theorem signedDigest_eq {minor t : Nat} {x : Bytes} (ch : Bool) (hm : minor ≤ 2) :
    signedDigest env minor ch t x = toSign (env.hash t) minor (if ch then "responder-challenge_auth signing" else "responder-measurements signing") x := by
  unfold signedDigest toSign
  by_cases h : minor = 2
  · subst h
    rw [sigPrefix_two]
    rfl
  · rw [if_neg (by omega), if_neg h]

theorem measRequest_eq {minor slot op : Nat} {raw : Bool} {nonce : Bytes} (hm : minor ≤ 2) :
    measRequest minor slot op raw (some nonce) = getMeasurements minor slot op raw nonce := by
  unfold measRequest getMeasurements
  have h1 : (2 ≤ minor) ↔ minor = 2 := by omega
  by_cases h0 : minor = 0
  · subst h0
    cases raw <;> simp
  · have : 0 < minor := by omega
    simp only [this, if_true, if_neg h0, h1, Option.isSome_some]
    split <;> simp_all

/-- The state between the steps of an attestation. -/
structure Inv (env : Env) (eid : Nat) (c : Component) (s : St) : Prop where
  minor : s.txn.minor ≤ 2
  thash : s.txn.thash = c.thash
  slot : s.txn.slot = c.slot
  certs : hasCerts s.trace = some s.txn.cert
  sound : Sound env c (aliasOf s eid) s.trace

/-- What steps leave as it is. -/
structure Keep (s s' : St) : Prop where
  alias : s'.alias = s.alias
  chain : s'.chain = s.chain
  dev : s'.dev = s.dev
  succ : s'.succ = s.succ
  trace : s.trace <:+ s'.trace

theorem Keep.rfl {s : St} : Keep s s := ⟨by trivial, by trivial, by trivial, by trivial, List.suffix_rfl⟩

theorem Keep.trans {s t u : St} (h : Keep s t) (k : Keep t u) : Keep s u :=
  ⟨k.alias.trans h.alias, k.chain.trans h.chain, k.dev.trans h.dev, k.succ.trans h.succ, h.trace.trans k.trace⟩

theorem aliasOf_congr {s s' : St} (h : s'.alias = s.alias) : aliasOf s' eid = aliasOf s eid := by unfold aliasOf; rw [h]

theorem measurementsPost_ok {a : Unit} {s s' : St} (h : measurementsPost env s = (.ok a, s')) (h0 : s.txn.op ≠ 0) :
    s' = s ∧ (s.txn.op = 255 ∨ s.txn.buf.getD 4 0 = 1) := by
  unfold measurementsPost at h
  nx h a0 s1 h1
  nx h a1 s2 h2
  nx h a2 s3 h3
  nx h a3 s4 h4
  obtain ⟨rfl, rfl⟩ := txn_ok h1
  obtain ⟨hb, rfl⟩ := check_ok h2
  obtain ⟨-, rfl⟩ := check_ok h3
  have e4 := setTxn_ok h4
  obtain ⟨-, rfl⟩ := check_ok h
  rw [if_neg h0] at e4
  refine ⟨e4, ?_⟩
  have hb := of_decide_eq_true hb
  rcases hb with hb | hb
  · exact .inl hb
  · right
    unfold u8 at hb
    exact UInt8.toNat_inj.mp hb

theorem measurementsPost_zero {a : Unit} {s s' : St} (h : measurementsPost env s = (.ok a, s')) (h0 : s.txn.op = 0) (hl : s.txn.buf.length = env.n) :
    ∃ b, b ≠ [] ∧ s' = { s with txn := { s.txn with buf := b, len := 1 } } := by
  unfold measurementsPost at h
  nx h a0 s1 h1
  nx h a1 s2 h2
  nx h a2 s3 h3
  nx h a3 s4 h4
  obtain ⟨rfl, rfl⟩ := txn_ok h1
  obtain ⟨-, rfl⟩ := check_ok h2
  obtain ⟨-, rfl⟩ := check_ok h3
  have e4 := setTxn_ok h4
  obtain ⟨hn, rfl⟩ := check_ok h
  rw [if_pos h0] at e4
  refine ⟨_, ?_, e4⟩
  have hn := of_decide_eq_true hn
  intro e
  have := congrArg List.length e
  simp at this
  simp [this] at hl
  omega

theorem newNonce_ok {cert : Bool} {x : Option Bytes} {s s' : St} (h : newNonce env cert s = (.ok x, s')) :
    (cert = false ∧ x = none ∧ s' = s) ∨ ∃ y k, cert = true ∧ x = some y ∧ s' = { s with k := k, trace := .nonce y :: s.trace } := by
  unfold newNonce at h
  cases cert
  · obtain ⟨rfl, rfl⟩ := pure_ok h
    exact .inl ⟨rfl, rfl, rfl⟩
  · simp only [if_true] at h
    nx h y s1 h1
    obtain ⟨rfl, rfl⟩ := pure_ok h
    unfold random at h1
    split at h1
    · cases h1
    · cases h1
      exact .inr ⟨_, _, rfl, rfl, rfl⟩

theorem doSetup_ok {b : Bool} {a : Unit} {s s' : St} (h : doIf b (setup env eid) s = (.ok a, s')) (hm : s.txn.minor ≤ 2) (hc : hasCerts s.trace = some s.txn.cert)
    {t : Nat} {x : Bytes} (hs : s.sec = some (t, x)) :
    ∃ k r x' bf l m ct ch sl mh tr, m ≤ 2 ∧ hasCerts tr = some ct ∧ (tr = s.trace ∨ ∃ e, tr = .caps e :: s.trace) ∧
      s' = { s with k := k, r := r, sec := some (t, x'), txn := { s.txn with buf := bf, len := l, minor := m, cert := ct, chal := ch, sigLen := sl, mhash := mh }, trace := tr } := by
  rcases doIf_ok h with ⟨-, h⟩ | ⟨-, rfl⟩
  · obtain ⟨t', x0, k, r, x', bf, l, m, ct, ch, sl, mh, hs', -, hm', rfl⟩ := setup_ok h
    rw [hs] at hs'
    cases hs'
    exact ⟨k, r, x', bf, l, m, ct, ch, sl, mh, _, hm', rfl, .inr ⟨_, rfl⟩, rfl⟩
  · refine ⟨s'.k, s'.r, x, s'.txn.buf, s'.txn.len, s'.txn.minor, s'.txn.cert, s'.txn.chal, s'.txn.sigLen, s'.txn.mhash, s'.trace, hm, hc, .inl rfl, ?_⟩
    rw [← hs]

/-- The last step: the record of a measurement is evidence. -/
theorem processMeasurements_ok {a : Unit} {s s' : St} {t : Nat} {x req : Bytes} (h : processMeasurements env eid s = (.ok a, s')) (hi : Inv env eid c s)
    (ht : t = c.thash) (hs : s.sec = some (t, x ++ req ++ window s.txn.buf 0 (measLen s.txn)))
    (h0 : s.txn.op = 0 → s.txn.buf ≠ [] ∧ s.txn.len = 1) (h1 : s.txn.op ≠ 0 → s.txn.op = 255 ∨ s.txn.buf.getD 4 0 = 1)
    (hq : s.txn.cert = true → ∃ nonce rest, s.trace = .nonce nonce :: rest ∧ req = getMeasurements s.txn.minor c.slot s.txn.op s.txn.raw nonce) :
    Inv env eid c s' ∧ Keep s s' ∧ s'.txn.vs = s.txn.vs ∧ s'.prim = s.prim ∧
      ∃ v w, Recorded s'.trace s.txn.op s.txn.raw v ∧ s'.txn.buf = v ++ w ∧ s'.txn.len = v.length := by
  unfold processMeasurements at h
  nx h tt s1 e1
  obtain ⟨rfl, rfl⟩ := txn_ok e1
  split at h
  · rename_i hop
    have e := modify_ok h
    subst e
    refine ⟨⟨hi.minor, hi.thash, hi.slot, by simpa [hasCerts] using hi.certs, ⟨.inl hop, hi.sound⟩⟩, ⟨rfl, rfl, rfl, rfl, by simp⟩, rfl, rfl,
      window s1.txn.buf 0 1, s1.txn.buf.drop 1, ⟨_, _, List.mem_cons_self⟩, (List.take_append_drop 1 s1.txn.buf).symm, ?_⟩
    obtain ⟨hne, hl⟩ := h0 hop
    simp only [window_length, hl]
    have := List.length_pos_iff.mpr hne
    omega
  · rename_i hop
    nx h sig s2 e2
    nx h u s3 e3
    nx h v s4 e4
    nx h a1 s5 e5
    obtain ⟨t', x', j, b, hs', rfl, hb, hn, hy⟩ := verifySig_ok e2
    obtain ⟨rfl, rfl⟩ := txn_ok e3
    obtain ⟨hv, rfl⟩ := ofResult_ok e4
    have e5 := setTxn_ok e5
    subst e5
    have e := modify_ok h
    subst e
    rw [hs] at hs'
    cases hs'
    rw [signedPart_eq] at hb
    have hp := signedPart_of_take hb
    have h4 : b.getD 4 0 = s1.txn.buf.getD 4 0 := getD_of_take hb (by unfold signedPart; omega)
    obtain ⟨w, hw, hval⟩ := blocks_values hv
    simp only [List.nil_append] at hw
    subst hw
    simp only [u8, ← h4] at hval
    refine ⟨⟨hi.minor, hi.thash, hi.slot, by simpa [hasCerts] using hi.certs, ⟨.inr ⟨hval, by rw [h4]; exact h1 hop, ?_⟩, hi.sound⟩⟩, ⟨rfl, rfl, rfl, rfl, by simp⟩, rfl, rfl,
      v, _, ⟨_, _, List.mem_cons_self⟩, rfl, rfl⟩
    cases hc : s1.txn.cert with
    | false =>
      rw [hn hc]
      simpa [hc] using hi.certs
    | true =>
      obtain ⟨k, hk, -, rfl, l, hl⟩ := hy hc
      obtain ⟨nonce, rest, htr, rfl⟩ := hq hc
      have hcs := hi.certs
      rw [htr, hc] at hcs
      refine ⟨hk, s1.txn.minor, nonce, x, rest, hi.minor, htr, hcs, ?_, ?_⟩
      · rw [hp, hb, signedPart_eq]
        rfl
      · refine ⟨l, ?_⟩
        rw [signedDigest_eq false hi.minor, ht] at hl
        rw [hp, ← signedPart_eq]
        exact hl

theorem fetch_ok {op : Nat} {raw : Bool} {a : Unit} {s s' : St} (h : fetch env eid op raw s = (.ok a, s')) (hi : Inv env eid c s) :
    Inv env eid c s' ∧ Keep s s' ∧ s'.txn.vs = s.txn.vs ∧ s'.prim = s.prim ∧ ∃ v w, Recorded s'.trace op raw v ∧ s'.txn.buf = v ++ w ∧ s'.txn.len = v.length := by
  unfold fetch at h
  nx h a0 s1 h1
  nx h a1 s2 h2
  nx h t1 s3 h3
  nx h a2 s4 h4
  nx h a3 s5 h5
  nx h a4 s6 h6
  nx h t2 s7 h7
  nx h nonce s8 h8
  nx h a5 s9 h9
  nx h a6 s10 h10
  nx h a7 s11 h11
  have h := onError_ok h
  have e1 : ∃ q, s1 = { s with sec := q } := by
    have := modify_ok h1
    split at this
    · exact ⟨_, this⟩
    · exact ⟨_, this⟩
  obtain ⟨q, rfl⟩ := e1
  have e2 := setTxn_ok h2
  obtain ⟨rfl, rfl⟩ := txn_ok h3
  have e4 := secStart_ok h4
  have e5 := setTxn_ok h5
  subst e2 e4 e5
  obtain ⟨k, r, x, bf, l, m, ct, ch, sl, mh, tr, hm, hct, htr, rfl⟩ := doSetup_ok h6 hi.minor hi.certs rfl
  obtain ⟨rfl, rfl⟩ := txn_ok h7
  obtain ⟨-, rfl⟩ := check_ok h9
  have hsnd : Sound env c (aliasOf s eid) tr := by
    rcases htr with rfl | ⟨e, rfl⟩
    · exact hi.sound
    · exact ⟨trivial, hi.sound⟩
  have hsuf : s.trace <:+ tr := by
    rcases htr with rfl | ⟨e, rfl⟩
    · exact List.suffix_rfl
    · exact List.suffix_cons _ _
  have key : ∃ k8 tr8, s9 = { s with k := k8, r := r, sec := some (s.txn.thash, x), txn := { s.txn with finished := false, buf := bf, len := l, minor := m, cert := ct, chal := ch, sigLen := sl, mhash := mh }, trace := tr8 } ∧
      hasCerts tr8 = some ct ∧ Sound env c (aliasOf s eid) tr8 ∧ s.trace <:+ tr8 ∧
      (ct = true → ∃ y rest, tr8 = .nonce y :: rest ∧ nonce = some y) := by
    rcases newNonce_ok h8 with ⟨hf, rfl, rfl⟩ | ⟨y, k8, hf, rfl, rfl⟩
    · refine ⟨k, tr, rfl, hct, hsnd, hsuf, fun h => ?_⟩
      rw [show ct = false from hf] at h
      cases h
    · exact ⟨k8, .nonce y :: tr, rfl, hct, ⟨trivial, hsnd⟩, hsuf.trans (List.suffix_cons _ _), fun _ => ⟨y, tr, rfl, rfl⟩⟩
  obtain ⟨k8, tr8, rfl, hct8, hsnd8, hsuf8, hnon⟩ := key
  have e10 := setTxn_ok h10
  subst e10
  obtain ⟨t', x', k11, r11, b, l11, v, hbl, hx, hp, -, k12, t12, y12, hv, rfl⟩ := sendCommand_ok h11
  simp only [Option.some.injEq, Prod.mk.injEq] at hx
  obtain ⟨rfl, rfl⟩ := hx
  have hreq : ct = true → ∃ y rest, tr8 = .nonce y :: rest ∧ measRequest m s.txn.slot op raw nonce = getMeasurements m c.slot op raw y := by
    intro hc
    obtain ⟨y, rest, e, rfl⟩ := hnon hc
    exact ⟨y, rest, e, by rw [measRequest_eq hm, hi.slot]⟩
  by_cases hop : op = 0
  · obtain ⟨b', hb', rfl⟩ := measurementsPost_zero hp hop hbl
    simp only [Option.some.injEq, Prod.mk.injEq] at hv
    obtain ⟨rfl, rfl⟩ := hv
    obtain ⟨i1, i2, i3, i4, i5⟩ := processMeasurements_ok h ⟨hm, hi.thash, hi.slot, hct8, hsnd8⟩ hi.thash rfl (fun _ => ⟨hb', rfl⟩)
      (fun hh => absurd hop hh) hreq
    exact ⟨i1, ⟨i2.alias, i2.chain, i2.dev, i2.succ, hsuf8.trans i2.trace⟩, i3, i4, i5⟩
  · obtain ⟨rfl, hone⟩ := measurementsPost_ok hp hop
    simp only [Option.some.injEq, Prod.mk.injEq] at hv
    obtain ⟨rfl, rfl⟩ := hv
    obtain ⟨i1, i2, i3, i4, i5⟩ := processMeasurements_ok h ⟨hm, hi.thash, hi.slot, hct8, hsnd8⟩ hi.thash rfl (fun hh => absurd hh hop)
      (fun _ => hone) hreq
    exact ⟨i1, ⟨i2.alias, i2.chain, i2.dev, i2.succ, hsuf8.trans i2.trace⟩, i3, i4, i5⟩

end Verif.Requester
