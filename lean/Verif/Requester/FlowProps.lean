import Verif.Requester.Accept
/-! What can be relied on when a device is attested. -/
namespace Verif.Requester

variable {env : Env} {eid : Nat}

theorem KeyOk.weaken {P Q : Component → Prop} {s : St} (h : KeyOk env P s) (hPQ : ∀ c, P c → Q c) : KeyOk env Q s := by
  intro e k hk
  obtain ⟨c, d, h1, h2⟩ := h e k hk
  exact ⟨c, d, hPQ c h1, h2⟩

theorem history_key {P : Component → Prop} : ∀ {hist : List (Nat × List (Option Component))} {s : St}, KeyOk env P s → (∀ p ∈ hist, ∀ c, some c ∈ p.2 → P c) →
    KeyOk env P (history env hist s)
  | [], _, h, _ => h
  | (eid, l) :: rest, s, h, hp => by
    rw [history]
    exact history_key (attestDevice_key (eid := eid) (fun c hc => hp (eid, l) (by simp) c hc) s h) fun p hp' => hp p (by simp [hp'])

/-- After any history of attestations, with any answers and failures, the key used to check signatures is that of a chain of certificates that starts from a root trusted for
one of the components that were attested. -/
theorem keys_vouched_partial (env : Env) (hist : List (Nat × List (Option Component))) (s : St) (h0 : s.alias = none) :
    KeyOk env (fun c => ∃ p ∈ hist, some c ∈ p.2) (history env hist s) :=
  history_key (fun e k hk => by rw [h0] at hk; cases hk) fun p hp c hc => ⟨p, hp, hc⟩

theorem conclude_eq (b : Bool) (s : St) : ∃ d n, conclude eid b s = { s with dev := d, succ := n } := by
  unfold conclude
  simp only
  repeat' split
  all_goals exact ⟨_, _, rfl⟩

theorem conclude_true_dev (s : St) (h : (conclude eid true s).dev eid = .authenticated) : s.txn.cert = true := by
  unfold conclude at h
  simp only [if_true] at h
  have key : ∀ u : St, (if u.dev eid = .authenticated ∨ u.dev eid = .withoutCerts then { u with succ := fun e => if e = eid then u.succ e + 1 else u.succ e } else u).dev = u.dev := by
    intro u
    split <;> rfl
  rw [key] at h
  simp only [setDev, if_true] at h
  cases hc : s.txn.cert with
  | true => rfl
  | false =>
    rw [hc] at h
    split at h
    · cases h
    · cases h

/-- A device is accepted only if every rule of a component is met by a recorded answer of the device; every record is evidence. If the device is AUTHENTICATED,
it last said that it has certificates. -/
theorem attestation_evidence {l : List (Option Component)} {r : Option Component} {s s' : St} (h : attestDevice env eid l s = (.ok r, s')) :
    ∃ c, r = some c ∧ some c ∈ l ∧ Sound env c (aliasOf s' eid) s'.trace ∧ MetAll env.hash s'.trace c ∧
      (s'.dev eid = .authenticated → hasCerts s'.trace = some true) := by
  unfold attestDevice at h
  split at h
  · cases h
  · split at h
    · rename_i u hc
      obtain ⟨c, e1, e2, i, m⟩ := components_ok hc
      simp only [Prod.mk.injEq, Except.ok.injEq] at h
      obtain ⟨rfl, rfl⟩ := h
      have hd := conclude_true_dev (eid := eid) u
      obtain ⟨d, n, e⟩ := conclude_eq (eid := eid) true u
      rw [e] at hd ⊢
      refine ⟨c, e1, e2, i.sound, m, fun ha => ?_⟩
      rw [← hd ha]
      exact i.certs
    · cases h
    · cases h

theorem hasCerts_mem {tr : List Ev} (h : hasCerts tr = some false) : Ev.caps false ∈ tr := by
  induction tr with
  | nil => cases h
  | cons e rest ih =>
    cases e with
    | caps b =>
      simp only [hasCerts, Option.some.injEq] at h
      subst h
      simp
    | nonce b => exact List.mem_cons_of_mem _ (ih h)
    | meas _ _ _ _ _ => exact List.mem_cons_of_mem _ (ih h)
    | summary _ _ _ => exact List.mem_cons_of_mem _ (ih h)

theorem sound_signed {c : Component} {key : Option Key} {op : Nat} {raw : Bool} {sig : Option (Key × Bytes)} {rsp v : Bytes} (h0 : op ≠ 0) :
    ∀ {tr : List Ev}, Sound env c key tr → Ev.caps false ∉ tr → Ev.meas op raw sig rsp v ∈ tr → ∃ k x, sig = some (k, x) ∧ key = some k
  | [], _, _, h => by cases h
  | e :: old, hs, hc, h => by
    rcases List.mem_cons.mp h with rfl | h
    · obtain ⟨he, -⟩ := hs
      rcases he with he | ⟨-, -, he⟩
      · exact absurd he h0
      · cases sig with
        | none => exact absurd (List.mem_cons_of_mem _ (hasCerts_mem he)) hc
        | some p => exact ⟨p.1, p.2, rfl, he.1⟩
    · exact sound_signed h0 hs.2 (fun hh => hc (List.mem_cons_of_mem _ hh)) h

/-- If the device never said during the attestation that it has no certificates, every measurement is signed by the key held for it. -/
theorem all_signed_partial {l : List (Option Component)} {r : Option Component} {s s' : St} (h : attestDevice env eid l s = (.ok r, s')) (hc : Ev.caps false ∉ s'.trace)
    {op : Nat} {raw : Bool} {sig : Option (Key × Bytes)} {rsp v : Bytes} (hm : Ev.meas op raw sig rsp v ∈ s'.trace) (h0 : op ≠ 0) :
    ∃ k x, sig = some (k, x) ∧ aliasOf s' eid = some k := by
  obtain ⟨c, -, -, hs, -⟩ := attestation_evidence h
  exact sound_signed h0 hs hc hm

/-- The values are determined by the signed part of the response, if the blocks are in it. -/
theorem signed_values_partial {op : Nat} {raw : Bool} {rsp v : Bytes} {count off n : Nat} (h : Values op raw rsp count off v) (hn : off + 7 * count + v.length ≤ n)
    (hl : n ≤ rsp.length) : Values op raw (rsp.take n) count off v := by
  induction h with
  | none off => exact .none off
  | @block count off size rest hi ht hs hr ih =>
    have hlen : ((rsp.drop (off + 7)).take size).length = min size (rsp.length - (off + 7)) := by simp
    have hsz : ((rsp.drop (off + 7)).take size).length = size ∨ rsp.length - (off + 7) < size := by omega
    simp only [List.length_append] at hn
    rcases hsz with hsz | hsz
    · have e1 : rsp.take n = (rsp.take n).take n := by rw [List.take_take, Nat.min_self]
      have eq : (rsp.take n).take n = rsp.take n := by rw [List.take_take, Nat.min_self]
      have g : ∀ i, i < n → (rsp.take n).getD i 0 = rsp.getD i 0 := fun i hi => getD_of_take eq hi
      have w := window_of_take (a := rsp.take n) (b := rsp) (i := off + 7) (k := size) eq (by omega)
      unfold window at w
      rw [← w]
      refine .block ?_ ?_ ?_ (ih (by omega))
      · rw [g off (by omega)]; exact hi
      · rw [g (off + 4) (by omega)]; exact ht
      · rw [g (off + 5) (by omega), g (off + 6) (by omega)]; exact hs
    · have : rsp.length < n ∨ rsp.length - (off + 7) = ((rsp.drop (off + 7)).take size).length := by omega
      have hc : rsp.length ≤ n := by omega
      have : rsp.take n = rsp := List.take_of_length_le hc
      rw [this]
      exact .block hi ht hs hr

/-- What steps do to the state of devices. -/
def DevR (eid : Nat) (s s' : St) : Prop := s'.succ = s.succ ∧ (∀ e, e ≠ eid → s'.dev e = s.dev e) ∧ (s.dev eid = .notAttestable → s'.dev eid = .notAttestable) ∧
  (s'.dev eid = .authenticated → s.dev eid = .authenticated) ∧ (s'.dev eid = .withoutCerts → s.dev eid = .withoutCerts)

theorem devR_same {s s' : St} (h1 : s'.succ = s.succ) (h2 : s'.dev = s.dev) : DevR eid s s' := by
  refine ⟨h1, fun e _ => by rw [h2], ?_, ?_, ?_⟩ <;> rw [h2] <;> exact id

theorem closed_dev : Closed eid (DevR eid) where
  refl := fun _ => devR_same rfl rfl
  trans := fun h k => ⟨k.1.trans h.1, fun e he => (k.2.1 e he).trans (h.2.1 e he), fun x => k.2.2.1 (h.2.2.1 x), fun x => h.2.2.2.1 (k.2.2.2.1 x), fun x => h.2.2.2.2 (k.2.2.2.2 x)⟩
  k := fun _ _ => devR_same rfl rfl
  prim := fun _ _ => devR_same rfl rfl
  up := fun _ _ _ _ _ => devR_same rfl rfl
  msg := fun _ _ _ _ => devR_same rfl rfl
  dev := fun s d h1 h2 => by
    refine ⟨rfl, fun e he => by simp [setDev, he], fun h => by simp [setDev, h], fun h => ?_, fun h => ?_⟩
    · simp only [setDev, if_true] at h
      split at h
      · cases h
      · exact absurd h h1
    · simp only [setDev, if_true] at h
      split at h
      · cases h
      · exact absurd h h2

theorem closedTxn_dev : ClosedTxn (DevR eid) where
  sec := fun _ _ => devR_same rfl rfl
  txn := fun _ _ => devR_same rfl rfl
  trace := fun _ _ => devR_same rfl rfl
  both := fun _ _ _ => devR_same rfl rfl

theorem components_dev {d : DevState} {l : List (Option Component)} {e : Err} : AllR (DevR eid) (components env eid d l e) :=
  all_components closed_dev closedTxn_dev fun x _ => all_certificates closed_dev (fun _ _ _ => devR_same rfl rfl) x

theorem setDev_other {d : DevState} {e : Nat} {s : St} (h : e ≠ eid) : (setDev eid d s).dev e = s.dev e := by simp [setDev, h]

theorem conclude_other {b : Bool} {e : Nat} {s : St} (h : e ≠ eid) : (conclude eid b s).dev e = s.dev e ∧ (conclude eid b s).succ e = s.succ e := by
  unfold conclude
  simp only
  repeat' split
  all_goals simp [setDev, h]

theorem conclude_frozen {b : Bool} {s : St} (h : s.dev eid = .notAttestable) : (conclude eid b s).dev eid = .notAttestable ∧ (conclude eid b s).succ = s.succ := by
  unfold conclude
  cases b <;> simp [setDev, h]

/-- An attestation changes nothing for other devices. -/
theorem others_untouched (l : List (Option Component)) (s : St) {e : Nat} (he : e ≠ eid) :
    (attestDevice env eid l s).2.dev e = s.dev e ∧ (attestDevice env eid l s).2.succ e = s.succ e := by
  have h := components_dev (env := env) (eid := eid) (d := s.dev eid) (l := l) (e := .noType) s
  unfold attestDevice
  split
  · exact ⟨rfl, rfl⟩
  · split
    all_goals
      rename_i hc
      rw [hc] at h
      try rw [(conclude_other he).1, (conclude_other he).2]
      exact ⟨h.2.1 e he, by rw [h.1]⟩

/-- A device that must not be attested stays so. -/
theorem not_attestable_stays (l : List (Option Component)) (s : St) (h0 : s.dev eid = .notAttestable) :
    (attestDevice env eid l s).2.dev eid = .notAttestable ∧ (attestDevice env eid l s).2.succ = s.succ := by
  have h := components_dev (env := env) (eid := eid) (d := s.dev eid) (l := l) (e := .noType) s
  unfold attestDevice
  split
  · exact ⟨h0, rfl⟩
  · split
    all_goals
      rename_i hc
      rw [hc] at h
      have hf := h.2.2.1 h0
      try rw [(conclude_frozen hf).1, (conclude_frozen hf).2]
      exact ⟨by first | rfl | exact hf, h.1⟩

/-- If an attestation fails, a device that was not accepted before is not accepted afterwards, and no success is counted. -/
theorem failure_not_accepted_partial {l : List (Option Component)} {e : Err} {s s' : St} (h : attestDevice env eid l s = (.error e, s'))
    (h1 : s.dev eid ≠ .authenticated) (h2 : s.dev eid ≠ .withoutCerts) : s'.dev eid ≠ .authenticated ∧ s'.dev eid ≠ .withoutCerts ∧ s'.succ = s.succ := by
  have hd := components_dev (env := env) (eid := eid) (d := s.dev eid) (l := l) (e := .noType) s
  unfold attestDevice at h
  split at h
  · cases h
    exact ⟨h1, h2, rfl⟩
  · split at h
    · cases h
    · rename_i hc
      rw [hc] at hd
      cases h
      exact ⟨fun x => h1 (hd.2.2.2.1 x), fun x => h2 (hd.2.2.2.2 x), hd.1⟩
    · rename_i e' u _ hc
      rw [hc] at hd
      simp only [Prod.mk.injEq] at h
      obtain ⟨-, rfl⟩ := h
      have n1 : u.dev eid ≠ .authenticated := fun x => h1 (hd.2.2.2.1 x)
      have n2 : u.dev eid ≠ .withoutCerts := fun x => h2 (hd.2.2.2.2 x)
      have e3 : u.succ = s.succ := hd.1
      unfold conclude
      simp only [Bool.false_eq_true, if_false]
      split
      · have : ∀ x : DevState, x = .notAttestable ∨ x ≠ .notAttestable := fun x => Classical.em _
        by_cases hn : u.dev eid = .notAttestable
        · simp [setDev, hn, e3]
        · simp [setDev, hn, e3]
      · rw [if_neg (by simp [n1, n2])]
        exact ⟨n1, n2, e3⟩

end Verif.Requester
