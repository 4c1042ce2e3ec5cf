import Verif.Requester.Run
/-! Relations between the states before and after a step, whatever its outcome. -/
namespace Verif.Requester

variable {env : Env} {eid : Nat} {R : St → St → Prop}

/-- A step ends in a related state, whatever its outcome. -/
def AllR (R : St → St → Prop) (m : M α) : Prop := ∀ s, R s (m s).2

/-- A relation that holds for the steps below the level of the protocol. -/
structure Closed (eid : Nat) (R : St → St → Prop) : Prop where
  refl : ∀ s, R s s
  trans : ∀ {s t u}, R s t → R t u → R s u
  k : ∀ s k, R s { s with k := k }
  prim : ∀ s p, R s { s with prim := p }
  up : ∀ (s : St) t x y, s.sec = some (t, x) → R s { s with sec := some (t, y) }
  msg : ∀ s r b l, R s { s with r := r, txn := { s.txn with buf := b, len := l } }
  dev : ∀ s d, d ≠ .authenticated → d ≠ .withoutCerts → R s (setDev eid d s)

/-- It also holds when the state of the exchange changes. -/
structure ClosedTxn (R : St → St → Prop) : Prop where
  sec : ∀ s p, R s { s with sec := p }
  txn : ∀ s t, R s { s with txn := t }
  trace : ∀ s t, R s { s with trace := t }
  both : ∀ s t tr, R s { s with txn := t, trace := tr }

section
variable (C : Closed eid R)
include C

theorem all_same {m : M α} (h : ∀ s, (m s).2 = s) : AllR R m := fun s => by rw [h s]; exact C.refl s

theorem all_pure (a : α) : AllR R (pure a : M α) := all_same C fun _ => rfl
theorem all_fail (e : Err) : AllR R (fail e : M α) := all_same C fun _ => rfl
theorem all_txn : AllR R txn := all_same C fun _ => rfl
theorem all_getAlias : AllR R (getAlias eid) := all_same C fun _ => rfl

theorem all_check (b : Bool) (e : Err) : AllR R (check b e) := all_same C fun s => by
  unfold check
  cases b <;> rfl

theorem all_orFail (o : Option α) (e : Err) : AllR R (orFail o e) := all_same C fun s => by
  cases o <;> rfl

theorem all_ofResult (r : Except Err α) : AllR R (ofResult r) := all_same C fun s => by
  cases r <;> rfl

theorem all_checkChain (d : Bytes) : AllR R (checkChain eid d) := all_same C fun s => by
  unfold checkChain
  split <;> rfl

theorem all_bind' {m : M α} {f : α → M β} {s : St} (hm : R s (m s).2) (hf : ∀ a u, m s = (.ok a, u) → R u (f a u).2) : R s ((m >>= f) s).2 := by
  have e : (m >>= f) s = (match m s with | (.ok a, s) => f a s | (.error e, s) => (.error e, s)) := rfl
  rw [e]
  cases h : m s with
  | mk r u =>
    rw [h] at hm
    cases r with
    | error e => exact hm
    | ok a => exact C.trans hm (hf a u h)

theorem all_bind {m : M α} {f : α → M β} (hm : AllR R m) (hf : ∀ a, AllR R (f a)) : AllR R (m >>= f) :=
  fun s => all_bind' C (hm s) fun a u _ => hf a u

theorem all_onError {m : M α} {f : St → St} (hm : AllR R m) (hf : ∀ s, R s (f s)) : AllR R (onError m f) := fun s => by
  have := hm s
  unfold onError
  cases h : m s with
  | mk r u =>
    rw [h] at this
    cases r with
    | error e => exact C.trans this (hf u)
    | ok a => exact this

theorem all_always {m : M α} {f : St → St} (hm : AllR R m) (hf : ∀ s, R s (f s)) : AllR R (always m f) := fun s => C.trans (hm s) (hf _)

theorem all_doIf {b : Bool} {m : M Unit} (hm : AllR R m) : AllR R (doIf b m) := fun s => by
  unfold doIf
  cases b
  · exact C.refl s
  · exact hm s

theorem all_modify {f : St → St} (hf : ∀ s, R s (f s)) : AllR R (modify f) := hf

theorem all_engine : AllR R (engine env) := fun s => C.k s _

theorem all_onDev {m : M α} {d : DevState} (hm : AllR R m) (h1 : d ≠ .authenticated) (h2 : d ≠ .withoutCerts) : AllR R (onError m (setDev eid d)) :=
  all_onError C hm fun s => C.dev s d h1 h2

theorem all_primCancel {m : M α} (hm : AllR R m) : AllR R (onError m primCancel) := all_onError C hm fun s => C.prim s _

theorem all_primStart (t : Nat) : AllR R (primStart env t) :=
  all_bind C (all_check C _ _) fun _ => all_bind C (all_engine C) fun _ => all_modify C fun s => C.prim s _

theorem all_primUpdate (d : Bytes) : AllR R (primUpdate env d) := fun s => by
  unfold primUpdate
  split
  · exact C.refl s
  · exact all_bind C (all_engine C) (fun _ => all_modify C fun s => C.prim s _) s

theorem all_primFinish : AllR R (primFinish env) := fun s => by
  unfold primFinish
  split
  · exact C.refl s
  · exact all_bind C (all_engine C) (fun _ => all_bind C (all_modify C fun s => C.prim s _) fun _ => all_pure C _) s

theorem all_secUpdate (d : Bytes) : AllR R (secUpdate env d) := fun s => by
  unfold secUpdate
  split
  · exact C.refl s
  · rename_i t x h
    refine all_bind' C (all_engine C s) fun a u hu => ?_
    have := engine_ok hu
    subst this
    exact C.up _ t x _ h

theorem all_exchange : AllR R (exchange env eid) := fun s => by
  unfold exchange
  have hr : R s { s with r := s.r + 1 } := C.msg s (s.r + 1) s.txn.buf s.txn.len
  simp only
  split
  · refine C.trans hr (C.dev _ _ ?_ ?_)
    · split <;> simp
    · split <;> simp
  · exact C.trans hr (C.dev _ _ (by simp) (by simp))
  · exact C.trans hr (C.dev _ _ (by simp) (by simp))
  · exact C.msg s _ _ _

theorem all_processResponse (cmd : Nat) : AllR R (processResponse eid cmd) := fun s => by
  unfold processResponse
  simp only
  repeat' split
  all_goals first
    | exact C.refl s
    | exact C.dev _ _ (by simp) (by simp)

theorem all_requestLoop (cmd : Nat) : ∀ n, AllR R (requestLoop env eid cmd n)
  | 0 => by
    rw [requestLoop]
    refine all_bind C (all_exchange C) fun _ => all_bind C (all_processResponse C cmd) fun t => ?_
    split
    · exact all_onDev C (all_fail C _) (by simp) (by simp)
    · exact all_pure C _
  | n + 1 => by
    rw [requestLoop]
    refine all_bind C (all_exchange C) fun _ => all_bind C (all_processResponse C cmd) fun t => ?_
    split
    · exact all_requestLoop cmd n
    · exact all_pure C _

theorem all_sendCommand {cmd : Nat} {req : Bytes} {d : DevState} {post : M Unit} {count : Txn → Nat} (hp : AllR R post) (h1 : d ≠ .authenticated) (h2 : d ≠ .withoutCerts) :
    AllR R (sendCommand env eid cmd req d post count) :=
  all_bind C (all_secUpdate C _) fun _ => all_bind C (all_requestLoop C _ _) fun _ => all_bind C (all_onDev C hp h1 h2) fun _ => all_bind C (all_txn C) fun _ =>
    all_bind C (all_check C _ _) fun _ => all_secUpdate C _

theorem all_certificatePost : AllR R certificatePost := all_bind C (all_txn C) fun _ => all_check C _ _

theorem all_portionLoop : ∀ (n offset length readLen : Nat) (acc : Option Bytes), AllR R (portionLoop env eid n offset length readLen acc)
  | 0, _, _, _, _ => all_fail C _
  | n + 1, offset, length, readLen, acc => by
    rw [portionLoop]
    refine all_bind C (all_txn C) fun _ => all_bind C (all_sendCommand C (all_certificatePost C) (by simp) (by simp)) fun _ => all_bind C (all_txn C) fun t =>
      all_bind C (all_onDev C (all_check C _ _) (by simp) (by simp)) fun _ => all_bind C (all_check C _ _) fun _ => ?_
    split
    · split
      · exact all_pure C _
      · exact all_bind C (all_engine C) fun _ => all_portionLoop n _ _ _ _
    · split
      · exact all_bind C (all_modify C fun s => C.msg s s.r _ s.txn.len) fun _ => all_pure C _
      · exact all_portionLoop n _ _ _ _

theorem all_portion (offset length : Nat) : AllR R (portion env eid offset length) :=
  all_bind C (all_onDev C (all_check C _ _) (by simp) (by simp)) fun _ => all_bind C (all_check C _ _) fun _ => all_portionLoop C _ _ _ _ _

theorem all_individual (offset : Nat) : AllR R (individual env eid offset) := by
  refine all_bind C (all_portion C _ _) fun h => all_bind C (all_orFail C _ _) fun l =>
    all_bind C (all_onDev C (all_check C _ _) (by simp) (by simp)) fun _ => ?_
  split
  · exact all_pure C _
  · exact all_bind C (all_portion C _ _) fun _ => all_pure C _

theorem all_checkRoot (r : Option Digests) (root : Bytes) : AllR R (checkRoot env eid r root) := by
  unfold checkRoot
  split
  · exact all_pure C _
  · exact all_bind C (all_check C _ _) fun _ => all_bind C (all_engine C) fun _ => all_onDev C (all_ofResult C _) (by simp) (by simp)

theorem all_verifyRoot (c : Component) (header root : Bytes) : AllR R (verifyRoot env eid c header root) :=
  all_bind C (all_checkRoot C _ _) fun _ => all_bind C (all_engine C) fun _ => all_bind C (all_engine C) fun _ => all_bind C (all_check C _ _) fun _ =>
    all_bind C (all_txn C) fun _ => all_bind C (all_primStart C _) fun _ =>
    all_bind C (all_primCancel C (all_bind C (all_primUpdate C _) fun _ => all_primUpdate C _)) fun _ => all_pure C _

theorem all_verifyCert (anchor cert : Bytes) (leaf : Bool) : AllR R (verifyCert env eid anchor cert leaf) :=
  all_primCancel C (all_bind C (all_primUpdate C _) fun _ => all_bind C (all_engine C) fun _ => all_bind C (all_check C _ _) fun _ =>
    all_bind C (all_onDev C (all_bind C (all_engine C) fun _ => all_check C _ _) (by simp) (by simp)) fun _ =>
    all_doIf C (all_bind C (all_engine C) fun _ => all_bind C (all_engine C) fun _ => all_check C _ _))

theorem all_loadChain (total : Nat) : ∀ (n offset : Nat) (anchor : Bytes) (last : Option Bytes), AllR R (loadChain env eid total n offset anchor last)
  | 0, _, _, _ => all_pure C _
  | n + 1, offset, anchor, last => by
    rw [loadChain]
    split
    · exact all_bind C (all_primCancel C (all_individual C _)) fun _ => all_bind C (all_verifyCert C _ _ _) fun _ => all_loadChain total n _ _ _
    · exact all_pure C _

theorem all_verifyEcdsa (off : Nat) (d : Bytes) (k : Key) : AllR R (verifyEcdsa env off d k) :=
  all_bind C (all_txn C) fun _ => all_bind C (all_check C _ _) fun _ => all_bind C (all_engine C) fun _ => all_bind C (all_engine C) fun _ =>
    all_bind C (all_engine C) fun _ => all_pure C _

theorem all_checkSig (off len : Nat) (d : Bytes) (k : Key) : AllR R (checkSig env off len d k) := by
  refine all_bind C (all_verifyEcdsa C _ _ _) fun ok => ?_
  split
  · exact all_pure C _
  · exact all_bind C (all_txn C) fun _ => all_bind C (all_check C _ _) fun _ => all_bind C (all_check C _ _) fun _ =>
      all_bind C (all_modify C fun s => C.msg s s.r _ s.txn.len) fun _ => all_bind C (all_verifyEcdsa C _ _ _) fun _ => all_check C _ _

variable (T : ClosedTxn R)
include T

theorem all_secStart (t : Nat) : AllR R (secStart env t) :=
  all_bind C (all_check C _ _) fun _ => all_bind C (all_engine C) fun _ => all_modify C fun s => T.sec s _

theorem all_secFinish : AllR R (secFinish env) := fun s => by
  unfold secFinish
  split
  · exact C.refl s
  · exact all_bind C (all_engine C) (fun _ => all_bind C (all_modify C fun s => T.sec s _) fun _ => all_pure C _) s

theorem all_formatDigest (t : Nat) : AllR R (formatDigest env t) :=
  all_onError C (all_bind C (all_secStart C T _) fun _ => all_bind C (all_secUpdate C _) fun _ => all_bind C (all_secUpdate C _) fun _ =>
    all_bind C (all_secFinish C T) fun _ => all_pure C _) fun s => T.sec s _

theorem all_setTxn (f : Txn → Txn) : AllR R (setTxn f) := fun s => T.txn s _

theorem all_verifySig (ch : Bool) (off len : Nat) : AllR R (verifySig env eid ch off len) := by
  refine all_bind C (all_secFinish C T) fun h => all_bind C (all_setTxn C T _) fun _ => all_bind C (all_txn C) fun t => ?_
  split
  · exact all_bind C (all_doIf C (all_formatDigest C T _)) fun _ => all_bind C (all_getAlias C) fun _ => all_bind C (all_orFail C _ _) fun _ =>
      all_bind C (all_check C _ _) fun _ => all_bind C (all_checkSig C _ _ _ _) fun _ => all_pure C _
  · exact all_pure C _

theorem all_versionPost : AllR R (versionPost env) :=
  all_bind C (all_txn C) fun _ => all_bind C (all_check C _ _) fun _ => all_bind C (all_orFail C _ _) fun _ => all_setTxn C T _

theorem all_capabilitiesPost : AllR R capabilitiesPost :=
  all_bind C (all_txn C) fun _ => all_bind C (all_modify C fun s => T.both s _ _) fun _ => all_bind C (all_check C _ _) fun _ =>
    all_bind C (all_check C _ _) fun _ => all_bind C (all_check C _ _) fun _ => all_setTxn C T _

theorem all_asymPost : AllR R asymPost := by
  refine all_bind C (all_txn C) fun t => ?_
  split
  · exact all_bind C (all_orFail C _ _) fun _ => all_bind C (all_setTxn C T _) fun _ => all_check C _ _
  · exact all_check C _ _

theorem all_algorithmsPost : AllR R algorithmsPost :=
  all_bind C (all_txn C) fun _ => all_bind C (all_check C _ _) fun _ => all_bind C (all_asymPost C T) fun _ => all_bind C (all_orFail C _ _) fun _ => all_setTxn C T _

theorem all_setup : AllR R (setup env eid) :=
  all_bind C (all_sendCommand C (all_versionPost C T) (by simp) (by simp)) fun _ => all_bind C (all_txn C) fun _ =>
    all_bind C (all_sendCommand C (all_capabilitiesPost C T) (by simp) (by simp)) fun _ => all_bind C (all_txn C) fun _ => all_bind C (all_check C _ _) fun _ =>
    all_sendCommand C (all_algorithmsPost C T) (by simp) (by simp)

theorem all_measurementsPost : AllR R (measurementsPost env) :=
  all_bind C (all_txn C) fun _ => all_bind C (all_check C _ _) fun _ => all_bind C (all_check C _ _) fun _ => all_bind C (all_setTxn C T _) fun _ => all_check C _ _

theorem all_processMeasurements : AllR R (processMeasurements env eid) := by
  refine all_bind C (all_txn C) fun t => ?_
  split
  · exact all_modify C fun s => T.trace s _
  · exact all_bind C (all_verifySig C T _ _ _) fun _ => all_bind C (all_txn C) fun _ => all_bind C (all_ofResult C _) fun _ => all_bind C (all_setTxn C T _) fun _ =>
      all_modify C fun s => T.trace s _

theorem all_random : AllR R (random env) := fun s => by
  unfold random
  split
  · exact C.k s _
  · exact C.trans (C.k s _) (T.trace _ _)

theorem all_newNonce (b : Bool) : AllR R (newNonce env b) := by
  unfold newNonce
  split
  · exact all_bind C (all_random C T) fun _ => all_pure C _
  · exact all_pure C _

theorem all_fetch (op : Nat) (raw : Bool) : AllR R (fetch env eid op raw) := by
  refine all_bind C (all_modify C fun s => ?_) fun _ => all_bind C (all_setTxn C T _) fun _ => all_bind C (all_txn C) fun _ => all_bind C (all_secStart C T _) fun _ =>
    all_bind C (all_setTxn C T _) fun _ => all_bind C (all_doIf C (all_setup C T)) fun _ => all_bind C (all_txn C) fun _ => all_bind C (all_newNonce C T _) fun _ =>
    all_bind C (all_check C _ _) fun _ => all_bind C (all_setTxn C T _) fun _ => all_bind C (all_sendCommand C (all_measurementsPost C T) (by simp) (by simp)) fun _ =>
    all_onDev C (all_processMeasurements C T) (by simp) (by simp)
  split
  · exact C.refl s
  · exact T.sec s _

theorem all_fetchAll : ∀ l, AllR R (fetchAll env eid l)
  | [] => all_pure C _
  | i :: rest => by
    rw [fetchAll]
    exact all_bind C (all_fetch C T _ _) fun _ => all_bind C (all_txn C) fun _ => all_bind C (all_primUpdate C _) fun _ => all_fetchAll rest

theorem all_judgeDigests (l : List DigestEntry) (d : Bytes) (t : Nat) : AllR R (judgeDigests l d t) :=
  all_bind C (all_txn C) fun _ => all_bind C (all_setTxn C T _) fun _ => all_ofResult C _

theorem all_judgeData (l : List DataCheck) (d : Bytes) : AllR R (judgeData l d) :=
  all_bind C (all_txn C) fun _ => all_bind C (all_setTxn C T _) fun _ => all_ofResult C _

theorem all_checkItem (i : Item) : AllR R (checkItem env eid i) := by
  refine all_bind C (all_txn C) fun t => ?_
  cases i with
  | digest id l =>
    simp only
    split
    · exact all_bind C (all_fetch C T _ _) fun _ => all_bind C (all_txn C) fun _ => all_judgeDigests C T _ _ _
    · exact all_pure C _
  | data id l =>
    simp only
    split
    · exact all_bind C (all_fetch C T _ _) fun _ => all_bind C (all_txn C) fun _ => all_judgeData C T _ _
    · exact all_pure C _
  | aggregated type ids l =>
    simp only
    split
    · exact all_fail C _
    · split
      · exact all_bind C (all_primStart C _) fun _ => all_bind C (all_primCancel C (all_bind C (all_fetchAll C T _) fun _ => all_check C _ _)) fun _ =>
          all_bind C (all_primCancel C (all_primFinish C)) fun _ => all_judgeDigests C T _ _ _
      · exact all_pure C _

theorem all_checkItems : ∀ l, AllR R (checkItems env eid l)
  | [] => all_pure C _
  | i :: rest => by
    rw [checkItems]
    exact all_bind C (all_checkItem C T _) fun _ => all_checkItems rest

theorem all_checkContents (l : List Item) : AllR R (checkContents env eid l) := fun s => by
  have := all_checkItems (env := env) C T l s
  unfold checkContents
  split
  · exact C.dev _ _ (by simp) (by simp)
  split
  · rename_i e u h
    rw [h] at this
    simp only
    split
    · exact this
    · exact C.trans this (C.dev _ _ (by simp) (by simp))
  · exact this

theorem all_checkAllBlocks (p : Digests) : AllR R (checkAllBlocks env eid p) :=
  all_bind C (all_fetch C T _ _) fun _ => all_bind C (all_txn C) fun _ => all_bind C (all_check C _ _) fun _ => all_bind C (all_engine C) fun _ =>
    all_onDev C (all_ofResult C _) (by simp) (by simp)

theorem all_challengePost : AllR R (challengePost eid) :=
  all_bind C (all_txn C) fun _ => all_bind C (all_check C _ _) fun _ => all_bind C (all_check C _ _) fun _ => all_bind C (all_check C _ _) fun _ =>
    all_bind C (all_check C _ _) fun _ => all_checkChain C _

theorem all_challenge : AllR R (challenge env eid) :=
  all_bind C (all_random C T) fun _ => all_bind C (all_txn C) fun _ => all_bind C (all_sendCommand C (all_challengePost C T) (by simp) (by simp)) fun _ =>
    all_bind C (all_txn C) fun _ => all_bind C (all_verifySig C T _ _ _) fun _ => all_bind C (all_txn C) fun _ => all_bind C (all_setTxn C T _) fun _ =>
    all_modify C fun s => T.trace s _

theorem all_measurements (c : Component) : AllR R (measurements env eid c) := by
  refine all_bind C (all_txn C) fun t => ?_
  split
  · refine all_bind C (all_challenge C T) fun _ => ?_
    unfold afterChallenge
    split
    · exact all_bind C (all_txn C) fun _ => all_onDev C (all_ofResult C _) (by simp) (by simp)
    · exact all_checkContents C T _
  · unfold withoutChallenge
    split
    · exact all_checkAllBlocks C T _
    · exact all_checkContents C T _

theorem all_attestSpdm (c : Component) (hc : AllR R (certificates env eid c)) : AllR R (attestSpdm env eid c) := by
  refine all_bind C (all_check C _ _) fun _ => all_bind C (all_secStart C T _) fun _ => all_always C (all_bind C (all_setup C T) fun _ => all_bind C (all_txn C) fun _ =>
    all_bind C (all_doIf C hc) fun _ => all_measurements C T c) fun s => ?_
  split
  · exact C.refl s
  · exact T.sec s _

theorem all_byComponent {d : DevState} {c : Option Component} (hc : ∀ x, c = some x → AllR R (certificates env eid x)) : AllR R (byComponent env eid d c) := by
  refine all_bind C (fun s => ?_) fun _ => ?_
  · unfold makeReady
    split
    · exact C.refl s
    · split
      · exact C.refl s
      · exact C.dev _ _ (by simp) (by simp)
  · cases c with
    | none => exact all_onDev C (all_fail C _) (by simp) (by simp)
    | some x =>
      exact all_bind C (all_modify C fun s => T.both s _ _) fun _ => all_bind C (all_check C _ _) fun _ => all_attestSpdm C T x (hc x rfl)

theorem all_components {d : DevState} : ∀ {l : List (Option Component)} {e : Err}, (∀ x, some x ∈ l → AllR R (certificates env eid x)) → AllR R (components env eid d l e)
  | [], _, _ => all_fail C _
  | c :: rest, e, hc => fun s => by
    have h1 := all_byComponent (env := env) (d := d) C T (c := c) (fun x hx => hc x (by simp [hx])) s
    have h2 : ∀ e, AllR R (components env eid d rest e) := fun e => all_components fun x hx => hc x (by simp [hx])
    simp only [components]
    split
    · rename_i u hb
      rw [hb] at h1
      exact h1
    · rename_i u hb
      rw [hb] at h1
      exact h1
    · rename_i e' u _ hb
      rw [hb] at h1
      exact C.trans h1 (h2 _ u)

end

end Verif.Requester
