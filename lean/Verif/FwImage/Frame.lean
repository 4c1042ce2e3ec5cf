import Verif.FwImage.Exact
/-! Every call gives back what it took, whatever fails; nothing is accessed outside of its buffer. -/
namespace Verif.FwImage
open Verif.Flash (Mem bytesAt u32)

/-- From states with `P`, `m` ends in `Q` or fails in `E`. -/
def Tri (P : St → Prop) (m : M α) (Q : α → St → Prop) (E : Err → St → Prop) : Prop :=
  ∀ s, P s → match m s with
    | (.ok a, t) => Q a t
    | (.error e, t) => E e t

/-- The state: the hash is active or not, live allocations, size of the buffer. -/
def G (act : Bool) (L B : Nat) (s : St) : Prop := s.hash.isSome = act ∧ s.live = L ∧ s.buf.length = B

/-- An error that is not an access outside of a buffer. -/
def EG (act : Bool) (L B : Nat) (e : Err) (s : St) : Prop := e ≠ .oob ∧ G act L B s

theorem Tri.ret {P : St → Prop} {a : α} {Q : α → St → Prop} {E} (h : ∀ s, P s → Q a s) : Tri P (pure a) Q E := fun s hs => h s hs

theorem Tri.fail {P : St → Prop} {e : Err} {Q : α → St → Prop} {E} (h : ∀ s, P s → E e s) : Tri P (fail e) Q E := fun s hs => h s hs

theorem Tri.bind {P : St → Prop} {m : M α} {f : α → M β} {Q : β → St → Prop} {R : α → St → Prop} {E} (h1 : Tri P m R E) (h2 : ∀ a, Tri (R a) (f a) Q E) :
    Tri P (m >>= f) Q E := by
  intro s hs
  have := h1 s hs
  show match (match m s with | (.ok a, s) => f a s | (.error e, s) => (.error e, s)) with | (.ok a, t) => Q a t | (.error e, t) => E e t
  cases h : m s with
  | mk r u =>
    rw [h] at this
    cases r with
    | ok a => exact h2 a u this
    | error e => exact this

theorem Tri.conseq {P P' : St → Prop} {m : M α} {Q Q' : α → St → Prop} {E E'} (h : Tri P' m Q' E') (hp : ∀ s, P s → P' s) (hq : ∀ a s, Q' a s → Q a s)
    (he : ∀ e s, E' e s → E e s) : Tri P m Q E := by
  intro s hs
  have := h s (hp s hs)
  cases h : m s with
  | mk r u =>
    rw [h] at this
    cases r with
    | ok a => exact hq a u this
    | error e => exact he e u this

theorem Tri.onError {P : St → Prop} {m : M α} {f : St → St} {Q : α → St → Prop} {E E'} (h : Tri P m Q E') (he : ∀ e s, E' e s → E e (f s)) :
    Tri P (onError m f) Q E := by
  intro s hs
  have := h s hs
  unfold FwImage.onError
  cases h : m s with
  | mk r u =>
    rw [h] at this
    cases r with
    | ok a => exact this
    | error e => exact he e u this

theorem Tri.always {P : St → Prop} {m : M α} {f : St → St} {Q Q' : α → St → Prop} {E E'} (h : Tri P m Q' E') (hq : ∀ a s, Q' a s → Q a (f s))
    (he : ∀ e s, E' e s → E e (f s)) : Tri P (always m f) Q E := by
  intro s hs
  have := h s hs
  unfold FwImage.always
  cases h : m s with
  | mk r u =>
    rw [h] at this
    cases r with
    | ok a => exact hq a u this
    | error e => exact he e u this

/-- A test keeps the state, and is true afterwards. -/
theorem Tri.check {P : St → Prop} {b : Bool} {e : Err} {E} (h : ∀ s, P s → E e s) : Tri P (check b e) (fun _ s => b = true ∧ P s) E := by
  unfold FwImage.check
  cases b
  · exact Tri.fail h
  · exact Tri.ret fun s hs => ⟨rfl, hs⟩

theorem Tri.pre {P : St → Prop} {p : Prop} {m : M α} {Q : α → St → Prop} {E} (h : p → Tri P m Q E) : Tri (fun s => p ∧ P s) m Q E :=
  fun s hs => h hs.1 s hs.2

variable {b : Bool} {L B : Nat} {env : Env}

theorem tri_check {x : Bool} {e : Err} (he : e ≠ .oob) : Tri (G b L B) (check x e) (fun _ s => x = true ∧ G b L B s) (EG b L B) :=
  Tri.check fun _ hs => ⟨he, hs⟩

/-- A test whose outcome is not needed later. -/
theorem tri_check' {x : Bool} {e : Err} (he : e ≠ .oob) : Tri (G b L B) (check x e) (fun _ => G b L B) (EG b L B) :=
  Tri.conseq (tri_check he) (fun _ h => h) (fun _ _ h => h.2) (fun _ _ h => h)

theorem tri_call {e : Err} (he : e ≠ .oob) : Tri (G b L B) (call env e) (fun _ => G b L B) (EG b L B) := by
  intro s hs
  unfold call
  cases env.fault s.k
  · exact hs
  · exact ⟨he, hs⟩

theorem tri_read {a n : Nat} : Tri (G b L B) (read env a n) (fun d s => d.length = n ∧ G b L B s) (EG b L B) := by
  unfold read
  exact Tri.bind (tri_call (by decide)) fun k => Tri.ret fun s hs => ⟨bytesAt_length _ _ _, hs⟩

theorem tri_read' {a n : Nat} : Tri (G b L B) (read env a n) (fun _ => G b L B) (EG b L B) :=
  Tri.conseq tri_read (fun _ h => h) (fun _ _ h => h.2) (fun _ _ h => h)

theorem tri_alloc : Tri (G b L B) (alloc env) (fun _ => G b (L + 1) B) (EG b L B) := by
  unfold alloc
  exact Tri.bind (tri_call (by decide)) fun k => fun s hs => ⟨hs.1, by simp only [hs.2.1], hs.2.2⟩

theorem free_G {s : St} (h : G b (L + 1) B s) : G b L B (free s) := ⟨h.1, by simp only [free, h.2.1]; omega, h.2.2⟩
theorem free_EG {e : Err} {s : St} (h : EG b (L + 1) B e s) : EG b L B e (free s) := ⟨h.1, free_G h.2⟩
theorem cancel_EG {e : Err} {s : St} (h : EG true L B e s) : EG false L B e (cancel s) := ⟨h.1, rfl, h.2.2.1, h.2.2.2⟩

theorem tri_hashStart {t : Nat} : Tri (G false L B) (hashStart env t) (fun _ => G true L B) (EG false L B) := by
  intro s hs
  unfold hashStart
  have h0 := hs.1
  rw [h0]
  simp only [Bool.false_eq_true, if_false]
  cases env.builtIn t
  · exact ⟨by decide, hs⟩
  · simp only [Bool.true_eq_false, if_false, call]
    cases env.fault s.k
    · exact ⟨rfl, hs.2⟩
    · exact ⟨by decide, hs⟩

theorem some_of {s : St} (h : s.hash.isSome = true) : ∃ t x, s.hash = some (t, x) := by
  cases h' : s.hash with
  | none => rw [h'] at h; cases h
  | some p => exact ⟨p.1, p.2, rfl⟩

theorem tri_hashUpdate {d : Bytes} : Tri (G true L B) (hashUpdate env d) (fun _ => G true L B) (EG true L B) := by
  intro s hs
  obtain ⟨t, x, h⟩ := some_of hs.1
  unfold hashUpdate
  rw [h]
  simp only [call]
  cases env.fault s.k
  · exact ⟨rfl, hs.2⟩
  · exact ⟨by decide, hs⟩

theorem tri_hashFinish {n : Nat} : Tri (G true L B) (hashFinish env n) (fun _ => G false L B) (EG true L B) := by
  intro s hs
  obtain ⟨t, x, h⟩ := some_of hs.1
  unfold hashFinish
  rw [h]
  by_cases hn : n < (hashLength t).getD 0
  · simp only [if_pos hn]; exact ⟨by decide, hs⟩
  · simp only [if_neg hn, call]
    cases env.fault s.k
    · exact ⟨rfl, hs.2⟩
    · exact ⟨by decide, hs⟩

theorem tri_checkSig {d sig : Bytes} : Tri (G b L B) (checkSig env d sig) (fun _ => G b L B) (EG b L B) := by
  unfold checkSig
  exact Tri.bind (tri_call (by decide)) fun _ => tri_check' (by decide)

theorem tri_verifyAndFinish {sig : Bytes} {n : Nat} : Tri (G true L B) (verifyAndFinish env sig n) (fun _ => G false L B) (EG false L B) := by
  intro s hs
  have hs' := hs
  obtain ⟨t, x, h⟩ := some_of hs.1
  unfold verifyAndFinish
  rw [h]
  refine Tri.bind (Tri.onError (Tri.bind (tri_check' (by decide)) fun _ => tri_hashFinish) fun e s h => cancel_EG h) (fun d => ?_) s hs
  exact Tri.bind tri_checkSig fun _ => Tri.ret fun s h => h

theorem tri_hashFlash : ∀ (fuel a len : Nat), Tri (G true L B) (hashFlash env fuel a len) (fun _ => G true L B) (EG true L B) := by
  intro fuel
  induction fuel with
  | zero => intro a len; exact Tri.ret fun s h => h
  | succ fuel ih =>
    intro a len
    unfold hashFlash
    by_cases h0 : len = 0
    · rw [if_pos h0]; exact Tri.ret fun s h => h
    · rw [if_neg h0]
      exact Tri.bind tri_read' fun d => Tri.bind tri_hashUpdate fun _ => ih _ _

theorem tri_eq {m : M α} {a : α} {P : St → Prop} {E} (h : ∀ s, m s = (.ok a, s)) : Tri P m (fun x s => x = a ∧ P s) E := by
  intro s hs
  rw [h s]
  exact ⟨rfl, hs⟩

/-- A computation that cannot fail nor change anything. -/
theorem tri_eq' {m : M α} {a : α} {P : St → Prop} {E} (h : ∀ s, m s = (.ok a, s)) : Tri P m (fun _ => P) E :=
  Tri.conseq (tri_eq h) (fun _ h => h) (fun _ _ h => h.2) (fun _ _ h => h)

theorem tri_knownHash {t : Nat} : Tri (G b L B) (knownHash t) (fun _ => G b L B) (EG b L B) := by
  unfold knownHash
  cases hashLength t with
  | none => exact Tri.fail fun s h => ⟨by decide, h⟩
  | some n => exact Tri.ret fun s h => h

section
variable {c : Comp} {mk : Nat} (hc : CompHdr c.hdr mk)
include hc

theorem tri_checkVersion {ex : Option Bytes} : Tri (G b L B) (checkVersion c ex) (fun _ => G b L B) (EG b L B) := by
  unfold checkVersion
  cases ex with
  | none => exact Tri.ret fun s h => h
  | some v => exact Tri.bind (tri_eq' (version_eq hc)) fun _ => tri_check' (by decide)

theorem tri_getSignature {n : Nat} : Tri (G b L B) (getSignature env c n) (fun _ => G b L B) (EG b L B) := by
  unfold getSignature
  exact Tri.bind (tri_eq' (sigLen_eq hc)) fun _ => Tri.bind (tri_eq' (totalLen_eq hc)) fun _ => Tri.bind (tri_check' (by decide)) fun _ => tri_read'

theorem tri_readSignature : Tri (G b L B) (readSignature env c) (fun _ => G b (L + 1) B) (EG b L B) := by
  unfold readSignature
  exact Tri.bind (tri_call (by decide)) fun _ => Tri.bind (tri_eq' (sigLen_eq hc)) fun _ => Tri.bind (tri_check' (by decide)) fun _ => Tri.bind tri_alloc fun _ =>
    Tri.onError (tri_getSignature hc) fun e s h => free_EG h

theorem tri_prepare {ex : Option Bytes} {hl : Option Nat} : Tri (G b L B) (prepare env c ex hl) (fun _ => G b (L + 1) B) (EG b L B) := by
  unfold prepare
  exact Tri.bind (tri_checkVersion hc) fun _ => Tri.bind (tri_eq' (hashType_eq hc)) fun _ => Tri.bind tri_knownHash fun _ => Tri.bind (tri_check' (by decide)) fun _ =>
    Tri.bind (tri_readSignature hc) fun _ => Tri.ret fun s h => h

theorem tri_load {max : Nat} (hB : max ≤ B) : Tri (G b L B) (load env c max) (fun _ => G b L B) (EG b L B) := by
  unfold load
  refine Tri.bind (tri_eq' (imageLen_eq hc)) fun n => Tri.bind (tri_check (by decide)) fun _ => Tri.pre fun hn => Tri.bind tri_read fun d => Tri.pre fun hd => ?_
  have hn := of_decide_eq_true hn
  refine Tri.bind (R := fun _ => G b L B) ?_ fun _ => Tri.ret fun s h => h
  intro s hs
  unfold store
  have := hs.2.2
  rw [if_pos (by omega)]
  exact ⟨hs.1, hs.2.1, by simp only [List.length_append, List.length_drop]; omega⟩

end

theorem tri_contentsVerification {a len t : Nat} {sig : Bytes} {hl : Option Nat} :
    Tri (G false L B) (contentsVerification env a len t sig hl) (fun _ => G false L B) (EG false L B) := by
  unfold contentsVerification
  exact Tri.bind (tri_check' (by decide)) fun _ => Tri.bind (tri_check' (by decide)) fun _ => Tri.bind tri_knownHash fun _ => Tri.bind (tri_check' (by decide)) fun _ =>
    Tri.bind tri_hashStart fun _ => Tri.bind (Tri.onError (tri_hashFlash _ _ _) fun e s h => cancel_EG h) fun _ => tri_verifyAndFinish

theorem tri_hashHeader {h : Hdr} : Tri (G true L B) (hashHeader env h) (fun _ => G true L B) (EG true L B) := by
  unfold hashHeader
  exact Tri.bind tri_hashUpdate fun _ => tri_hashUpdate

theorem tri_startHash {c : Comp} {t : Nat} {header : Option Hdr} : Tri (G false L B) (startHash env c t header) (fun _ => G true L B) (EG false L B) := by
  unfold startHash
  refine Tri.bind tri_hashStart fun _ => Tri.onError (Tri.bind (R := fun _ => G true L B) ?_ fun _ => tri_hashHeader) fun e s h => cancel_EG h
  unfold hashPrefix
  cases header with
  | some h => exact tri_hashHeader
  | none =>
    by_cases h0 : c.offset ≠ 0
    · simp only [if_pos h0]; exact tri_hashFlash _ _ _
    · simp only [if_neg h0]; exact Tri.ret fun s h => h

theorem tri_loaded {n : Nat} : Tri (G b L B) (loaded n) (fun _ => G b L B) (EG b L B) := fun _ hs => hs

/-! ### The calls -/

theorem tri_verification {c : Comp} {mk : Nat} (hc : CompHdr c.hdr mk) {ex : Option Bytes} {hl : Option Nat} :
    Tri (G false L B) (verification env c ex hl) (fun _ => G false L B) (EG false L B) := by
  unfold verification
  refine Tri.bind (tri_prepare hc) fun p => ?_
  obtain ⟨t, sig⟩ := p
  refine Tri.bind (R := fun _ => G false L B) (Tri.always (Tri.bind (tri_eq' (totalLen_eq hc)) fun _ => tri_contentsVerification) (fun _ s h => free_G h) fun _ s h => free_EG h) fun _ => Tri.ret fun s h => h

theorem tri_loadAndVerify {c : Comp} {mk : Nat} (hc : CompHdr c.hdr mk) {max : Nat} (hB : max ≤ B) {header : Option Hdr} {ex : Option Bytes} {hl : Option Nat} :
    Tri (G false L B) (loadAndVerify env c max header ex hl) (fun _ => G false L B) (EG false L B) := by
  unfold loadAndVerify
  refine Tri.bind (tri_prepare hc) fun p => ?_
  obtain ⟨t, sig⟩ := p
  refine Tri.always (Tri.bind tri_startHash fun _ => Tri.bind (R := fun _ => G true (L + 1) B) (Tri.onError (E' := EG true (L + 1) B) (Tri.bind (tri_load hc hB) fun n => ?_) fun e s h => cancel_EG h) fun n =>
    Tri.bind tri_verifyAndFinish fun d => Tri.ret fun s h => h) (fun _ s h => free_G h) fun _ s h => free_EG h
  exact Tri.bind tri_loaded fun d => Tri.bind tri_hashUpdate fun _ => Tri.ret fun s h => h

theorem tri_loaderLoad {phy a n : Nat} {iv : Bytes} : Tri (G true L B) (loaderLoad env phy a n iv) (fun _ => G true L B) (EG true L B) := by
  unfold loaderLoad
  exact Tri.bind (tri_call (by decide)) fun k => Tri.bind (R := fun _ => G true L B) (fun s hs => hs) fun _ => tri_hashUpdate

theorem tri_loadToMemory {c : Comp} {mk : Nat} (hc : CompHdr c.hdr mk) {iv : Bytes} {header : Option Hdr} {ex : Option Bytes} {hl : Option Nat} :
    Tri (G false L B) (loadToMemoryAndVerify env c iv header ex hl) (fun _ => G false L B) (EG false L B) := by
  unfold loadToMemoryAndVerify
  refine Tri.bind (tri_eq' (loadAddr_eq hc)) fun phy => Tri.bind (tri_check' (by decide)) fun _ => Tri.bind (tri_prepare hc) fun p => ?_
  obtain ⟨t, sig⟩ := p
  refine Tri.always (Tri.bind tri_startHash fun _ => Tri.bind (R := fun _ => G true (L + 1) B) (Tri.onError (E' := EG true (L + 1) B) (Tri.bind (tri_eq' (imageLen_eq hc)) fun n => ?_) fun e s h => cancel_EG h) fun n =>
    Tri.bind tri_verifyAndFinish fun d => Tri.ret fun s h => h) (fun _ s h => free_G h) fun _ s h => free_EG h
  exact Tri.bind (tri_call (by decide)) fun _ => Tri.bind tri_loaderLoad fun _ => Tri.ret fun s h => h

theorem tri_getHash {c : Comp} {mk : Nat} (hc : CompHdr c.hdr mk) {n : Nat} : Tri (G false L B) (getHash env c n) (fun _ => G false L B) (EG false L B) := by
  unfold getHash
  exact Tri.bind (tri_eq' (hashType_eq hc)) fun _ => Tri.bind tri_knownHash fun _ => Tri.bind (tri_check' (by decide)) fun _ => Tri.bind (tri_eq' (totalLen_eq hc)) fun _ =>
    Tri.bind (tri_check' (by decide)) fun _ => Tri.bind tri_hashStart fun _ =>
    Tri.bind (Tri.onError (Tri.bind (tri_hashFlash _ _ _) fun _ => tri_hashFinish) fun e s h => cancel_EG h) fun _ => Tri.ret fun s h => h

theorem tri_appLength {a : Nat} : Tri (G b L B) (appLength env a) (fun _ => G b L B) (EG b L B) := by
  unfold appLength
  exact Tri.bind tri_read' fun _ => Tri.ret fun s h => h

theorem tri_appVerification {a h : Nat} {hl : Option Nat} : Tri (G false L B) (appVerification env a h hl) (fun _ => G false L B) (EG false L B) := by
  unfold appVerification
  exact Tri.bind (tri_check' (by decide)) fun _ => Tri.bind tri_appLength fun _ => Tri.bind tri_read' fun _ => Tri.bind (tri_check' (by decide)) fun _ => Tri.bind tri_hashStart fun _ =>
    Tri.bind (Tri.onError (Tri.bind (tri_hashFlash _ _ _) fun _ => tri_hashFinish) fun e s h => cancel_EG h) fun _ => Tri.bind tri_checkSig fun _ => Tri.ret fun s h => h

theorem tri_appLoad {a max : Nat} (hB : max ≤ B) : Tri (G b L B) (appLoad env a max) (fun _ => G b L B) (EG b L B) := by
  unfold appLoad
  refine Tri.bind tri_appLength fun n => Tri.bind (tri_check (by decide)) fun _ => Tri.pre fun hn => Tri.bind tri_read fun d => Tri.pre fun hd => ?_
  have hn := of_decide_eq_true hn
  refine Tri.bind (R := fun _ => G b L B) ?_ fun _ => Tri.ret fun s h => h
  intro s hs
  unfold store
  have := hs.2.2
  rw [if_pos (by omega)]
  exact ⟨hs.1, hs.2.1, by simp only [List.length_append, List.length_drop]; omega⟩

theorem tri_appHashHeader {a h : Nat} : Tri (G true L B) (appHashHeader env a h) (fun _ => G true L B) (EG true L B) := by
  unfold appHashHeader
  by_cases h0 : h ≠ 0
  · rw [if_pos h0]
    exact Tri.bind tri_alloc fun _ => Tri.always (Tri.bind tri_read' fun _ => tri_hashUpdate) (fun _ s h => free_G h) fun _ s h => free_EG h
  · rw [if_neg h0]; exact Tri.ret fun s h => h

theorem tri_appLoadAndVerify {a h max : Nat} (hB : max ≤ B) {hl : Option Nat} :
    Tri (G false L B) (appLoadAndVerify env a h max hl) (fun _ => G false L B) (EG false L B) := by
  unfold appLoadAndVerify
  exact Tri.bind (tri_check' (by decide)) fun _ => Tri.bind (tri_appLoad hB) fun _ => Tri.bind tri_read' fun _ => Tri.bind tri_hashStart fun _ =>
    Tri.bind (Tri.onError (Tri.bind tri_appHashHeader fun _ => Tri.bind tri_hashUpdate fun _ => Tri.bind tri_loaded fun _ => Tri.bind tri_hashUpdate fun _ => tri_hashFinish)
      fun e s h => cancel_EG h) fun _ => Tri.bind tri_checkSig fun _ => Tri.ret fun s h => h

theorem tri_headerLoad {h : Hdr} {a : Nat} : Tri (G b L B) (headerLoad env h a) (fun _ => G b (L + 1) B) (EG b L B) := by
  unfold headerLoad
  exact Tri.bind tri_alloc fun _ => Tri.bind (Tri.onError (E := EG b L B) tri_read' fun e s h => free_EG h) fun _ => Tri.ret fun s h => h

theorem tri_headerInit {a mk max : Nat} : Tri (G b L B) (headerInit env a mk max) (fun _ => G b L B) (EG b L B) := by
  unfold headerInit
  exact Tri.bind tri_read' fun _ => Tri.bind (tri_check' (by decide)) fun _ => Tri.bind (tri_check' (by decide)) fun _ => Tri.bind (tri_check' (by decide)) fun _ => Tri.ret fun s h => h

theorem tri_compInit {a mk : Nat} : Tri (G b L B) (compInit env a mk) (fun _ => G b (L + 1) B) (EG b L B) := by
  unfold compInit
  exact Tri.bind tri_headerInit fun _ => Tri.bind (tri_check' (by decide)) fun _ => Tri.bind tri_headerLoad fun _ => Tri.ret fun s h => h

theorem tri_fwHeaderInit {a : Nat} : Tri (G b L B) (fwHeaderInit env a) (fun _ => G b (L + 1) B) (EG b L B) := by
  unfold fwHeaderInit
  exact Tri.bind tri_headerInit fun _ => Tri.bind (tri_check' (by decide)) fun _ => tri_headerLoad

/-- What a call has done to engine and heap, and that it stayed in its buffers. -/
theorem Tri.released {m : M α} (h : ∀ L B, s.buf.length = B → Tri (G false L B) m (fun _ => G false L B) (EG false L B)) (hs : s.hash = none) :
    Released s (m s).2 ∧ (m s).2.buf.length = s.buf.length ∧ ∀ e, (m s).1 = .error e → e ≠ .oob := by
  have := h s.live s.buf.length rfl s ⟨by rw [hs]; rfl, rfl, rfl⟩
  have hn : ∀ u : St, u.hash.isSome = false → u.hash = none := by
    intro u hu
    cases h : u.hash with
    | none => rfl
    | some p => rw [h] at hu; cases hu
  revert this
  cases h : m s with
  | mk r u =>
    cases r with
    | ok a =>
      intro hu
      exact ⟨⟨hn u hu.1, hu.2.1⟩, hu.2.2, fun e he => nomatch he⟩
    | error e =>
      intro hu
      refine ⟨⟨hn u hu.2.1, hu.2.2.1⟩, hu.2.2.2, fun e' he => ?_⟩
      injection he with he
      subst he
      exact hu.1

end Verif.FwImage
