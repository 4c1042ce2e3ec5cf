import Verif.Spdm.FlowProps
/-! Requests served in a session were sealed by its peer; an example of a whole session. -/
namespace Verif.Spdm
open Verif.CmdMsg (Msg)

theorem error_events {m : Mgr} {q : Msg} {r : Handled} (hr : replyError m q = some r) : r.events = [] ∧ r.mgr = m := by
  unfold replyError at hr
  simp only [bind, Option.bind_eq_some_iff] at hr
  obtain ⟨q', hq, hr⟩ := hr
  injection hr with hr; subst hr
  exact ⟨rfl, rfl⟩

theorem served_err {m : Mgr} {q : Msg} {r : Handled} {id : Nat} {P : Prop} (h1 : replyError m q = some r) (h2 : Ev.served id ∈ r.events) : P := by
  rw [(error_events h1).1] at h2; cases h2

theorem keyExchange_served {g : Given} {m : Mgr} {q : Msg} {r : Handled} (hr : keyExchange g m q = some r) (id : Nat) (he : Ev.served id ∈ r.events) : False := by
  unfold keyExchange at hr
  iterate 6 (split at hr; exact served_err hr he)
  simp only [bind, Option.bind_eq_some_iff] at hr
  obtain ⟨x, _, hr⟩ := hr
  split at hr
  · exact served_err hr he
  · split at hr
    · exact served_err hr he
    · simp only [Option.bind_eq_some_iff] at hr
      obtain ⟨q', _, hr⟩ := hr
      injection hr with hr; subst hr
      exact nomatch List.mem_singleton.mp he

theorem finish_served {g : Given} {m : Mgr} {q : Msg} {r : Handled} (hr : finish g m q = some r) (id : Nat) (he : Ev.served id ∈ r.events) : False := by
  unfold finish at hr
  iterate 5 (split at hr; exact served_err hr he)
  split at hr
  · exact served_err hr he
  · iterate 2 (split at hr; exact served_err hr he)
    split at hr
    · split at hr
      · injection hr with hr; subst hr; cases he
      · exact served_err hr he
    · split at hr
      · exact served_err hr he
      · simp only [bind, Option.bind_eq_some_iff] at hr
        obtain ⟨r', hr', hr⟩ := hr
        injection hr with hr; subst hr
        exact served_err hr' he
      · simp only [bind, Option.bind_eq_some_iff] at hr
        obtain ⟨q', _, hr⟩ := hr
        injection hr with hr; subst hr
        exact nomatch List.mem_singleton.mp he

/-- A handler serves only in the session of the request. -/
theorem dispatch_served {g : Given} {enc : Bool} {code : UInt8} {m : Mgr} {q : Msg} {r : Handled} (hr : dispatch g enc code m q = some r) (id : Nat)
    (he : Ev.served id ∈ r.events) : m.lastValid = true ∧ m.lastId = id := by
  have err : ∀ {m' : Mgr} {q' : Msg} {r' : Handled} {P : Prop}, replyError m' q' = some r' → Ev.served id ∈ r'.events → P := by
    intro m' q' r' P h1 h2
    rw [(error_events h1).1] at h2; cases h2
  have oth : ∀ code', otherHandler g code' m q = some r → False := by
    intro code' h
    unfold otherHandler at h
    split at h
    · exact err h he
    · simp only [bind, Option.bind_eq_some_iff] at h
      obtain ⟨q', _, h⟩ := h
      injection h with h; subst h; cases he
  unfold dispatch at hr
  split at hr
  · unfold getVersion at hr
    iterate 3 (split at hr; exact err hr he)
    simp only [bind, Option.bind_eq_some_iff] at hr
    obtain ⟨q', _, hr⟩ := hr
    injection hr with hr; subst hr
    simp at he
  iterate 5 (split at hr; exact absurd hr (fun h => oth _ h))
  split at hr
  · unfold getMeasurements at hr
    simp only [] at hr
    split at hr
    · rename_i hv
      split at hr
      · exact err hr he
      · split at hr
        · exact err hr he
        · split at hr
          · exact err hr he
          · simp only [bind, Option.bind_eq_some_iff] at hr
            obtain ⟨q', _, hr⟩ := hr
            injection hr with hr; subst hr
            simp at he
            exact ⟨hv, he.symm⟩
    · split at hr
      · exact err hr he
      · simp only [bind, Option.bind_eq_some_iff] at hr
        obtain ⟨q', _, hr⟩ := hr
        injection hr with hr; subst hr
        cases he
  split at hr
  · exact (keyExchange_served hr id he).elim
  split at hr
  · exact (finish_served hr id he).elim
  split at hr
  · unfold endSession at hr
    iterate 4 (split at hr; exact err hr he)
    split at hr
    · exact err hr he
    · split at hr
      · exact err hr he
      · simp only [bind, Option.bind_eq_some_iff] at hr
        obtain ⟨q', _, hr⟩ := hr
        injection hr with hr; subst hr
        cases he
  split at hr
  · unfold vendorDefined at hr
    iterate 4 (split at hr; exact err hr he)
    simp only [] at hr
    have serve : ∀ es, (do
          if g.handled = false then
            let h ← replyError m q
            return { h with events := es }
          return (⟨true, m, ← reply q 0x7e g.body, es, []⟩ : Handled)) = some r → r.events = es := by
      intro es hr
      split at hr
      · simp only [bind, Option.bind_eq_some_iff] at hr
        obtain ⟨r', _, hr⟩ := hr
        injection hr with hr; subst hr; rfl
      · simp only [bind, Option.bind_eq_some_iff] at hr
        obtain ⟨r', _, hr⟩ := hr
        injection hr with hr; subst hr; rfl
    split at hr
    · split at hr
      · exact err hr he
      · rename_i hv
        split at hr
        · exact err hr he
        · split at hr
          · exact err hr he
          · rw [serve _ hr] at he
            simp at he
            exact ⟨by simpa using hv, he.symm⟩
    · rw [serve _ hr] at he; cases he
  exact err hr he

theorem note_served (n : List Note) (id : Nat) : Ev.served id ∉ noteEvents n := by
  unfold noteEvents
  intro h
  obtain ⟨x, _, hx⟩ := List.mem_filterMap.mp h
  cases x <;> cases hx

/-- A request is served in a session only if it came encrypted, names this session, and was opened with the keys of this session. -/
theorem served_authentic (c : SCfg) (hc : c.aead.Correct) (m : Mgr) (g : Given) (enc : Bool) (q : Msg) (o : Outcome) (h : respond c m g enc q = some o) (id : Nat)
    (he : Ev.served id ∈ o.events) :
    enc = true ∧ leNat (window q.buf q.off 4) = id ∧ ∃ m1 q1 u, decodeMessage c { m with lastValid := false } q g.dec = some (.ok (), m1, q1, u) := by
  unfold respond at h
  simp only [] at h
  split at h
  · rename_i hen
    simp only [bind, Option.bind_eq_some_iff] at h
    obtain ⟨⟨r, m1, q1, u⟩, hd, h⟩ := h
    rcases r with e | ⟨⟩
    · simp only [Option.bind_eq_some_iff] at h
      obtain ⟨q2, _, h⟩ := h
      injection h with h; subst h; cases he
    · have hid : ∀ (x : m1.lastValid = true ∧ m1.lastId = id), leNat (window q.buf q.off 4) = id := by
        intro ⟨hv, hl⟩
        rcases (decode_effect hc hd).cases_ with ⟨hne, _⟩ | ⟨i, k, hi, _, _, _, hm, _⟩
        · exact absurd rfl hne
        · rcases hm with ⟨_, hne⟩ | rfl
          · exact absurd rfl hne
          · rw [← hl]; exact (find_some hi).2.2.symm
      simp only [] at h
      split at h
      · injection h with h; subst h; cases he
      · simp only [Option.bind_eq_some_iff] at h
        obtain ⟨hh, hdp, h⟩ := h
        split at h
        · simp only [Option.bind_eq_some_iff] at h
          obtain ⟨⟨r, m3, q3, u', notes⟩, hen2, h⟩ := h
          rcases r with e | ⟨⟩
          · simp only [Option.bind_eq_some_iff] at h
            obtain ⟨q4, _, h⟩ := h
            injection h with h; subst h
            exact ⟨hen, hid (dispatch_served hdp id he), m1, q1, u, hd⟩
          · injection h with h; subst h
            rcases List.mem_append.mp he with he | he
            · exact ⟨hen, hid (dispatch_served hdp id he), m1, q1, u, hd⟩
            · exact absurd he (note_served _ _)
        · injection h with h; subst h
          exact ⟨hen, hid (dispatch_served hdp id he), m1, q1, u, hd⟩
  · split at h
    · injection h with h; subst h; cases he
    · simp only [bind, Option.bind_eq_some_iff] at h
      obtain ⟨hh, hdp, h⟩ := h
      injection h with h; subst h
      have := (dispatch_served hdp id he).1
      cases this

/-- The engine is only ever called with keys that a key exchange made: never with the zeros of a cleared session. -/
theorem uses_derived (c : SCfg) (hc : c.aead.Correct) (hmax : c.maxSeq ≤ 2 ^ 64) (n : Nat) (hn : n < 2 ^ 32) (rs : List Req) (hg : ∀ r ∈ rs, r.Gcm)
    (o : History) (h : serveAll c (noSessions n) rs = some o) (hk : GoodKeys o.keys) : ∀ u ∈ o.uses, u.key ∈ o.keys.map (·.key) := by
  have := (serveAll_ok hc hmax (noSessions_inv n hn) hg h ⟨hk.sized, hk.nonzero, fun _ _ h => (nomatch h), hk.distinct⟩).2.keys.usesKnown
  simpa using this

/-! ### A whole session -/

def toyGiven : Given where
  version := 0x12
  ready := true
  keyEx := true
  clear := false
  drop := false
  localId := 0
  new := toySession
  checks := true
  hsKeys := some (toyKeys 1 0, toyKeys 2 0)
  hmacOk := true
  dataKeys := .both (toyKeys 3 0) (toyKeys 4 0)
  policy := 0
  handled := true
  body := [0, 0]
  dec := .none
  enc := .none

/-- Room in front for the header, and behind for the tag. -/
def toyIn (enc : Bool) (b : Bytes) : Req := ⟨toyGiven, enc, ⟨b ++ List.replicate 32 0, b.length, 100, 0, b.length⟩⟩

def toySealed (key : UInt8) (n : Nat) (b : Bytes) : Req :=
  toyIn true (sealedMessage toyAead16 0x00010007 (List.replicate 32 key) (ivFor (List.replicate 12 key) n) b)

/-- Key exchange with the identifier 7, FINISH, a vendor defined request, the end of the session; then the next request is not served. -/
def toyRun : List Req :=
  [toyIn false ([0x12, 0xe4, 0, 0, 7, 0, 0, 0] ++ List.replicate 32 9), toySealed 1 0 [0x12, 0xe5, 0, 0, 1, 2, 3], toySealed 3 0 [0x12, 0xfe, 0, 0, 0, 0, 0],
   toySealed 3 1 [0x12, 0xec, 0, 0], toySealed 3 2 [0x12, 0xfe, 0, 0, 0, 0, 0]]

set_option maxRecDepth 100000 in
theorem toyRun_events : (serveAll toyS (noSessions 4) toyRun).map (fun o => (o.events, o.uses.length, o.keys.map (·.key))) =
    some ([.begun 0x00010007, .proved 0x00010007, .served 0x00010007, .ended 0x00010007], 6,
      [List.replicate 32 1, List.replicate 32 2, List.replicate 32 3, List.replicate 32 4]) := by
  decide_cbv

example : ∀ r ∈ toyRun, r.Gcm := by
  intro r hr
  simp [toyRun] at hr
  rcases hr with rfl | rfl | rfl | rfl | rfl <;> exact ⟨rfl, rfl, rfl, rfl⟩

example : GoodKeys [toyKeys 1 0, toyKeys 2 0, toyKeys 3 0, toyKeys 4 0] := by
  refine ⟨?_, ?_, by decide⟩ <;> intro k hk <;> simp at hk <;> rcases hk with rfl | rfl | rfl | rfl <;> decide

end Verif.Spdm
