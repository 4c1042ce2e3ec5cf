import Verif.Spdm.TranscriptSpec
namespace Verif.Spdm

/-- The contexts that exist. -/
def Target.Valid (sessions : Nat) : Target → Prop
  | .m1m2 | .l1l2 => True
  | .sessionL1l2 i | .th i => i < sessions

/-- Number of the engine of a context. -/
def Target.engineNo : Target → Nat
  | .m1m2 => 0
  | .l1l2 => 1
  | .sessionL1l2 i => 2 + 2 * i
  | .th i => 3 + 2 * i

theorem engineNo_inj {t u : Target} (h : t.engineNo = u.engineNo) : t = u := by
  cases t <;> cases u <;> simp only [Target.engineNo] at h <;> first | rfl | omega | (congr 1; omega)

/-- The state of the manager shows the transcripts. -/
structure Shows (c : Cfg) (n : Nat) (s : Tm) (b : Book) : Prop where
  algo : b.algo = if s.algo ≥ 7 then none else some s.algo
  algo7 : s.algo ≤ 7
  vca : s.vca = b.vca
  version : s.version = b.version
  count : s.count = n
  fits : 2 + 2 * n ≤ c.engines
  max : n ≤ c.maxSessions
  eng : ∀ t, t.Valid n → (s.ctx t).engine = t.engineNo
  started : ∀ t, t.Valid n → (s.ctx t).started = (b.open_ t).isSome
  data : ∀ t, t.Valid n → s.engine t.engineNo = b.open_ t
  closed : ∀ t, ¬ t.Valid n → b.open_ t = none

variable {c : Cfg} {n : Nat} {s : Tm} {b : Book}

theorem Shows.bound (h : Shows c n s b) {t : Target} (ht : t.Valid n) : t.engineNo < c.engines := by
  have := h.fits
  cases t <;> simp only [Target.engineNo, Target.Valid] at * <;> omega

/-- Writing a context and its engine. -/
theorem Shows.write (h : Shows c n s b) {t : Target} (ht : t.Valid n) (v : Option (Nat × Bytes)) :
    Shows c n ((s.setEngine t.engineNo v).setStarted t v.isSome) (b.put t v) where
  algo := h.algo
  algo7 := h.algo7
  vca := h.vca
  version := h.version
  count := h.count
  fits := h.fits
  max := h.max
  eng := by
    intro u hu
    simp only [Tm.setStarted, Tm.setEngine]
    split
    · rename_i e; subst e; exact h.eng _ ht
    · exact h.eng u hu
  started := by
    intro u hu
    simp only [Tm.setStarted, Tm.setEngine, Book.put]
    split
    · rfl
    · exact h.started u hu
  data := by
    intro u hu
    simp only [Tm.setStarted, Tm.setEngine, Book.put]
    by_cases e : u = t
    · subst e; rw [if_pos rfl, if_pos rfl]
    · rw [if_neg e, if_neg (fun x => e (engineNo_inj x))]; exact h.data u hu
  closed := by
    intro u hu
    simp only [Book.put]
    rw [if_neg]
    · exact h.closed u hu
    · rintro rfl; exact hu ht

/-- Writing only the engine of an open context. -/
theorem Shows.append (h : Shows c n s b) {t : Target} (ht : t.Valid n) (v : Nat × Bytes) (ho : (s.ctx t).started = true) :
    Shows c n (s.setEngine t.engineNo (some v)) (b.put t (some v)) := by
  have hw := h.write ht (some v)
  have e : (s.setEngine t.engineNo (some v)).setStarted t (some v).isSome = s.setEngine t.engineNo (some v) := by
    simp only [Tm.setStarted, Tm.setEngine]
    congr 1
    funext u
    split
    · rename_i e; subst e; rw [show (some v).isSome = (s.ctx u).started from ho.symm]
    · rfl
  rw [e] at hw
  exact hw

theorem put_put (b : Book) (t : Target) (v w : Option (Nat × Bytes)) : (b.put t v).put t w = b.put t w := by
  simp only [Book.put]
  congr 1
  funext u
  split <;> rfl

theorem put_same (b : Book) (t : Target) (v : Option (Nat × Bytes)) (h : b.open_ t = v) : b.put t v = b := by
  simp only [Book.put]
  have : (fun u => if u = t then v else b.open_ u) = b.open_ := by
    funext u
    split
    · rename_i e; subst e; exact h.symm
    · rfl
  rw [this]

/-- One more message. -/
theorem addMsg_shows (h : Shows c n s b) {t : Target} (ht : t.Valid n) (msg : Bytes) (f : Faults) :
    ∃ s', addMsg c s t msg (beginsWithVca b.version t) f = some ((b.add t msg f).1, s') ∧ Shows c n s' (b.add t msg f).2 := by
  have he := h.eng t ht
  have hs := h.started t ht
  have hd := h.data t ht
  have hb := h.bound ht
  unfold addMsg Book.add
  simp only [he]
  rw [if_neg (show ¬ t.engineNo ≥ c.engines by omega)]
  cases ho : b.open_ t with
  | some v =>
    obtain ⟨a, d⟩ := v
    rw [ho] at hs hd
    rw [if_pos (show (s.ctx t).started = true from hs)]
    simp only [engineUpdate, hd]
    cases f.data with
    | true => exact ⟨s, rfl, h⟩
    | false => exact ⟨_, rfl, h.append ht _ hs⟩
  | none =>
    rw [ho] at hs hd
    have hns : ¬ (s.ctx t).started = true := by rw [hs]; exact fun h => nomatch h
    rw [if_neg hns]
    by_cases hal : s.algo ≥ 7
    · rw [if_pos (.inr (.inr hal)), h.algo, if_pos hal]
      exact ⟨s, rfl, h⟩
    · rw [h.algo, if_neg hal]
      simp only [hd, Option.isSome_none, Bool.false_eq_true, false_or, hal, or_false]
      cases hfs : f.start with
      | true => simp only [if_true]; exact ⟨s, rfl, h⟩
      | false =>
        simp only [Bool.false_eq_true, if_false]
        have h1 := h.write ht (some (s.algo, []))
        generalize hs1 : (s.setEngine t.engineNo (some (s.algo, []))).setStarted t true = s1
        have hs1' : (s.setEngine t.engineNo (some (s.algo, []))).setStarted t (some (s.algo, ([] : Bytes))).isSome = s1 := hs1
        rw [hs1'] at h1
        have hst1 : (s1.ctx t).started = true := by
          rw [h1.started t ht]; simp [Book.put]
        have hd1 : s1.engine t.engineNo = some (s.algo, []) := by
          rw [h1.data t ht]; simp [Book.put]
        have hv1 : s1.vca = b.vca := h1.vca
        have hfin : ∀ d s2, Shows c n s2 (b.put t (some (s.algo, d))) → s2.engine t.engineNo = some (s.algo, d) → (s2.ctx t).started = true →
            ∃ s', (match engineUpdate s2 t.engineNo msg f.data with | (false, s) => some (TStatus.engine, s) | (true, s) => some (TStatus.ok, s)) =
              some ((if f.data = true then (TStatus.engine, b.put t (some (s.algo, d))) else (TStatus.ok, b.put t (some (s.algo, d ++ msg)))).1, s') ∧
              Shows c n s' (if f.data = true then (TStatus.engine, b.put t (some (s.algo, d))) else (TStatus.ok, b.put t (some (s.algo, d ++ msg)))).2 := by
          intro d s2 h2 hd2 ho2
          simp only [engineUpdate, hd2]
          cases f.data with
          | true => exact ⟨s2, rfl, h2⟩
          | false =>
            have h3 := h2.append ht (s.algo, d ++ msg) ho2
            rw [put_put] at h3
            exact ⟨_, rfl, h3⟩
        cases hv : beginsWithVca b.version t with
        | false =>
          simp only [Bool.false_eq_true, false_and, if_false]
          exact hfin [] s1 h1 hd1 hst1
        | true =>
          simp only [true_and, if_true, engineUpdate, hd1, hv1]
          cases hfv : f.vca with
          | true => simp only [if_true]; exact ⟨s1, rfl, h1⟩
          | false =>
            simp only [Bool.false_eq_true, if_false, List.nil_append]
            have h2 := h1.append ht (s.algo, b.vca) hst1
            rw [put_put] at h2
            refine hfin b.vca _ h2 ?_ ?_
            · simp [Tm.setEngine]
            · exact hst1

theorem resetTarget_shows (h : Shows c n s b) {t : Target} (ht : t.Valid n) : Shows c n (resetTarget s t) (b.put t none) := by
  unfold resetTarget
  have hs := h.started t ht
  split
  · rw [h.eng t ht]; exact h.write ht none
  · rename_i hn
    rw [put_same]
    · exact h
    · cases ho : b.open_ t with
      | none => rfl
      | some v => rw [ho] at hs; exact absurd hs hn

theorem resetSession_shows (h : Shows c n s b) (i : Nat) :
    Shows c n (resetSession s i) (if i < n then (b.put (.sessionL1l2 i) none).put (.th i) none else b) := by
  unfold resetSession
  rw [h.count]
  by_cases hi : i < n
  · rw [if_neg (by omega), if_pos hi]
    exact resetTarget_shows (resetTarget_shows h (t := .sessionL1l2 i) hi) (t := .th i) hi
  · rw [if_pos (by omega), if_neg hi]; exact h

/-- The sessions below `m` closed. -/
def closeSessions (b : Book) (m : Nat) : Book :=
  { b with open_ := fun t => match t with
      | .sessionL1l2 i => if i < m then none else b.open_ t
      | .th i => if i < m then none else b.open_ t
      | _ => b.open_ t }

theorem resetSessions_shows (h : Shows c n s b) (m : Nat) (hm : m ≤ n) : Shows c n (resetSessions s m) (closeSessions b m) := by
  induction m with
  | zero =>
    have : closeSessions b 0 = b := by
      unfold closeSessions
      have : (fun t => match t with
        | Target.sessionL1l2 i => if i < 0 then none else b.open_ t
        | Target.th i => if i < 0 then none else b.open_ t
        | _ => b.open_ t) = b.open_ := by funext t; cases t <;> simp
      rw [this]
    rw [this]
    exact h
  | succ m ih =>
    have h1 := resetSession_shows (ih (by omega)) m
    rw [if_pos (by omega)] at h1
    have e : ((closeSessions b m).put (.sessionL1l2 m) none).put (.th m) none = closeSessions b (m + 1) := by
      unfold closeSessions Book.put
      simp only []
      congr 1
      funext t
      cases t with
      | m1m2 => simp
      | l1l2 => simp
      | sessionL1l2 i =>
        simp only [reduceCtorEq, if_false, Target.sessionL1l2.injEq]
        by_cases h1 : i = m
        · subst h1; simp
        · rw [if_neg h1]
          by_cases h2 : i < m
          · rw [if_pos h2, if_pos (by omega)]
          · rw [if_neg h2, if_neg (by omega)]
      | th i =>
        simp only [Target.th.injEq, reduceCtorEq, if_false]
        by_cases h1 : i = m
        · subst h1; simp
        · rw [if_neg h1]
          by_cases h2 : i < m
          · rw [if_pos h2, if_pos (by omega)]
          · rw [if_neg h2, if_neg (by omega)]
    rw [e] at h1
    exact h1

theorem resetAll_shows (h : Shows c n s b) : Shows c n (resetAll s) { b with algo := none, vca := [], open_ := fun _ => none } := by
  unfold resetAll
  simp only []
  have h0 : Shows c n { s with algo := 7, vca := [] } { b with algo := none, vca := [] } :=
    ⟨rfl, Nat.le_refl 7, rfl, h.version, h.count, h.fits, h.max, h.eng, h.started, h.data, h.closed⟩
  have h1 := resetTarget_shows (resetTarget_shows h0 (t := .m1m2) trivial) (t := .l1l2) trivial
  have h2 := resetSessions_shows h1 n (Nat.le_refl n)
  rw [h1.count]
  have e : closeSessions ((({ b with algo := none, vca := [] } : Book).put .m1m2 none).put .l1l2 none) n =
      { b with algo := none, vca := [], open_ := fun _ => none } := by
    unfold closeSessions Book.put
    simp only []
    congr 1
    funext t
    cases t with
    | m1m2 => simp
    | l1l2 => simp
    | sessionL1l2 i =>
      simp only [reduceCtorEq, if_false]
      by_cases hi : i < n
      · rw [if_pos hi]
      · rw [if_neg hi]; exact h.closed _ hi
    | th i =>
      simp only [reduceCtorEq, if_false]
      by_cases hi : i < n
      · rw [if_pos hi]
      · rw [if_neg hi]; exact h.closed _ hi
  rw [e] at h2
  exact h2

theorem hashTarget_eq (h : Shows c n s b) (k : Kind) (ses : Bool) (idx : Nat) : hashTarget s k ses idx = meant n k ses idx := by
  unfold hashTarget meant
  rw [h.count]
  cases k <;> cases ses <;> simp <;> (try omega) <;> (split <;> (try rfl) <;> (try (rename_i h1; split <;> first | rfl | omega)))

theorem meant_valid {k : Kind} {ses : Bool} {idx : Nat} {t : Target} (h : meant n k ses idx = .ok t) : t.Valid n := by
  unfold meant at h
  split at h <;> (try cases h) <;> (try trivial) <;> (split at h <;> cases h) <;> assumption

/-- One operation. -/
theorem step_shows (h : Shows c n s b) (op : TOp) (hp : op.Proper n) :
    ∃ s', op.run c s = some ((b.step c.vcaSize n op).1, s') ∧ Shows c n s' (b.step c.vcaSize n op).2 := by
  cases op with
  | setAlgo a =>
    simp only [TOp.run, setAlgo, Book.step]
    split
    · exact ⟨s, rfl, h⟩
    · rename_i ha
      rw [h.algo]
      have h7 := h.algo7
      by_cases h2 : s.algo = 7
      · rw [if_neg (show ¬ s.algo ≠ 7 from fun x => x h2), if_pos (show s.algo ≥ 7 by omega)]
        refine ⟨_, rfl, ?_⟩
        exact ⟨(if_neg (show ¬ a ≥ 7 from ha)).symm, show a ≤ 7 by omega, h.vca, h.version, h.count, h.fits, h.max, h.eng, h.started, h.data, h.closed⟩
      · rw [if_pos (show s.algo ≠ 7 from h2), if_neg (show ¬ s.algo ≥ 7 by omega)]
        exact ⟨s, rfl, h⟩
  | setVersion v =>
    exact ⟨_, rfl, ⟨h.algo, h.algo7, h.vca, rfl, h.count, h.fits, h.max, h.eng, h.started, h.data, h.closed⟩⟩
  | update k msg ses idx f =>
    simp only [TOp.run, tmUpdate, Book.step]
    by_cases hm : msg = []
    · subst hm; exact ⟨s, rfl, h⟩
    · have hm' : ¬ msg.length = 0 := fun x => hm (List.length_eq_zero_iff.mp x)
      rw [if_neg hm', if_neg hm]
      cases k with
      | vca =>
        simp only [updateVca, if_true, h.vca]
        by_cases hv : b.vca.length + msg.length ≤ c.vcaSize
        · rw [if_neg (by omega), if_pos hv]
          exact ⟨_, rfl, ⟨h.algo, h.algo7, rfl, h.version, h.count, h.fits, h.max, h.eng, h.started, h.data, h.closed⟩⟩
        · have : 0 < msg.length := by omega
          rw [if_pos (by omega), if_neg hv]
          exact ⟨_, rfl, h⟩
      | m1m2 =>
        obtain ⟨s', h1, h2⟩ := addMsg_shows h (t := .m1m2) trivial msg f
        refine ⟨s', ?_, ?_⟩
        · simp only [show beginsWithVca b.version .m1m2 = true from rfl] at h1
          simp only [h1]; rfl
        · exact h2
      | l1l2 =>
        cases ses with
        | false =>
          obtain ⟨s', h1, h2⟩ := addMsg_shows h (t := .l1l2) trivial msg f
          refine ⟨s', ?_, ?_⟩
          · rw [show beginsWithVca b.version .l1l2 = decide (s.version > 0x11) from by rw [h.version]; rfl] at h1
            simp only [Bool.false_eq_true, false_and, if_false, h1]; rfl
          · exact h2
        | true =>
          have hi : idx < n := hp
          have := h.max
          obtain ⟨s', h1, h2⟩ := addMsg_shows h (t := .sessionL1l2 idx) hi msg f
          have hb : (if idx < n then Except.ok (Target.sessionL1l2 idx) else Except.error TStatus.invalidSession) = .ok (.sessionL1l2 idx) := if_pos hi
          refine ⟨s', ?_, ?_⟩
          · rw [show beginsWithVca b.version (.sessionL1l2 idx) = decide (s.version > 0x11) from by rw [h.version]; rfl] at h1
            simp only [true_and, show ¬ idx ≥ c.maxSessions by omega, if_false, if_true, h1, meant, reduceCtorEq, hb]; rfl
          · simp only [meant, reduceCtorEq, if_false, hb]; exact h2
      | th =>
        obtain ⟨rfl, hi⟩ : ses = true ∧ idx < n := hp
        have := h.max
        obtain ⟨s', h1, h2⟩ := addMsg_shows h (t := .th idx) hi msg f
        have hb : (if idx < n then Except.ok (Target.th idx) else Except.error TStatus.invalidSession) = .ok (.th idx) := if_pos hi
        refine ⟨s', ?_, ?_⟩
        · simp only [show beginsWithVca b.version (.th idx) = true from rfl] at h1
          simp only [true_and, show ¬ idx ≥ c.maxSessions by omega, if_false, h1, meant, reduceCtorEq, hb]; rfl
        · simp only [meant, reduceCtorEq, if_false, hb]; exact h2
      | other => exact ⟨s, rfl, h⟩
  | getHash k fin ses idx fl =>
    simp only [TOp.run, tmGetHash, Book.step, hashTarget_eq h]
    cases hk : meant n k ses idx with
    | error e => exact ⟨s, rfl, h⟩
    | ok t =>
      have ht := meant_valid hk
      have hs := h.started t ht
      have hd := h.data t ht
      have hb := h.bound ht
      simp only [h.eng t ht]
      cases ho : b.open_ t with
      | none =>
        rw [ho] at hs
        rw [if_pos (show (s.ctx t).started = false from hs)]
        exact ⟨s, rfl, h⟩
      | some v =>
        obtain ⟨a, d⟩ := v
        rw [ho] at hs hd
        rw [if_neg (show ¬ (s.ctx t).started = false by rw [hs]; exact fun h => nomatch h), if_neg (by omega), hd]
        cases fl with
        | true => exact ⟨s, rfl, h⟩
        | false =>
          cases fin with
          | true => exact ⟨_, rfl, h.write ht none⟩
          | false => exact ⟨_, rfl, h⟩
  | resetContext k ses idx =>
    simp only [TOp.run, resetContext]
    have e : b.step c.vcaSize n (.resetContext k ses idx) = (TRes.none, if k = Kind.vca ∧ (ses = true → idx < n) then { b with vca := [] }
        else match meant n k ses idx with
          | .error _ => b
          | .ok t => b.put t none) := by
      simp only [Book.step]
      split
      · rfl
      · cases meant n k ses idx <;> rfl
    rw [e]
    refine ⟨_, rfl, ?_⟩
    rw [h.count]
    have hv : Shows c n { s with vca := [], count := n } { b with vca := [] } :=
      ⟨h.algo, h.algo7, rfl, h.version, rfl, h.fits, h.max, h.eng, h.started, h.data, h.closed⟩
    cases k <;> cases ses <;> simp [meant]
    · exact hv
    · by_cases hi : idx < n
      · rw [if_neg (show ¬ n ≤ idx by omega), if_pos hi]; exact hv
      · rw [if_pos (show n ≤ idx by omega), if_neg hi, if_neg hi]; exact h
    · exact resetTarget_shows h trivial
    · exact h
    · exact resetTarget_shows h trivial
    · by_cases hi : idx < n
      · rw [if_neg (show ¬ n ≤ idx by omega), if_pos hi]; exact resetTarget_shows h hi
      · rw [if_pos (show n ≤ idx by omega), if_neg hi]; exact h
    · exact h
    · by_cases hi : idx < n
      · rw [if_neg (show ¬ n ≤ idx by omega), if_pos hi]; exact resetTarget_shows h hi
      · rw [if_pos (show n ≤ idx by omega), if_neg hi]; exact h
    · exact h
    · by_cases hi : idx < n
      · rw [if_pos hi]; exact h
      · rw [if_neg hi]; exact h
  | resetSession idx => exact ⟨_, rfl, resetSession_shows h idx⟩
  | reset => exact ⟨_, rfl, resetAll_shows h⟩

/-- A history of operations of the code, oldest first: the results. `none`: access outside of an array. -/
def runOps (c : Cfg) : Tm → List TOp → Option (List TRes)
  | _, [] => some []
  | s, op :: ops =>
    match op.run c s with
    | none => none
    | some (r, s') => (runOps c s' ops).map (r :: ·)

/-- The same history on the transcripts. -/
def bookOps (vcaSize sessions : Nat) : Book → List TOp → List TRes
  | _, [] => []
  | b, op :: ops => (b.step vcaSize sessions op).1 :: bookOps vcaSize sessions (b.step vcaSize sessions op).2 ops

/-- Nothing recorded yet. -/
def emptyBook : Book := ⟨none, [], 0, fun _ => none⟩

theorem init_shows {s : Tm} (h : tmInit c = some s) : Shows c (min ((c.engines - 2) / 2) c.maxSessions) s emptyBook := by
  unfold tmInit at h
  split at h
  · cases h
  · cases h
    refine ⟨rfl, Nat.le_refl 7, rfl, rfl, rfl, by omega, by omega, ?_, ?_, fun _ _ => rfl, fun _ _ => rfl⟩
    · intro t ht
      cases t with
      | m1m2 => rfl
      | l1l2 => rfl
      | sessionL1l2 i => exact if_pos ht
      | th i => exact if_pos ht
    · intro t _
      cases t <;> rfl

/-- For all histories of operations on existing contexts, with all failures of the engines: every digest is that of exactly the messages recorded for
that context since it was begun, after the VCA messages of that time, and all results are as specified. -/
theorem transcripts_exact (c : Cfg) (s : Tm) (h : tmInit c = some s) (ops : List TOp)
    (hp : ∀ op ∈ ops, op.Proper (min ((c.engines - 2) / 2) c.maxSessions)) :
    runOps c s ops = some (bookOps c.vcaSize (min ((c.engines - 2) / 2) c.maxSessions) emptyBook ops) := by
  have h0 := init_shows h
  generalize min ((c.engines - 2) / 2) c.maxSessions = n at h0 hp ⊢
  generalize emptyBook = b at h0 ⊢
  clear h
  induction ops generalizing s b with
  | nil => rfl
  | cons op ops ih =>
    obtain ⟨s', h1, h2⟩ := step_shows h0 op (hp op (List.mem_cons_self ..))
    have := ih s' (fun op' h' => hp op' (List.mem_cons_of_mem _ h')) _ h2
    unfold runOps bookOps
    rw [h1]
    simp only [this, Option.map_some]

/-! ### Cases -/

def good : Faults := ⟨false, false, false⟩
def cfg1 : Cfg := ⟨4, 1, 0x100⟩

/-- Two contexts at the same time. -/
example : (tmInit cfg1).bind (fun s => runOps cfg1 s [.setAlgo 1, .setVersion 0x12, .update .vca [1, 2] false 0 good, .update .m1m2 [3] false 0 good,
      .update .th [4] true 0 good, .update .vca [9] false 0 good, .update .m1m2 [5] false 0 good, .update .l1l2 [6] true 0 good,
      .getHash .m1m2 true false 0 false, .getHash .th false true 0 false, .getHash .l1l2 true true 0 false, .getHash .m1m2 true false 0 false]) =
    some [.status .ok, .none, .status .ok, .status .ok, .status .ok, .status .ok, .status .ok, .status .ok,
      .digestOf 1 [1, 2, 3, 5], .digestOf 1 [1, 2, 4], .digestOf 1 [1, 2, 9, 6], .status .notStarted] := by decide

/-- A failed update leaves a transcript with a hole: the next message is accepted and hashed without the VCA messages. -/
theorem transcript_hole : (tmInit cfg1).bind (fun s => runOps cfg1 s [.setAlgo 1, .update .vca [1, 2] false 0 good,
      .update .m1m2 [3] false 0 ⟨false, true, false⟩, .update .m1m2 [4] false 0 good, .getHash .m1m2 true false 0 false]) =
    some [.status .ok, .status .ok, .status .engine, .status .ok, .digestOf 1 [4]] := by decide

/-- Too few engines: a session that does not exist takes the engine of M1/M2, which then cannot be used any more, not even after a reset. -/
theorem missing_session_blocks_m1m2 : (tmInit ⟨2, 1, 0x100⟩).bind (fun s => runOps ⟨2, 1, 0x100⟩ s [.setAlgo 1, .update .l1l2 [3] true 0 good,
      .reset, .resetSession 0, .setAlgo 1, .update .m1m2 [4] false 0 good]) =
    some [.status .ok, .status .ok, .none, .none, .status .ok, .status .engine] := by decide

/-- A TH update that is not marked as one of a session is not checked at all: the session number can leave the array. -/
theorem th_update_out_of_bounds : (tmInit cfg1).bind (fun s => runOps cfg1 s [.setAlgo 1, .update .th [3] false 1 good]) = none := by decide

end Verif.Spdm
