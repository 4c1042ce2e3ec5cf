import Verif.SpdmNeg.Lemmas
import Mathlib.Data.Nat.Bitwise
/-!
C138: what the SPDM responder agrees on with a requester is what both sides support, and what it says and records is what it agreed on.

`Fits` (what a responder supports fits in the fields of the messages), `Measures`, `slot`, `prefsOf`, `choice` and `Agreed` are in Lemmas.lean.
-/
namespace Verif.SpdmNeg
open Verif
open Spec (Table)

/-! ### The choice -/

/-- With one algorithm per preference, the choice is supported by both sides, and nothing before it in the preferences is. -/
theorem choice_common {t : List Nat} {mine theirs : Nat} (ht : ∀ p ∈ t, ∃ i, p = 2 ^ i) (h : Spec.pick (some t) mine theirs ≠ 0) :
    ∃ i k, t[k]? = some (2 ^ i) ∧ Spec.pick (some t) mine theirs = 2 ^ i ∧ mine.testBit i = true ∧ theirs.testBit i = true ∧
      ∀ (m : Nat), m < k → ∀ j, t[m]? = some (2 ^ j) → ¬ (mine.testBit j = true ∧ theirs.testBit j = true) := by
  simp only [Spec.pick] at h ⊢
  cases hf : t.find? fun p => decide (mine &&& theirs &&& p ≠ 0) with
  | none => rw [hf] at h; exact absurd rfl h
  | some p =>
    rw [List.find?_eq_some_iff_getElem] at hf
    obtain ⟨hp, k, hk, hkp, hbefore⟩ := hf
    obtain ⟨i, rfl⟩ := ht p (hkp ▸ List.getElem_mem hk)
    have key : ∀ j, mine &&& theirs &&& 2 ^ j ≠ 0 ↔ (mine.testBit j = true ∧ theirs.testBit j = true) := by
      intro j
      rw [Nat.and_two_pow, Nat.testBit_and]
      have := Nat.two_pow_pos j
      cases mine.testBit j <;> cases theirs.testBit j <;> simp
    refine ⟨i, k, by rw [List.getElem?_eq_getElem hk, hkp], rfl, ((key i).1 (by simpa using hp)).1, ((key i).1 (by simpa using hp)).2, ?_⟩
    intro m hm j hj hc
    have hml : m < t.length := by omega
    rw [List.getElem?_eq_getElem hml, Option.some.injEq] at hj
    have := hbefore m hm
    rw [hj] at this
    simp only [decide_not, Bool.not_not, decide_eq_true_eq] at this
    exact (key j).2 hc this

/-- No choice: no preference is supported by both. -/
theorem choice_none {t : List Nat} {mine theirs : Nat} (ht : ∀ p ∈ t, ∃ i, p = 2 ^ i) :
    Spec.pick (some t) mine theirs = 0 ↔ ∀ i, 2 ^ i ∈ t → ¬ (mine.testBit i = true ∧ theirs.testBit i = true) := by
  have key : ∀ j, mine &&& theirs &&& 2 ^ j ≠ 0 ↔ (mine.testBit j = true ∧ theirs.testBit j = true) := by
    intro j
    rw [Nat.and_two_pow, Nat.testBit_and]
    have := Nat.two_pow_pos j
    cases mine.testBit j <;> cases theirs.testBit j <;> simp
  constructor
  · intro h i hi hc
    simp only [Spec.pick] at h
    cases hf : t.find? fun p => decide (mine &&& theirs &&& p ≠ 0) with
    | none =>
      rw [List.find?_eq_none] at hf
      exact hf _ hi (by simpa using (key i).2 hc)
    | some p =>
      rw [hf] at h
      obtain ⟨j, rfl⟩ := ht p (List.mem_of_find?_eq_some hf)
      have := Nat.two_pow_pos j
      simp only [Option.getD_some] at h
      omega
  · intro h
    simp only [Spec.pick]
    have : (t.find? fun p => decide (mine &&& theirs &&& p ≠ 0)) = none := by
      rw [List.find?_eq_none]
      intro p hp
      obtain ⟨j, rfl⟩ := ht p hp
      simpa using fun hc => h j hp ((key j).1 hc)
    rw [this]; rfl

/-- Without preferences: the lowest bit both sides have. -/
theorem choice_lowest {mine theirs : Nat} (hm : mine < 2 ^ 32) : (mine &&& theirs = 0 ∧ Spec.pick none mine theirs = 0) ∨
    ∃ i, Spec.pick none mine theirs = 2 ^ i ∧ mine.testBit i = true ∧ theirs.testBit i = true ∧
      ∀ j, j < i → ¬ (mine.testBit j = true ∧ theirs.testBit j = true) := by
  simp only [Spec.pick, Spec.lowestBit]
  have hc : mine &&& theirs < 2 ^ 32 := Nat.lt_of_le_of_lt Nat.and_le_left hm
  cases hf : (List.range 32).find? ((mine &&& theirs).testBit ·) with
  | none =>
    rw [List.find?_eq_none] at hf
    left
    refine ⟨?_, rfl⟩
    apply Nat.eq_of_testBit_eq
    intro i
    rw [Nat.zero_testBit]
    by_cases hi : i < 32
    · simpa using hf i (by simpa using hi)
    · exact Nat.testBit_lt_two_pow (Nat.lt_of_lt_of_le hc (Nat.pow_le_pow_right (by omega) (by omega)))
  | some i =>
    right
    rw [List.find?_range_eq_some] at hf
    obtain ⟨h1, -, h2⟩ := hf
    rw [Nat.testBit_and, Bool.and_eq_true] at h1
    refine ⟨i, rfl, h1.1, h1.2, fun j hj hc => ?_⟩
    have := h2 j hj
    rw [Nat.testBit_and, hc.1, hc.2] at this
    cases this

/-! ### NEGOTIATE_ALGORITHMS -/

theorem reply_error (v c : UInt8) : (errorReply v c).getD 1 0 ≠ 0x63 := by simp [errorReply]

theorem handle_error (st : St) : (handleState st).2.getD 1 0 ≠ 0x63 := by
  unfold handleState
  split <;> exact reply_error _ _

/-- An ALGORITHMS response follows a request with the tables of the specification, within the payload; it has the choices, which are also what
the connection uses, and the transcript has the request and the response. Partial: for requests that do not declare more bytes than they have. -/
theorem negotiated_partial {loc : Local} {f : Fault} {buf : Bytes} {n : Nat} {st st' : St} {r : Bytes} (hf : Fits loc) (hn : n ≤ buf.length)
    (hlen : leNat (window buf 4 2) ≤ n) (h : negotiate loc f buf n st = some (st', r)) (hr : r.getD 1 0 = 0x63) :
    ∃ meas opq asym hash ea eh ts, Spec.Request (buf.take (leNat (window buf 4 2))) meas opq asym hash ea eh ts ∧
      buf.getD 0 0 = st.version ∧ st.resp = .normal ∧ st.state = 2 ∧ (0x12 ≤ st.version → opq < 4) ∧
      Agreed loc st.version meas opq asym hash ts st.algs st'.algs ∧
      r = Spec.response st.version st'.algs.measSpec (if 0x12 ≤ st.version then st'.algs.opq else 0) st'.algs.measHash st'.algs.asym st'.algs.hash
        (ts.map fun t => (t.ty, choice loc t)) ∧
      (st'.algs.hash = 0 ∨ (st'.algs.hash = 1 ∨ st'.algs.hash = 2 ∨ st'.algs.hash = 4) ∧ st.trHash = none) ∧
      st' = { st with algs := st'.algs, state := 3, vca := st.vca ++ buf.take (leNat (window buf 4 2)) ++ r,
                      trHash := if st'.algs.hash = 0 then st.trHash else some st'.algs.hash } := by
  have bad : ∀ {s : St} {c v : UInt8}, some (s, errorReply v c) = some (st', r) → False := by
    intro s c v e
    simp only [Option.some.injEq, Prod.mk.injEq] at e
    rw [← e.2] at hr
    exact reply_error _ _ hr
  unfold negotiate at h
  simp (maxSteps := 1000000) only at h
  split at h
  · exact (bad h).elim
  rename_i hv
  split at h
  · rw [Option.some.injEq] at h
    exact absurd hr (by have e := congrArg Prod.snd h; simp only at e; rw [← e]; exact handle_error st)
  rename_i hresp
  split at h
  · exact (bad h).elim
  rename_i hstate
  split at h
  · exact (bad h).elim
  rename_i hsize
  split at h
  · exact (bad h).elim
  rename_i hl128
  cases hval : validate buf n (buf.getD 2 0).toNat 1 (32 + 4 * (buf.getD 28 0).toNat + 4 * (buf.getD 29 0).toNat) 0 with
  | oob => rw [hval] at h; cases h
  | err e => rw [hval] at h; exact (bad h).elim
  | ok qe =>
    obtain ⟨q, ext⟩ := qe
    rw [hval] at h
    simp only at h
    split at h
    · exact (bad h).elim
    rename_i hext
    split at h
    · exact (bad h).elim
    rename_i hopq
    split at h
    · exact (bad h).elim
    rename_i hq
    have hq : q = leNat (window buf 4 2) := by omega
    obtain ⟨ts, s1, s2, s3, s4, s5, s6⟩ := validate_sound hval (by omega) (by omega)
    have hlen4 : ts.length ≤ 4 := by
      have := rising_len s4 (fun t ht => (s6 t ht).1.2) (by omega); omega
    have hext16 : extTotal ts ≤ 15 * ts.length := by
      have : ∀ l : List Table, (∀ t ∈ l, t.ext < 16) → extTotal l ≤ 15 * l.length := by
        intro l
        induction l with
        | nil => intro _; simp [extTotal]
        | cons t l ih =>
          intro hl
          have h1 := hl t (by simp)
          have h2 := ih fun x hx => hl x (by simp [hx])
          simp only [extTotal, List.map_cons, List.sum_cons, List.length_cons] at h2 ⊢
          omega
      exact this ts fun t ht => (s6 t ht).2.2.2
    have hea := (buf.getD 28 0).toNat_lt
    have heh := (buf.getD 29 0).toNat_lt
    have h0 : ∀ t ∈ ts, t.sup ≠ 0 := by
      intro t ht ht0
      obtain ⟨a', ha'⟩ := build_refuse loc buf (i := 0) (p := 32 + 4 * (buf.getD 28 0).toNat + 4 * (buf.getD 29 0).toNat)
        { st.algs with measSpec := (buf.getD 6 0).toNat, asym := leNat (window buf 8 4), hash := leNat (window buf 12 4) } s2 (by omega) ⟨t, ht, ht0⟩
      rw [← s1] at h
      unfold construct at h
      simp only [ha'] at h
      exact bad h
    obtain ⟨a, ag, hc⟩ := construct_eq hf (v := buf.getD 0 0) st.algs s2 s4 (fun t ht => (s6 t ht).1) h0
    generalize hR : Spec.response _ _ _ _ _ _ _ = R at hc
    rw [← s1, hc] at h
    simp only [finish] at h
    split at h
    · exact (bad h).elim
    rw [if_neg (by omega)] at h
    split at h
    · exact (bad h).elim
    split at h
    · exact (bad h).elim
    rename_i hhash
    split at h
    · cases h
    simp only [Option.some.injEq, Prod.mk.injEq] at h
    obtain ⟨rfl, rfl⟩ := h
    have hv : buf.getD 0 0 = st.version := by
      by_cases e : buf.getD 0 0 = st.version
      · exact e
      · exact absurd e hv
    rw [hv] at ag hc hopq
    have hfl := flatten_length ts
    have hmin : (buf.take (leNat (window buf 4 2))).length = leNat (window buf 4 2) := by rw [List.length_take]; omega
    refine ⟨_, _, _, _, (buf.getD 28 0).toNat, (buf.getD 29 0).toNat, ts, ⟨?_, ?_, rfl, rfl, rfl, rfl, ?_, ?_, ?_, ?_, ?_, ?_, ?_, ?_⟩, hv, ?_, ?_, ?_, ?_, ?_, ?_, ?_⟩
    · rw [getD_take (by omega), s1]
    · rw [window_take (by omega), hmin]
    · rw [getD_take (by omega)]
    · rw [getD_take (by omega)]
    · rw [hmin, hfl]; omega
    · rw [List.drop_take]
      have := parsed_window s2
      unfold window at this
      rw [show 32 + 4 * ((buf.getD 28 0).toNat + (buf.getD 29 0).toNat) = 32 + 4 * (buf.getD 28 0).toNat + 4 * (buf.getD 29 0).toNat by omega, ← this]
      congr 1
      omega
    · intro t ht
      obtain ⟨x1, x2, x3, x4⟩ := s6 t ht
      exact ⟨x1, h0 t ht, x2, x3, x4⟩
    · exact (rising_pairwise.1 s4).2
    · show _ + _ + extTotal ts ≤ 20
      have e1 : (0 + extTotal ts) % 65536 = extTotal ts := by omega
      rw [e1] at s5
      omega
    · omega
    · exact Classical.not_not.1 hresp
    · omega
    · intro h12
      rw [getD_take (by omega)]
      have : ¬ (buf.getD 7 0).toNat % 16 / 4 ≠ 0 := fun x => hopq ⟨h12, x⟩
      omega
    · simp only
      rw [getD_take (by omega), getD_take (by omega), window_take (by omega), window_take (by omega)]
      exact ag
    · simp only [← hR, hv]
    · by_cases ha : a.hash = 0
      · exact .inl ha
      · right
        have hk : ¬ (knownHash a.hash = false ∨ st.trHash ≠ none) := fun x => hhash ⟨ha, x⟩
        have hk1 : knownHash a.hash = true := by cases hh : knownHash a.hash <;> simp_all
        have hk2 : st.trHash = none := Classical.not_not.1 fun x => hk (.inr x)
        refine ⟨?_, hk2⟩
        simp [knownHash] at hk1
        rcases hk1 with (h | h) | h
        · exact .inl h
        · exact .inr (.inl h)
        · exact .inr (.inr h)
    · simp only
      by_cases ha : a.hash = 0
      · simp [ha]
      · simp [ha]

/-- Every request of the specification is answered, in the right state and with a hash algorithm the responder can compute. -/
theorem negotiate_complete {loc : Local} {f : Fault} {msg rest : Bytes} {n : Nat} {st : St} {meas opq asym hash ea eh : Nat} {ts : List Table} (hf : Fits loc)
    (hq : Spec.Request msg meas opq asym hash ea eh ts) (hn : msg.length ≤ n) (hn2 : n ≤ msg.length + rest.length) (h64 : msg.length + rest.length < 2 ^ 64)
    (hv : msg.getD 0 0 = st.version) (hresp : st.resp = .normal) (hstate : st.state = 2) (hopq : 0x12 ≤ st.version → opq < 4)
    (hf1 : f.update1 = false) (hf2 : f.update2 = false) (hroom : 36 + 4 * ts.length ≤ msg.length + rest.length)
    (hhash : Spec.pick loc.prio.hash loc.algs.hash hash = 0 ∨ Spec.pick loc.prio.hash loc.algs.hash hash ∈ [1, 2, 4] ∧ st.trHash = none) :
    ∃ a r, Agreed loc st.version meas opq asym hash ts st.algs a ∧
      r = Spec.response st.version a.measSpec (if 0x12 ≤ st.version then a.opq else 0) a.measHash a.asym a.hash (ts.map fun t => (t.ty, choice loc t)) ∧
      negotiate loc f (msg ++ rest) n st = some ({ st with algs := a, state := 3, vca := st.vca ++ msg ++ r, trHash := if a.hash = 0 then st.trHash else some a.hash }, r) := by
  obtain ⟨q1, q2, q3, q4, q5, q6, q7, q8, q9, q10, q11, q12, q13, q14⟩ := hq
  have hfl := flatten_length ts
  have hml : 32 ≤ msg.length := by omega
  have ht : (msg ++ rest).take msg.length = msg := by simp
  have g : ∀ i : Nat, i < 32 → (msg ++ rest).getD i 0 = msg.getD i 0 := by
    intro i hi
    conv => rhs; rw [← ht]
    rw [getD_take (by omega)]
  have w : ∀ o k : Nat, o + k ≤ 32 → window (msg ++ rest) o k = window msg o k := by
    intro o k h
    conv => rhs; rw [← ht]
    rw [window_take (by omega)]
  have hbl : (msg ++ rest).length = msg.length + rest.length := by simp
  have hwin : window (msg ++ rest) (32 + 4 * ea + 4 * eh) (total ts) = (ts.map (·.bytes)).flatten := by
    rw [← q10, show 32 + 4 * ea + 4 * eh = 32 + 4 * (ea + eh) by omega]
    unfold window
    rw [List.drop_append_of_le_length (by omega), List.take_append_of_le_length (by rw [List.length_drop]; omega), List.take_of_length_le (by rw [List.length_drop]; omega)]
  have hp : Parsed (msg ++ rest) (32 + 4 * ea + 4 * eh) ts := parsed_of_window q11 (by omega) hwin
  have hrise : Rising 1 ts := rising_pairwise.2 ⟨fun t ht => by have := (q11 t ht).type; omega, q12⟩
  have hty : ∀ t ∈ ts, 2 ≤ t.ty ∧ t.ty ≤ 5 := fun t ht => (q11 t ht).type
  have hlen4 : ts.length ≤ 4 := by
    have := rising_len hrise (fun t ht => (hty t ht).2) (by omega); omega
  have hval := validate_complete (n := n) (by omega) (by omega) (ext := 0) hp (by omega) hrise hty (by omega)
  have htot : 4 * ts.length ≤ total ts := by
    have : ∀ l : List Table, 4 * l.length ≤ total l := by
      intro l
      induction l with
      | nil => simp [total]
      | cons t l ih =>
        have := bytes_len t
        simp only [total, List.map_cons, List.sum_cons, List.length_cons] at ih ⊢
        omega
    exact this ts
  obtain ⟨a, ag, hc⟩ := construct_eq hf (v := st.version) st.algs hp hrise hty (fun t ht => (q11 t ht).some)
  rw [g 6 (by omega), g 7 (by omega), w 8 4 (by omega), w 12 4 (by omega), q3, q4, q5, q6] at ag
  have hRl := response_length st.version a.measSpec (if 0x12 ≤ st.version then a.opq else 0) a.measHash a.asym a.hash (ts.map fun t => (t.ty, choice loc t))
  rw [List.length_map] at hRl
  refine ⟨a, _, ag, rfl, ?_⟩
  generalize Spec.response _ _ _ _ _ _ _ = R at hc hRl ⊢
  unfold negotiate
  simp only [g 0 (by omega), g 2 (by omega), g 7 (by omega), g 28 (by omega), g 29 (by omega), w 4 2 (by omega), hv, hresp, hstate, q1, q2, q4, q7, q8, hval, hf1, hf2]
  simp only [extTotal]
  rw [if_neg (fun h => h rfl), if_neg (fun h => h rfl), if_neg (by omega), if_neg (by omega), if_neg (by omega),
    if_neg (fun h => by have := hopq h.1; omega), if_neg (by omega), hc]
  simp only [finish, hf1, hf2, Bool.false_eq_true, if_false]
  have hk : ¬ (a.hash ≠ 0 ∧ (knownHash a.hash = false ∨ st.trHash ≠ none)) := by
    intro ⟨h1, h2⟩
    rw [← ag.hash] at hhash
    rcases hhash with h0 | ⟨hm, hnone⟩
    · exact h1 h0
    · have : knownHash a.hash = true := by
        simp only [List.mem_cons, List.not_mem_nil, or_false] at hm
        rcases hm with e | e | e <;> rw [e] <;> rfl
      rcases h2 with h2 | h2
      · rw [this] at h2; cases h2
      · exact h2 hnone
  rw [if_neg (by omega), if_neg hk, ht, if_neg (by omega)]
  by_cases ha : a.hash = 0
  · simp [ha]; omega
  · simp [ha]; omega

/-- With 260 bytes behind the payload, no request is read or answered outside of the buffer. -/
theorem negotiate_in_buffer {loc : Local} {f : Fault} {buf : Bytes} {n : Nat} {st : St} (hf : Fits loc) (hb : n + 260 ≤ buf.length) (h64 : n < 2 ^ 64) :
    negotiate loc f buf n st ≠ none := by
  unfold negotiate
  simp (maxSteps := 1000000) only
  split
  · nofun
  split
  · nofun
  split
  · nofun
  split
  · nofun
  rename_i hsize
  split
  · nofun
  rename_i hl128
  cases hval : validate buf n (buf.getD 2 0).toNat 1 (32 + 4 * (buf.getD 28 0).toNat + 4 * (buf.getD 29 0).toNat) 0 with
  | oob => exact absurd hval (validate_in hb h64 (by omega) (by omega) (by omega))
  | err e => simp
  | ok qe =>
    obtain ⟨q, ext⟩ := qe
    simp only
    split
    · nofun
    split
    · nofun
    split
    · nofun
    rename_i hq
    obtain ⟨ts, s1, s2, s3, s4, s5, s6⟩ := validate_sound hval (by omega) (by omega)
    have hlen4 : ts.length ≤ 4 := by
      have := rising_len s4 (fun t ht => (s6 t ht).1.2) (by omega); omega
    by_cases h0 : ∀ t ∈ ts, t.sup ≠ 0
    · obtain ⟨a, ag, hc⟩ := construct_eq hf (v := buf.getD 0 0) st.algs s2 s4 (fun t ht => (s6 t ht).1) h0
      have hRl := response_length (buf.getD 0 0) a.measSpec (if 0x12 ≤ buf.getD 0 0 then a.opq else 0) a.measHash a.asym a.hash (ts.map fun t => (t.ty, choice loc t))
      rw [List.length_map] at hRl
      generalize Spec.response _ _ _ _ _ _ _ = R at hc hRl
      rw [← s1, hc]
      simp only [finish]
      split
      · nofun
      rw [if_neg (by omega)]
      split
      · nofun
      split
      · nofun
      rw [if_neg (by omega)]
      nofun
    · have h0 : ∃ t ∈ ts, t.sup = 0 := by simpa using h0
      obtain ⟨a', ha'⟩ := build_refuse loc buf (i := 0) (p := 32 + 4 * (buf.getD 28 0).toNat + 4 * (buf.getD 29 0).toNat)
        { st.algs with measSpec := (buf.getD 6 0).toNat, asym := leNat (window buf 8 4), hash := leNat (window buf 12 4) } s2 (by omega) h0
      rw [← s1]
      unfold construct
      simp only [ha']
      nofun

/-! ### GET_CAPABILITIES -/

/-- The check of the flags is the one of the rules. -/
theorem flags_exact {flags : Nat} {v : UInt8} (hv : v ≠ 0x11) : compatible flags v = true ↔
    Spec.Consistent (flags.testBit 1) (flags.testBit 2) (flags.testBit 6) (flags.testBit 7) (flags.testBit 8) (flags.testBit 9) (flags.testBit 13)
      (flags.testBit 14) (flags.testBit 15) (flags.testBit 16) (flags / 1024 % 4) := by
  have key : ∀ (cert chal encrypt mac mut_ keyEx encap hbeat keyUpd clear pubKey : Bool) (psk : Nat),
      compatibleBits cert chal encrypt mac mut_ keyEx encap hbeat keyUpd clear pubKey psk v = true ↔
        Spec.Consistent cert chal encrypt mac mut_ keyEx hbeat keyUpd clear pubKey psk := by
    intro cert chal encrypt mac mut_ keyEx encap hbeat keyUpd clear pubKey psk
    unfold compatibleBits
    constructor
    · intro h
      constructor <;> grind
    · rintro ⟨h1, h2, h3, h4, h5, h6, h7⟩
      grind
  exact key ..

/-- A CAPABILITIES response is sent exactly for these requests, with what the responder has. The connection has what the requester sent. -/
theorem capabilities_exact {loc : Local} {buf : Bytes} {n : Nat} {st : St} :
    let v := buf.getD 0 0
    let flags := leNat (window buf 8 4)
    let transfer := leNat (window buf 12 4)
    let message := leNat (window buf 16 4)
    let good := v ∈ loc.versions ∧ st.resp = .normal ∧ st.state = 1 ∧ 0x12 ≤ v ∧ 20 ≤ n ∧
      Spec.Consistent (flags.testBit 1) (flags.testBit 2) (flags.testBit 6) (flags.testBit 7) (flags.testBit 8) (flags.testBit 9) (flags.testBit 13)
        (flags.testBit 14) (flags.testBit 15) (flags.testBit 16) (flags / 1024 % 4) ∧
      42 ≤ transfer ∧ transfer ≤ message ∧ (flags.testBit 17 = true ∨ transfer = message) ∧ buf.getD 5 0 ≤ 31
    let r := [SpdmCert.hdr v, 0x61, 0, 0, 0, loc.caps.ct, 0, 0] ++ toLE 4 loc.caps.flags ++ toLE 4 loc.caps.transfer ++ toLE 4 loc.caps.message
    (good → capabilities loc {} buf n st =
      ({ st with version := v, caps := ⟨buf.getD 5 0, flags, transfer, message⟩, state := 2, vca := st.vca ++ buf.take 20 ++ r }, r)) ∧
    ∀ f, (capabilities loc f buf n st).2.getD 1 0 = 0x61 → good ∧ capabilities loc f buf n st = capabilities loc {} buf n st := by
  intro v flags transfer message good r
  have hgood : good → capabilities loc {} buf n st =
      ({ st with version := v, caps := ⟨buf.getD 5 0, flags, transfer, message⟩, state := 2, vca := st.vca ++ buf.take 20 ++ r }, r) := by
    rintro ⟨g1, g2, g3, g4, g5, g6, g7, g8, g9, g10⟩
    have hc := (flags_exact (v := v) (by intro e; rw [e] at g4; exact absurd g4 (by decide))).2 g6
    unfold capabilities checkCaps
    rw [if_neg (fun h => h g1), if_neg (fun h => h g2), if_neg (fun h => h g3), if_neg (fun h => h ⟨g4, g5⟩), if_neg (by rw [hc]; nofun),
      if_neg (by omega), if_neg, if_neg (UInt8.not_lt.2 g10)]
    · rfl
    · rintro ⟨h1, h2⟩
      rcases g9 with h | h
      · rw [h1] at h; cases h
      · exact h2 h
  refine ⟨hgood, fun f hf => ?_⟩
  have key : good ∧ f.update1 = false ∧ f.update2 = false := by
    have err : ∀ w c : UInt8, (errorReply w c).getD 1 0 ≠ 0x61 := fun w c => by simp [errorReply]
    have fin : ∀ caps s, (finishCaps loc f buf v caps s).2.getD 1 0 = 0x61 → f.update1 = false ∧ f.update2 = false := by
      intro caps s h
      unfold finishCaps at h
      cases h1 : f.update1 with
      | true => rw [h1, if_pos rfl] at h; exact absurd h (err _ _)
      | false =>
        cases h2 : f.update2 with
        | true => rw [h1, h2, if_neg (by nofun), if_pos rfl] at h; exact absurd h (err _ _)
        | false => exact ⟨rfl, rfl⟩
    unfold capabilities at hf
    by_cases c1 : v ∉ loc.versions
    · rw [if_pos c1] at hf
      exact absurd hf (err _ _)
    rw [if_neg c1] at hf
    unfold checkCaps at hf
    split at hf
    · unfold handleState at hf
      split at hf <;> exact absurd hf (err _ _)
    rename_i c2
    split at hf
    · exact absurd hf (err _ _)
    rename_i c3
    split at hf
    · exact absurd hf (err _ _)
    rename_i c4
    split at hf
    · exact absurd hf (err _ _)
    rename_i c5
    split at hf
    · exact absurd hf (err _ _)
    rename_i c6
    split at hf
    · exact absurd hf (err _ _)
    rename_i c7
    split at hf
    · exact absurd hf (err _ _)
    rename_i c8
    obtain ⟨c9, c10⟩ := fin _ _ hf
    have c4 : 0x12 ≤ v ∧ 20 ≤ n := Classical.not_not.1 c4
    refine ⟨⟨Classical.not_not.1 c1, Classical.not_not.1 c2, Classical.not_not.1 c3, c4.1, c4.2, ?_, by omega, by omega, ?_, UInt8.not_lt.1 c8⟩, c9, c10⟩
    · exact (flags_exact (v := v) (by intro e; rw [e] at c4; exact absurd c4.1 (by decide))).1 (Bool.not_eq_false _ ▸ c5)
    · cases hb : flags.testBit 17 with
      | true => exact .inl rfl
      | false => exact .inr (Classical.not_not.1 fun h => c7 ⟨hb, h⟩)
  obtain ⟨k1, k2, k3⟩ := key
  refine ⟨k1, ?_⟩
  simp only [capabilities, checkCaps, finishCaps, k2, k3]

/-! ### Where the code differs -/

/-- A responder. -/
def exLocal : Local :=
  { versions := [0x12], caps := { ct := 0, flags := 0x16, transfer := 1024, message := 1024 },
    algs := { measSpec := 1, measHash := 2, asym := 0x90, hash := 3, dhe := 0x18, aead := 2, reqAsym := 0, keySched := 1, opq := 2 },
    prio := { asym := some [0x80, 0x10], hash := some [2, 1], dhe := some [0x10, 8] } }

/-- A connection with capabilities. -/
def exSt : St := { version := 0x12, resp := .normal, state := 2, caps := {}, algs := {}, vca := [], trHash := none }

/-- A request. -/
def exMsg (hash : UInt8) (len num ea : UInt8) (rest : Bytes) : Bytes :=
  [0x12, 0xe3, num, 0, len, 0, 1, 2, 0x90, 0, 0, 0, hash, 0, 0, 0, 0, 0, 0, 0, 0, 0, 0, 0, 0, 0, 0, 0, ea, 0, 0, 0] ++ rest

/-- The tables are not in the payload (40 bytes), and what is behind it is used and recorded. -/
theorem declared_beyond_payload : (negotiate exLocal {} (exMsg 3 44 2 0 [2, 0x21, 0x18, 0, 1, 2, 3, 4, 3, 0x20, 2, 0] ++ List.replicate 20 0) 40 exSt).map
    (fun x => (x.1.state, x.1.vca.take 44, x.1.algs.aead)) = some (3, exMsg 3 44 2 0 [2, 0x21, 0x18, 0, 1, 2, 3, 4, 3, 0x20, 2, 0], 2) := by decide +kernel

/-- The same without anything behind the payload: an access outside of the buffer. -/
theorem read_beyond_buffer : negotiate exLocal {} (exMsg 3 44 2 0 [2, 0x21, 0x18, 0, 1, 2, 3, 4]) 40 exSt = none := by decide +kernel

/-- The response is 4 bytes longer than the request; without room for it, it is written outside of the buffer. -/
theorem write_beyond_buffer : negotiate exLocal {} (exMsg 3 32 0 0 []) 32 exSt = none := by decide +kernel

/-- Requests with nothing in common are answered, and the connection is negotiated without algorithms. -/
theorem nothing_in_common : (negotiate exLocal {} (exMsg 4 32 0 0 [] ++ List.replicate 20 0) 32 exSt).map (fun x => (x.1.state, x.1.algs.hash, x.1.trHash)) =
    some (3, 0, none) := by decide +kernel

/-- A refused request leaves its group for the connection, whose next request has no group. -/
theorem stale_group : ∃ st, (negotiate exLocal {} (exMsg 3 40 2 0 [2, 0x20, 8, 0, 3, 0x20, 0, 0] ++ List.replicate 20 0) 40 exSt).map (·.1) = some st ∧ st.state = 2 ∧
    (negotiate exLocal {} (exMsg 3 32 0 0 [] ++ List.replicate 20 0) 32 st).map (fun x => (x.1.state, x.1.algs.dhe)) = some (3, 8) :=
  ⟨{ exSt with algs := { measSpec := 1, asym := 0x90, hash := 3, dhe := 8 } }, by decide +kernel, rfl, by decide +kernel⟩

/-- A preference with several algorithms is chosen although only one is in common. -/
theorem several_chosen : Spec.pick (some [6]) 6 2 = 6 := by decide +kernel

/-- A GET_CAPABILITIES request refused in a negotiated connection changes its version. -/
theorem refused_version : (capabilities { exLocal with versions := [0x11, 0x12] } {} [0x11, 0xe1] 2 { exSt with state := 3 }) =
    ({ exSt with state := 3, version := 0x11 }, errorReply 0x11 0x04) := by decide +kernel

/-! ### Examples -/

theorem exFits : Fits exLocal :=
  ⟨⟨by decide, nofun⟩, by decide, by decide, by decide, fun ty => by
    unfold slot prefsOf
    split <;> refine ⟨by decide, ?_⟩ <;> intro t ht <;> cases ht
    decide, ⟨by decide, nofun⟩⟩

/-- A request with two tables, one with an extended algorithm. -/
example : (negotiate exLocal {} (exMsg 3 44 2 0 [2, 0x21, 0x18, 0, 1, 2, 3, 4, 3, 0x20, 2, 0] ++ List.replicate 20 0) 44 exSt).map (fun x => (x.1.state, x.2)) =
    some (3, [0x12, 0x63, 2, 0, 44, 0, 1, 2, 2, 0, 0, 0, 0x80, 0, 0, 0, 2, 0, 0, 0, 0, 0, 0, 0, 0, 0, 0, 0, 0, 0, 0, 0, 0, 0, 0, 0, 2, 0x20, 0x10, 0, 3, 0x20, 2, 0]) := by
  decide +kernel

example : Spec.Request (exMsg 3 44 2 0 [2, 0x21, 0x18, 0, 1, 2, 3, 4, 3, 0x20, 2, 0]) 1 2 0x90 3 0 0 [⟨2, 0x18, [1, 2, 3, 4]⟩, ⟨3, 2, []⟩] :=
  ⟨by decide +kernel, by decide +kernel, by decide +kernel, by decide +kernel, by decide +kernel, by decide +kernel, by decide +kernel, by decide +kernel,
    by decide +kernel, by decide +kernel, fun t ht => by
      simp only [List.mem_cons, List.not_mem_nil, or_false] at ht
      rcases ht with rfl | rfl <;> exact ⟨by decide, by decide, by decide, by decide⟩,
    by decide, by decide, by decide⟩

/-- Refused: types that do not rise, no algorithms in a table, another length. -/
example : ((negotiate exLocal {} (exMsg 3 40 2 0 [3, 0x20, 2, 0, 2, 0x20, 8, 0] ++ List.replicate 20 0) 40 exSt).map (·.2) = some (errorReply 0x12 1)) ∧
    ((negotiate exLocal {} (exMsg 3 36 1 0 [3, 0x20, 0, 0] ++ List.replicate 20 0) 36 exSt).map (·.2) = some (errorReply 0x12 1)) ∧
    ((negotiate exLocal {} (exMsg 3 40 1 0 [3, 0x20, 2, 0] ++ List.replicate 20 0) 40 exSt).map (·.2) = some (errorReply 0x12 1)) := by decide +kernel

/-- Capabilities: certificate and challenge. -/
example : (capabilities exLocal {} [0x12, 0xe1, 0, 0, 0, 5, 0, 0, 6, 0, 0, 0, 64, 0, 0, 0, 64, 0, 0, 0] 20 { exSt with state := 1 }).2 =
    [0x12, 0x61, 0, 0, 0, 0, 0, 0, 0x16, 0, 0, 0, 0, 4, 0, 0, 0, 4, 0, 0] := by decide +kernel

end Verif.SpdmNeg
