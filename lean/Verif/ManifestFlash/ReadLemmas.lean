import Verif.ManifestFlash.Lemmas
/-! Proofs about reading elements, and that verification ends. -/
namespace Verif.ManifestFlash

/-! ### Verification ends -/

theorem bind_err {α β : Type} {x : Except Err α} {f : α → Except Err β} {e : Err} :
    (x >>= f) = .error e ↔ x = .error e ∨ ∃ a, x = .ok a ∧ f a = .error e := by
  cases x with
  | error e => simp [bind, Except.bind]
  | ok a => simp [bind, Except.bind]

theorem req_err {c : Bool} {e e' : Err} : req c e = .error e' ↔ c = false ∧ e = e' := by
  unfold req; cases c <;> simp

theorem flashRead_hang {v : Env} {clk a n : Nat} : flashRead v clk a n ≠ .error .hang := by
  unfold flashRead
  split
  · simp
  · split <;> simp

theorem rdHash_hang {v : Env} {t : T} {a n : Nat} : rdHash v t a n ≠ .error .hang := by
  unfold rdHash
  split
  · simp
  · intro h
    rw [bind_err] at h
    rcases h with h | ⟨_, _, h⟩
    · exact flashRead_hang h
    · cases h

theorem hashBlocks_hang {v : Env} : ∀ (fuel : Nat) {t : T} {a n : Nat}, hashBlocks v fuel t a n ≠ .error .hang := by
  intro fuel
  induction fuel with
  | zero => intro t a n h; cases h
  | succ fuel ih =>
    intro t a n
    unfold hashBlocks
    split
    · simp
    · intro h
      rw [bind_err] at h
      rcases h with h | ⟨_, _, h⟩
      · exact rdHash_hang h
      · exact ih h

theorem hashRange_hang {v : Env} {t : T} {a n : Nat} : hashRange v t a n ≠ .error .hang := hashBlocks_hang _

theorem scan_hang {v : Env} {st : St} {hc : Nat} : ∀ (k i : Nat) {s : Scan}, scan v st hc k i s ≠ .error .hang := by
  intro k
  induction k with
  | zero => intro i s h; cases h
  | succ k ih =>
    intro i s h
    simp only [scan, bind_err] at h
    rcases h with h | ⟨_, _, h⟩
    · simp only [scanStep, bind_err, req_err] at h
      rcases h with h | ⟨_, _, ⟨_, h⟩ | ⟨_, _, ⟨_, h⟩ | ⟨_, _, h⟩⟩⟩
      · exact rdHash_hang h
      all_goals cases h
    · exact ih _ h

theorem rootPart_hang {c : Cfg} {v : Env} {st : St} {t : T} {next : Nat} {p : Option Bytes} : rootPart c v st t next p ≠ .error .hang := by
  intro h
  unfold rootPart at h
  cases p with
  | none => cases h
  | some p =>
    simp only [bind_err, req_err] at h
    rcases h with h | ⟨_, _, h | ⟨_, _, h | ⟨_, _, ⟨_, h⟩ | ⟨_, _, h | ⟨_, _, h⟩⟩⟩⟩⟩
    · exact rdHash_hang h
    · exact hashRange_hang h
    · exact rdHash_hang h
    · cases h
    · exact rdHash_hang h
    · cases h

theorem checkToc_hang {c : Cfg} {st : St} {ext : Option Bytes} {h : Bytes} : checkToc c st ext h ≠ .error .hang := by
  intro hc
  unfold checkToc at hc
  simp only [bind_err, req_err] at hc
  rcases hc with ⟨_, h⟩ | ⟨_, _, hc⟩
  · cases h
  · cases ext with
    | none =>
      simp only [bind_err, req_err] at hc
      rcases hc with ⟨_, h⟩ | ⟨_, _, h⟩ <;> cases h
    | some e =>
      simp only [bind_err, req_err] at hc
      rcases hc with ⟨_, h⟩ | ⟨_, _, ⟨_, h⟩ | ⟨_, _, h⟩⟩ <;> cases h

theorem oneToc_hang {c : Cfg} {v : Env} {st : St} {ext : Option Bytes} {t : T} {next : Nat} : oneToc c v st ext t next ≠ .error .hang := by
  intro h
  unfold oneToc at h
  simp only [bind_err] at h
  rcases h with h | ⟨_, _, h | ⟨_, _, h | ⟨_, _, h | ⟨_, _, h | ⟨_, _, h⟩⟩⟩⟩⟩
  · exact rdHash_hang h
  · exact checkToc_hang h
  · exact scan_hang _ _ h
  · exact hashRange_hang h
  · unfold maybeRoot at h
    split at h
    · exact rootPart_hang h
    · cases h
  · unfold toExt at h
    split at h
    · rw [bind_err] at h
      rcases h with h | ⟨_, _, h⟩
      · exact hashRange_hang h
      · cases h
    · cases h

/-- Every table of contents begins after the previous one. -/
theorem tocs_hang {c : Cfg} {v : Env} (wf : v.WF) {lo : Nat} : ∀ (fuel : Nat) {st : St} {ext : Option Bytes} {t : T} {next : Nat},
    Inv c v lo t next → t.msg.length < 65536 → 65536 ≤ t.msg.length + fuel → tocs c v fuel st ext t next ≠ .error .hang := by
  intro fuel
  induction fuel with
  | zero => intro st ext t next _ h1 h2; omega
  | succ fuel ih =>
    intro st ext t next inv h1 h2 h
    simp only [tocs, bind_err] at h
    rcases h with h | ⟨r, hr, h⟩
    · exact oneToc_hang h
    · obtain ⟨_, inv1, ok⟩ := oneToc_ok wf inv hr
      cases hx : r.2.2.2 with
      | none => simp only [hx] at h; cases h
      | some e =>
        simp only [hx] at h
        obtain ⟨_, _, k3, k4⟩ := ok.isExt e hx
        have : eOffset e < 65536 := u16_lt _ _
        exact ih inv1 (by omega) (by omega) h

theorem finish_hang {c : Cfg} {v : Env} {st : St} {t : T} : finish c v st t ≠ .error .hang := by
  intro h
  unfold finish at h
  simp only [bind_err, req_err] at h
  rcases h with ⟨_, h⟩ | ⟨_, _, ⟨_, h⟩ | ⟨_, _, ⟨_, h⟩ | ⟨_, _, h⟩⟩⟩ <;> cases h

theorem verifyV2_hang {c : Cfg} {v : Env} (wf : v.WF) {st : St} {clk fuel : Nat} {p : St × Nat} (hf : 65536 ≤ fuel)
    (hp : parseHeader c v st clk = .ok p) : verifyV2 c v p.1 p.2 fuel ≠ .error .hang := by
  obtain ⟨a1, a2, a3, a4, _⟩ := parseHeader_ok wf hp
  have hs := wf.small
  have e12 : add32 c.addr 12 = c.addr + 12 := by unfold add32; omega
  intro h
  unfold verifyV2 at h
  simp only [bind_err, req_err] at h
  rcases h with ⟨_, h⟩ | ⟨_, _, h | ⟨_, _, h | ⟨_, _, h⟩⟩⟩
  · cases h
  · rw [e12] at h
    have inv0 : Inv c v clk ⟨p.2 + 1, p.1.hdr⟩ (c.addr + 12) :=
      ⟨by simp only [a1], a4, by simp only; omega, a2.mono (Nat.le_refl _) (by simp only; omega)⟩
    exact tocs_hang wf fuel inv0 (by simp only [a1]; omega) (by simp only; omega) h
  · exact hashRange_hang h
  · exact finish_hang h

theorem parseHeader_hang {c : Cfg} {v : Env} {st : St} {clk : Nat} : parseHeader c v st clk ≠ .error .hang := by
  intro h
  unfold parseHeader at h
  simp only [bind_err, req_err] at h
  rcases h with h | ⟨_, _, ⟨_, h⟩ | ⟨_, _, ⟨_, h⟩ | ⟨_, _, h | ⟨_, _, h⟩⟩⟩⟩
  · unfold readHeader at h
    simp only [bind_err, req_err] at h
    rcases h with h | ⟨_, _, ⟨_, h⟩ | ⟨_, _, ⟨_, h⟩ | ⟨_, _, h⟩⟩⟩
    · exact flashRead_hang h
    all_goals cases h
  · cases h
  · cases h
  · exact flashRead_hang h
  · cases h

/-! ### The tables of contents of a manifest -/

theorem IsToc.mul {M : Bytes} {o n : Nat} (h : IsToc M o n) : n % 255 = 0 := by
  induction h with
  | root => rfl
  | ext _ _ ih => omega

theorem IsToc.unique {M : Bytes} {o n : Nat} (h : IsToc M o n) : ∀ {o'}, IsToc M o' n → o = o' := by
  induction h with
  | root =>
    intro o' h'
    generalize h0 : (0 : Nat) = z at h'
    cases h' with
    | root => rfl
    | ext => omega
  | @ext o n h1 h2 ih =>
    intro o' h'
    generalize h0 : n + 255 = z at h'
    cases h' with
    | root => omega
    | @ext o2 n2 h3 h4 =>
      have : n2 = n := by omega
      subst this
      rw [ih h3]

theorem IsToc.le_last {M : Bytes} {o n : Nat} (h : IsToc M o n) (hn : ¬ HasExt M o) {o' n' : Nat} (h' : IsToc M o' n') : n' ≤ n := by
  induction h' with
  | root => omega
  | @ext o1 n1 h1 h2 ih =>
    have a := h.mul; have b := h1.mul
    by_cases e : n1 = n
    · subst e
      rw [h.unique h1] at hn
      exact absurd h2 hn
    · omega

theorem IsToc.last_unique {M : Bytes} {o n o' n' : Nat} (h : IsToc M o n) (hn : ¬ HasExt M o) (h' : IsToc M o' n') (hn' : ¬ HasExt M o') :
    n = n' ∧ o = o' := by
  have a := h.le_last hn h'; have b := h'.le_last hn' h
  have e : n = n' := by omega
  subst e
  exact ⟨rfl, h.unique h'⟩

/-! ### Reading a table of contents -/

/-- `next` is the address after the message. -/
def Pos (base : Nat) (t : T) (next : Nat) : Prop := next = (base + t.msg.length) % 2 ^ 32

theorem Pos.grow {v : Env} {base : Nat} {t t' : T} {next a n : Nat} {d : Bytes} (h : Pos base t next) (g : Grown v t t' a n d) :
    Pos base t' (add32 next n) := by
  have := g.length
  unfold Pos add32 at *
  omega

/-- What the search did: it read `n` entries `es`. -/
structure FindOk (q : Query) (k li : Nat) (t : T) (f : T × Nat × Nat × Bytes) (n : Nat) (es : Bytes) : Prop where
  msg : f.1.msg = t.msg ++ es
  len : es.length = 8 * n
  pos : 0 < n
  le : n ≤ k
  index : f.2.2.1 = li + n
  last : f.2.2.2 = window es (8 * (n - 1)) 8
  skipped : ∀ j, j + 1 < n → eType (window es (8 * j) 8) ∉ q.types ∨ eType (window es (8 * j) 8) = 1
  ext : ∀ j, j < n → eType (window es (8 * j) 8) = 1 → li + j = 254

theorem findEntry_ok {v : Env} (wf : v.WF) {st : St} {q : Query} {hc base : Nat} : ∀ (k li : Nat) {t : T} {next : Nat} {e : Bytes}
    {f : T × Nat × Nat × Bytes}, 0 < k → Pos base t next → findEntry v st q hc k li t next e = .ok f →
    Pos base f.1 f.2.1 ∧ ∃ n es, FindOk q k li t f n es := by
  intro k
  induction k with
  | zero => intro li t next e f h0; omega
  | succ k ih =>
    intro li t next e f _ ps h
    unfold findEntry at h
    rw [bind_ok] at h
    obtain ⟨r, h1, h2⟩ := h
    have g := rdHash_ok wf h1
    have ps1 := ps.grow g
    have l8 := g.len
    have single : window r.1 (8 * 0) 8 = r.1 := by rw [Nat.mul_zero, window_self _ _ l8]
    -- going on with the remaining entries
    have cont : (eType r.1 ∉ q.types ∨ eType r.1 = 1) → (eType r.1 = 1 → li = 254) →
        findEntry v st q hc k (li + 1) r.2 (add32 next 8) r.1 = .ok f → Pos base f.1 f.2.1 ∧ ∃ n es, FindOk q (k + 1) li t f n es := by
      intro s1 s2 h3
      by_cases hk : k = 0
      · subst hk
        cases h3
        refine ⟨ps1, 1, r.1, g.msg, by omega, by omega, by omega, rfl, single.symm, by omega, ?_⟩
        intro j hj hj1
        have : j = 0 := by omega
        subst this
        rw [single] at hj1
        exact s2 hj1
      · obtain ⟨p2, n, es, F⟩ := ih (li + 1) (by omega) ps1 h3
        have hhead := window_head8 r.1 es l8
        have hcons := window_cons8 r.1 es l8
        refine ⟨p2, n + 1, r.1 ++ es, by rw [F.msg, g.msg, List.append_assoc], by rw [List.length_append, l8, F.len]; omega, by omega,
          by have := F.le; omega, by rw [F.index]; omega, ?_, ?_, ?_⟩
        · rw [F.last]
          have e : n + 1 - 1 = (n - 1) + 1 := by have := F.pos; omega
          rw [e, hcons]
        · intro j hj
          cases j with
          | zero => rw [hhead]; exact s1
          | succ j => rw [hcons]; exact F.skipped j (by omega)
        · intro j hj hj1
          cases j with
          | zero => rw [hhead] at hj1; have := s2 hj1; omega
          | succ j => rw [hcons] at hj1; have := F.ext j (by omega) hj1; omega
    split at h2
    · rename_i ht
      rw [bind_ok] at h2
      obtain ⟨_, h3, h4⟩ := h2
      rw [req_ok] at h3
      simp only [Bool.and_eq_true, beq_iff_eq] at h3
      exact cont (.inr ht) (fun _ => h3.1.2) h4
    · rename_i ht
      rw [bind_ok] at h2
      obtain ⟨_, h3, h4⟩ := h2
      split at h4
      · cases h4
        refine ⟨ps1, 1, r.1, g.msg, by omega, by omega, by omega, rfl, single.symm, by omega, ?_⟩
        intro j hj hj1
        have : j = 0 := by omega
        subst this
        rw [single] at hj1
        exact absurd hj1 ht
      · rename_i hc'
        exact cont (.inl (by simpa using hc')) (fun h => absurd h ht) h4

theorem firstIndex_ok {q : Query} {global count li : Nat} (h : firstIndex q global count = .ok li) :
    li < count ∧ ((li = q.start - global ∧ q.start - global < count) ∨ (li = 254 ∧ count = 255 ∧ 255 ≤ q.start - global)) := by
  unfold firstIndex at h
  simp only at h
  split at h <;> split at h
  · split at h
    · cases h; omega
    · cases h
  · cases h; omega
  · split at h
    · cases h; omega
    · cases h
  · cases h; omega

/-- What one table of contents gives: `p.msg` is a table with the digest `want`, and the entry that ended the search is its entry `idx`. -/
structure PassOk (c : Cfg) (st : St) (q : Query) (want : Bytes) (global : Nat) (p : Pass) (li idx : Nat) : Prop where
  digest : c.H st.tocType p.msg = want
  len : p.msg.length = tocLength p.h st.tocLen
  head : p.h = tocAt p.msg 0
  entry : p.e = entryAt p.msg 0 idx
  inside : idx < tCount p.h
  from_ : li ≤ idx
  first : firstIndex q global (tCount p.h) = .ok li
  global : p.global = global + idx + 1
  hash : eHashId p.e < tHashCount p.h → p.eh = hashAt p.msg st.tocLen 0 (eHashId p.e)
  type : eType p.e ∈ q.types ∨ eType p.e = 1
  skipped : ∀ j, li ≤ j → j < idx → eType (entryAt p.msg 0 j) ∉ q.types ∨ eType (entryAt p.msg 0 j) = 1
  ext : eType p.e = 1 → idx = 254

theorem tocPass_ok {c : Cfg} {v : Env} (wf : v.WF) {st : St} {q : Query} {clk next global : Nat} {want : Bytes} {p : Pass}
    (hl : st.tocLen ≤ 64) (h : tocPass c v st q clk next want global = .ok p) : ∃ li idx, PassOk c st q want global p li idx := by
  unfold tocPass at h
  simp only [bind_ok, req_ok] at h
  obtain ⟨_, _, hd, h1, _, h2, li, h3, t, h4, f, h5, _, h6, eh, h7, t', h8, _, _, _, h9, h10⟩ := h
  have g1 := rdHash_ok wf h1
  have hx : next < 2 ^ 32 := by
    have := g1.fits; have := wf.small; omega
  have ps0 : Pos next ⟨clk + 1, []⟩ next := by unfold Pos; simp only [List.length_nil]; omega
  have ps1 := ps0.grow g1
  obtain ⟨d2, g2⟩ := hashRange_ok wf h4
  have ps2 := ps1.grow g2
  obtain ⟨f1, f2⟩ := firstIndex_ok h3
  obtain ⟨ps3, n, es, F⟩ := findEntry_ok wf _ _ (by omega) ps2 h5
  have L1 : hd.2.msg.length = 4 := by have := g1.length; simpa using this
  have L2 : t.msg.length = 4 + 8 * li := by have := g2.length; omega
  have L3 : f.1.msg.length = 4 + 8 * li + 8 * n := by rw [F.msg, List.length_append, F.len, L2]
  have m1 : hd.2.msg = hd.1 := by rw [g1.msg]; rfl
  have hc : tCount hd.1 < 256 := u8_lt _ _
  have hhc : tHashCount hd.1 < 256 := u8_lt _ _
  have hle := F.le
  have hpos := F.pos
  -- the hash of the entry
  have A : ∃ d3, eh.1.msg = f.1.msg ++ d3 ∧ Pos next eh.1 eh.2.1 ∧ eh.1.msg.length ≤ tocLength hd.1 st.tocLen ∧
      (eHashId f.2.2.2 < tHashCount hd.1 →
        eh.2.2 = window eh.1.msg (4 + 8 * tCount hd.1 + st.tocLen * eHashId f.2.2.2) st.tocLen ∧
        4 + 8 * tCount hd.1 + st.tocLen * eHashId f.2.2.2 + st.tocLen ≤ eh.1.msg.length) := by
    unfold entryHash at h7
    split at h7
    · rename_i hid
      simp only [bind_ok] at h7
      obtain ⟨t5, k1, r5, k2, k3⟩ := h7
      obtain ⟨d5, g5⟩ := hashRange_ok wf k1
      have ps5 := ps3.grow g5
      have g6 := rdHash_ok wf k2
      have ps6 := ps5.grow g6
      cases k3
      have L5 := g5.length; have L6 := g6.length
      rw [F.index] at L5
      have mm : (tCount hd.1 - (li + n)) * 8 = 8 * tCount hd.1 - 8 * (li + n) := by omega
      have mh : st.tocLen * eHashId f.2.2.2 + st.tocLen ≤ tHashCount hd.1 * st.tocLen := by
        have := Nat.mul_le_mul_left st.tocLen (show eHashId f.2.2.2 + 1 ≤ tHashCount hd.1 from hid)
        rw [Nat.mul_add, Nat.mul_one, Nat.mul_comm st.tocLen (tHashCount hd.1)] at this
        exact this
      have L5' : t5.msg.length = 4 + 8 * tCount hd.1 + st.tocLen * eHashId f.2.2.2 := by
        generalize st.tocLen * eHashId f.2.2.2 = z at *
        omega
      refine ⟨d5 ++ r5.1, by show r5.2.msg = _; rw [g6.msg, g5.msg, List.append_assoc], ps6, ?_, fun _ => ⟨?_, ?_⟩⟩
      · show r5.2.msg.length ≤ _
        unfold tocLength
        generalize st.tocLen * eHashId f.2.2.2 = z at *
        omega
      · show r5.1 = window r5.2.msg _ _
        rw [g6.msg, ← L5', window_last _ _ _ g6.len]
      · show _ ≤ r5.2.msg.length
        omega
    · rename_i hid
      cases h7
      refine ⟨[], by simp, ps3, ?_, fun h => absurd h hid⟩
      simp only [L3]
      unfold tocLength
      omega
  obtain ⟨d3, m3, ps4, b4, hh⟩ := A
  obtain ⟨d8, g8⟩ := hashRange_ok wf h8
  have L8 := g8.length
  have tot : t'.msg.length = tocLength hd.1 st.tocLen := by
    have hlt : tocLength hd.1 st.tocLen < 2 ^ 32 := by
      unfold tocLength
      have : tHashCount hd.1 * st.tocLen ≤ 255 * 64 := Nat.mul_le_mul (by omega) hl
      omega
    rw [L8]
    unfold Pos at ps4
    unfold sub32 add32
    omega
  have hm : t'.msg = [] ++ (hd.1 ++ ((d2 ++ es) ++ (d3 ++ d8))) := by
    rw [g8.msg, m3, F.msg, g2.msg, m1]; simp only [List.append_assoc, List.nil_append]
  have hde : (d2 ++ es).length = 8 * (li + n) := by rw [List.length_append, g2.len, F.len]; omega
  obtain ⟨pt, pe⟩ := parts hm g1.len hde
  simp only [List.length_nil] at pt pe
  have pe2 : ∀ j, li ≤ j → j < li + n → entryAt t'.msg 0 j = window es (8 * (j - li)) 8 := by
    intro j hj1 hj2
    rw [pe j hj2]
    have := window_after d2 es (8 * (j - li)) 8
    rw [g2.len] at this
    rw [← this]; congr 1; omega
  cases h10
  refine ⟨li, li + n - 1, ?_, tot, pt.symm, ?_, ?_, by omega, h3, ?_, ?_, ?_, ?_, ?_⟩
  · simpa using h9
  · rw [pe2 _ (by omega) (by omega)]
    show f.2.2.2 = _
    rw [F.last]; congr 2; omega
  · show li + n - 1 < tCount hd.1
    omega
  · show global + f.2.2.1 = _
    rw [F.index]; omega
  · intro hid
    obtain ⟨k1, k2⟩ := hh hid
    show eh.2.2 = window t'.msg (0 + 4 + 8 * tCount (tocAt t'.msg 0) + st.tocLen * eHashId f.2.2.2) st.tocLen
    rw [pt, g8.msg, Nat.zero_add, window_prefix _ _ _ _ k2]; exact k1
  · simpa using h6
  · intro j hj1 hj2
    rw [pe2 j hj1 (by omega)]
    exact F.skipped (j - li) (by omega)
  · intro h1'
    have := F.ext (n - 1) (by omega) (by rw [← F.last]; exact h1')
    omega

/-- An extension that ends the search has a hash. -/
theorem findEntry_ext {v : Env} {st : St} {q : Query} {hc : Nat} : ∀ (k li : Nat) {t : T} {next : Nat} {e : Bytes}
    {f : T × Nat × Nat × Bytes}, (eType e = 1 → eHashId e < hc) → findEntry v st q hc k li t next e = .ok f →
    eType f.2.2.2 = 1 → eHashId f.2.2.2 < hc := by
  intro k
  induction k with
  | zero => intro li t next e f he h ht; cases h; exact he ht
  | succ k ih =>
    intro li t next e f he h ht
    unfold findEntry at h
    rw [bind_ok] at h
    obtain ⟨r, h1, h2⟩ := h
    split at h2
    · rw [bind_ok] at h2
      obtain ⟨_, h3, h4⟩ := h2
      rw [req_ok] at h3
      simp only [Bool.and_eq_true, decide_eq_true_eq] at h3
      exact ih _ (fun _ => h3.2) h4 ht
    · rename_i hn
      rw [bind_ok] at h2
      obtain ⟨_, h3, h4⟩ := h2
      split at h4
      · cases h4; exact absurd ht hn
      · exact ih _ (fun h => absurd h hn) h4 ht

theorem tocPass_ext {c : Cfg} {v : Env} {st : St} {q : Query} {clk next global : Nat} {want : Bytes} {p : Pass}
    (h : tocPass c v st q clk next want global = .ok p) (ht : eType p.e = 1) (hid : eHashId p.e ≥ tHashCount p.h) : False := by
  unfold tocPass at h
  simp only [bind_ok, req_ok] at h
  obtain ⟨_, _, hd, h1, _, h2, li, h3, t, h4, f, h5, _, h6, eh, h7, t', h8, _, _, _, h9, h10⟩ := h
  cases h10
  have := findEntry_ext _ _ (fun h => absurd h (by decide)) h5 ht
  exact absurd this (by simp only at hid; omega)

/-- A pass over a table whose digest is that of the table at `o` in `M` has read that table. -/
theorem pass_in {c : Cfg} {st : St} {q : Query} {want : Bytes} {global li idx o : Nat} {p : Pass} {M : Bytes}
    (P : PassOk c st q want global p li idx) (he : p.msg = tocBytes M st.tocLen o) :
    p.h = tocAt M o ∧ (∀ j, j < tCount (tocAt M o) → entryAt p.msg 0 j = entryAt M o j) ∧
    (eHashId p.e < tHashCount p.h → p.eh = hashAt M st.tocLen o (eHashId p.e)) := by
  have hh : p.h = tocAt M o := by
    rw [P.head, he]
    unfold tocAt tocBytes
    rw [window_window _ _ _ _ _ (by unfold tocLength; omega), Nat.add_zero]
  refine ⟨hh, ?_, ?_⟩
  · intro j hj
    rw [he]
    unfold entryAt tocBytes
    rw [window_window _ _ _ _ _ (by unfold tocLength; omega)]
    congr 1; omega
  · intro hid
    have ht : tocAt (tocBytes M st.tocLen o) 0 = tocAt M o := by rw [← he, ← P.head, hh]
    rw [P.hash hid, he]
    unfold hashAt
    rw [ht]
    have : st.tocLen * eHashId p.e + st.tocLen ≤ tHashCount (tocAt M o) * st.tocLen := by
      have := Nat.mul_le_mul_left st.tocLen (show eHashId p.e + 1 ≤ tHashCount p.h from hid)
      rw [Nat.mul_add, Nat.mul_one, hh, Nat.mul_comm st.tocLen (tHashCount _)] at this
      exact this
    unfold tocBytes
    rw [window_window]
    · congr 1; omega
    · unfold tocLength; omega

/-- No earlier entry answers the query. -/
def NoneBefore (M : Bytes) (q : Query) (g : Nat) : Prop :=
  ∀ o' n' j, IsToc M o' n' → j < tCount (tocAt M o') → q.start ≤ n' + j → n' + j < g →
    eType (entryAt M o' j) ∉ q.types ∨ eType (entryAt M o' j) = 1

theorem tocLoop_trace {c : Cfg} {v : Env} {st : St} {q : Query} : ∀ (fuel : Nat) {clk next global : Nat} {want : Bytes} {tr : List Bytes}
    {r : Pass × List Bytes}, tocLoop c v st q fuel clk next want global tr = .ok r → ∃ l, r.2 = tr ++ l := by
  intro fuel
  induction fuel with
  | zero => intro clk next global want tr r h; cases h
  | succ fuel ih =>
    intro clk next global want tr r h
    simp only [tocLoop, bind_ok] at h
    obtain ⟨p, h1, h2⟩ := h
    split at h2
    · obtain ⟨l, hl⟩ := ih h2
      exact ⟨[p.msg] ++ l, by rw [hl, List.append_assoc]⟩
    · cases h2; exact ⟨[p.msg], rfl⟩

/-- What the search over all the tables found. -/
structure LoopOk (st : St) (M : Bytes) (q : Query) (p : Pass) (o n i : Nat) : Prop where
  toc : IsToc M o n
  inside : i < tCount (tocAt M o)
  head : p.h = tocAt M o
  entry : p.e = entryAt M o i
  global : p.global = n + i + 1
  type : eType p.e ∈ q.types ∧ eType p.e ≠ 1
  start : q.start ≤ n + i
  hash : eHashId p.e < tHashCount p.h → p.eh = hashAt M st.tocLen o (eHashId p.e)
  first : NoneBefore M q (n + i)

theorem tocLoop_ok {c : Cfg} {v : Env} (wf : v.WF) {st : St} {q : Query} {M : Bytes} (hl : st.tocLen ≤ 64)
    (hon : Honest c st.tocType st.tocLen M) (rem : Remembers st M) (hst : q.start < st.entryCount) :
    ∀ (fuel : Nat) {clk next n o : Nat} {tr : List Bytes} {r : Pass × List Bytes},
    tocLoop c v st q fuel clk next (c.H st.tocType (tocBytes M st.tocLen o)) n tr = .ok r → NoCollision c st.tocType M r.2 →
    IsToc M o n → NoneBefore M q n → ∃ o' n' i, LoopOk st M q r.1 o' n' i := by
  intro fuel
  induction fuel with
  | zero => intro clk next n o tr r h; cases h
  | succ fuel ih =>
    intro clk next n o tr r h nc ht nb
    have htr := h
    simp only [tocLoop, bind_ok] at h
    obtain ⟨p, h1, h2⟩ := h
    obtain ⟨li, idx, P⟩ := tocPass_ok wf hl h1
    have hmem : p.msg ∈ r.2 := by
      split at h2
      · obtain ⟨l, hl⟩ := tocLoop_trace _ h2
        rw [hl]; simp
      · cases h2; simp
    have he : p.msg = tocBytes M st.tocLen o := nc p.msg hmem _ _ P.digest
    obtain ⟨a1, a2, a3⟩ := pass_in P he
    have hin : idx < tCount (tocAt M o) := by rw [← a1]; exact P.inside
    have hent : p.e = entryAt M o idx := by rw [P.entry, a2 idx hin]
    have c256 : tCount (tocAt M o) < 256 := u8_lt _ _
    obtain ⟨f1, f2⟩ := firstIndex_ok P.first
    rw [a1] at f1 f2
    have hfrom := P.from_
    have nb2 : NoneBefore M q (n + idx) := by
      intro o' n' j t1 t2 t3 t4
      by_cases hlt : n' + j < n
      · exact nb o' n' j t1 t2 t3 hlt
      · have b1 := t1.mul; have b2 := ht.mul
        have b3 : tCount (tocAt M o') < 256 := u8_lt _ _
        have e : n' = n := by omega
        subst e
        have : o' = o := t1.unique ht
        subst this
        rw [← a2 j t2]
        exact P.skipped j (by omega) (by omega)
    split at h2
    · rename_i htype
      have i254 := P.ext htype
      subst i254
      have c255 : tCount (tocAt M o) = 255 := by omega
      have hx : HasExt M o := ⟨c255, by rw [← hent]; exact htype⟩
      have hid : eHashId p.e < tHashCount p.h := by
        -- an extension entry always has a hash
        rcases Nat.lt_or_ge (eHashId p.e) (tHashCount p.h) with h | h
        · exact h
        · exfalso
          exact tocPass_ext h1 htype h
      have nx := IsToc.ext ht hx
      have hh := hon.ext o n ht hx
      rw [a3 hid, hent, ← hh, P.global] at h2
      refine ih h2 nc (by have : n + 254 + 1 = n + 255 := by omega
                          rw [this]; exact nx) ?_
      intro o' n' j t1 t2 t3 t4
      by_cases hlt : n' + j < n + 254
      · exact nb2 o' n' j t1 t2 t3 hlt
      · have b1 := t1.mul; have b2 := ht.mul
        have b3 : tCount (tocAt M o') < 256 := u8_lt _ _
        have e : n' = n := by omega
        subst e
        have : o' = o := t1.unique ht
        subst this
        have : j = 254 := by omega
        subst this
        exact .inr hx.2
    · rename_i htype
      cases h2
      refine ⟨o, n, idx, ht, hin, a1, hent, P.global, ?_, ?_, a3, nb2⟩
      · rcases P.type with h | h
        · exact ⟨h, htype⟩
        · exact absurd h htype
      · rcases f2 with ⟨f2, _⟩ | ⟨f2, f3, f4⟩
        · omega
        · exfalso
          have i254 : idx = 254 := by omega
          have hne : ¬ HasExt M o := by
            intro hx
            have := hx.2
            rw [← i254, ← hent] at this
            exact htype this
          obtain ⟨o2, n2, k1, k2, k3⟩ := rem.count
          obtain ⟨e1, e2⟩ := ht.last_unique hne k1 k2
          subst e1; subst e2
          omega

/-- The data that was read and checked is a part of a message with the digest in the table. -/
theorem readData_ok {c : Cfg} {v : Env} (wf : v.WF) {st : St} {p : Pass} {ro len rest : Nat} {d : Bytes × List Bytes} (hle : len ≤ rest)
    (h : readData c v st p ro len rest = .ok d) :
    d.1.length = len ∧ (eHashId p.e < tHashCount p.h → ∃ E, d.2 = [E] ∧ c.H st.tocType E = p.eh ∧ E.length = ro + rest ∧ d.1 = window E ro len) := by
  unfold readData at h
  simp only at h
  split at h
  · simp only [bind_ok, req_ok] at h
    obtain ⟨_, _, t, h1, dd, h2, t', h3, _, _, _, h4, h5⟩ := h
    obtain ⟨d1, g1⟩ := hashRange_ok wf h1
    have g2 := rdHash_ok wf h2
    obtain ⟨d3, g3⟩ := hashRange_ok wf h3
    cases h5
    have m1 : t.msg = d1 := by rw [g1.msg]; rfl
    have L1 := g1.len; have L2 := g2.length; have L3 := g3.length
    rw [m1] at L2
    refine ⟨g2.len, fun _ => ⟨t'.msg, rfl, by simpa using h4, by omega, ?_⟩⟩
    show dd.1 = window t'.msg ro len
    rw [g3.msg, window_prefix _ _ _ _ (by omega), g2.msg, m1]
    have := window_last d1 dd.1 len g2.len
    rw [L1] at this
    exact this.symm
  · rename_i hid
    rw [bind_ok] at h
    obtain ⟨dd, h1, h2⟩ := h
    cases h2
    exact ⟨(flashRead_ok wf h1).2.1, fun h => absurd h hid⟩

theorem deliver_ok {c : Cfg} {v : Env} (wf : v.WF) {st : St} {q : Query} {p : Pass} {tr : List Bytes} {ro : Nat} {dest : Dest} {r : Result}
    (h : deliver c v st q p tr ro dest = .ok r) :
    (eParent p.e = 255 ∨ eParent p.e = q.parent) ∧ r.index = p.global - 1 ∧ r.type = eType p.e ∧ r.format = eFormat p.e ∧ r.total = eLength p.e ∧
    r.hashed = decide (eHashId p.e < tHashCount p.h) ∧ (∃ l, r.trace = tr ++ l) ∧ r.data.length = dest.want (eLength p.e) ro ∧
    (eHashId p.e < tHashCount p.h → r.data = [] ∨ (ro ≤ eLength p.e ∧ ∃ E, E ∈ r.trace ∧ c.H st.tocType E = p.eh ∧ E.length = eLength p.e ∧
      r.data = window E ro (dest.want (eLength p.e) ro))) := by
  unfold deliver at h
  simp only [bind_ok, req_ok] at h
  obtain ⟨_, h0, h⟩ := h
  have h0 : eParent p.e = 255 ∨ eParent p.e = q.parent := by simpa using h0
  split at h
  · rename_i hro
    cases h
    refine ⟨h0, rfl, rfl, rfl, rfl, rfl, ⟨[], by simp⟩, ?_, fun _ => .inl rfl⟩
    unfold Dest.want
    cases dest <;> simp <;> omega
  · rename_i hro
    cases dest with
    | nowhere =>
      simp only at h
      cases h
      exact ⟨h0, rfl, rfl, rfl, rfl, rfl, ⟨[], by simp⟩, rfl, fun _ => .inl rfl⟩
    | alloc a =>
      simp only [bind_ok, req_ok] at h
      obtain ⟨_, _, d, h1, h2⟩ := h
      obtain ⟨k1, k2⟩ := readData_ok wf (Nat.le_refl _) h1
      cases h2
      refine ⟨h0, rfl, rfl, rfl, rfl, rfl, ⟨d.2, rfl⟩, k1, fun hid => .inr ⟨by omega, ?_⟩⟩
      obtain ⟨E, e1, e2, e3, e4⟩ := k2 hid
      have e5 : E.length = eLength p.e := by clear k2; omega
      exact ⟨E, by rw [e1]; simp, e2, e5, e4⟩
    | buffer n =>
      simp only at h
      split at h
      · rename_i hn
        cases h
        exact ⟨h0, rfl, rfl, rfl, rfl, rfl, ⟨[], by simp⟩, by simp [Dest.want, hn], fun _ => .inl rfl⟩
      · simp only [bind_ok] at h
        obtain ⟨d, h1, h2⟩ := h
        obtain ⟨k1, k2⟩ := readData_ok wf (Nat.min_le_right _ _) h1
        cases h2
        refine ⟨h0, rfl, rfl, rfl, rfl, rfl, ⟨d.2, rfl⟩, k1, fun hid => .inr ⟨by omega, ?_⟩⟩
        obtain ⟨E, e1, e2, e3, e4⟩ := k2 hid
        have e5 : E.length = eLength p.e := by clear k2; omega
        exact ⟨E, by rw [e1]; simp, e2, e5, e4⟩

theorem hashLen_le {ty n : Nat} (h : hashLen ty = some n) : n ≤ 64 := by
  unfold hashLen at h
  split at h <;> first | cases h | skip
  all_goals omega

end Verif.ManifestFlash
