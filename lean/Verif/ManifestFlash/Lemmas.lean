import Verif.ManifestFlash.Spec
/-! Proofs about the manifest reader. -/
namespace Verif.ManifestFlash

theorem bind_ok {α β : Type} {x : Except Err α} {f : α → Except Err β} {b : β} :
    (x >>= f) = .ok b ↔ ∃ a, x = .ok a ∧ f a = .ok b := by
  cases x with
  | error e => simp [bind, Except.bind]
  | ok a => simp [bind, Except.bind]

theorem req_ok {c : Bool} {e : Err} {u : Unit} : req c e = .ok u ↔ c = true := by
  unfold req; cases c <;> simp

theorem leNat_bound (b : Bytes) (n : Nat) (h : b.length ≤ n) : leNat b < 256 ^ n :=
  Nat.lt_of_lt_of_le (leNat_lt b) (Nat.pow_le_pow_right (by decide) h)

theorem u8_lt (b : Bytes) (i : Nat) : u8 b i < 256 := by
  have := leNat_bound (window b i 1) 1 (by rw [window_length]; omega)
  simpa [u8] using this

theorem u16_lt (b : Bytes) (i : Nat) : u16 b i < 65536 := by
  have := leNat_bound (window b i 2) 2 (by rw [window_length]; omega)
  simpa [u16] using this

theorem window_prefix {α} (a b : List α) (off len : Nat) (h : off + len ≤ a.length) :
    window (a ++ b) off len = window a off len := by
  rw [window_append]
  have : len - (a.length - off) = 0 := by omega
  rw [this, window_zero_len, List.append_nil]

theorem window_after {α} (a b : List α) (off len : Nat) : window (a ++ b) (a.length + off) len = window b off len := by
  simp [window, List.drop_append, List.drop_eq_nil_of_le (Nat.le_add_right a.length off)]

theorem window_window {α} (l : List α) (a n b m : Nat) (h : b + m ≤ n) : window (window l a n) b m = window l (a + b) m := by
  apply List.ext_getElem?
  intro i
  simp only [window, List.getElem?_take, List.getElem?_drop]
  grind

theorem window_self {α} (l : List α) (n : Nat) (h : l.length = n) : window l 0 n = l := window_all l n (by omega)

theorem getElem?_window {α} (l : List α) (off len i : Nat) : (window l off len)[i]? = if i < len then l[off + i]? else none := by
  simp only [window, List.getElem?_take, List.getElem?_drop]

/-! ### Hashing ranges of the flash -/

/-- `d`, `n` bytes read from `a` on, was added to the message. -/
structure Grown (v : Env) (t t' : T) (a n : Nat) (d : Bytes) : Prop where
  msg : t'.msg = t.msg ++ d
  len : d.length = n
  clk : t.clk ≤ t'.clk
  fits : n = 0 ∨ a + n ≤ v.size
  seen : Seen v t.clk t'.clk a d

theorem Seen.mono {v : Env} {lo hi lo' hi' a : Nat} {m : Bytes} (h : Seen v lo hi a m) (h1 : lo' ≤ lo) (h2 : hi ≤ hi') :
    Seen v lo' hi' a m := by
  intro i b hb
  obtain ⟨τ, h3, h4, h5⟩ := h i b hb
  exact ⟨τ, by omega, by omega, h5⟩

theorem Seen.append {v : Env} {lo hi a : Nat} {m d : Bytes} (h : Seen v lo hi a m) (h' : Seen v lo hi (a + m.length) d) :
    Seen v lo hi a (m ++ d) := by
  intro i b hb
  by_cases hi' : i < m.length
  · rw [List.getElem?_append_left hi'] at hb
    exact h i b hb
  · rw [List.getElem?_append_right (by omega)] at hb
    obtain ⟨τ, h1, h2, h3⟩ := h' _ b hb
    refine ⟨τ, h1, h2, ?_⟩
    rw [← h3]; congr 1; omega

theorem Seen.nil {v : Env} {lo hi a : Nat} : Seen v lo hi a [] := by intro i b hb; simp at hb

theorem flashRead_ok {v : Env} (wf : v.WF) {clk a n : Nat} {r : Bytes × Nat} (h : flashRead v clk a n = .ok r) :
    r.2 = clk + 1 ∧ r.1.length = n ∧ a + n ≤ v.size ∧ Seen v clk (clk + 1) a r.1 := by
  unfold flashRead at h
  split at h
  · cases h
  · split at h
    · rename_i hf hs
      cases h
      have hl := wf.len clk
      refine ⟨rfl, by rw [window_length]; omega, hs, ?_⟩
      intro i b hb
      refine ⟨clk, by omega, by omega, ?_⟩
      simp only [getElem?_window] at hb
      split at hb
      · exact hb
      · cases hb
    · cases h

theorem rdHash_ok {v : Env} (wf : v.WF) {t : T} {a n : Nat} {r : Bytes × T} (h : rdHash v t a n = .ok r) :
    Grown v t r.2 a n r.1 := by
  unfold rdHash at h
  split at h
  · rename_i hn
    cases h
    exact ⟨by simp, by simp [hn], Nat.le_refl _, .inl hn, Seen.nil⟩
  · rw [bind_ok] at h
    obtain ⟨r', h1, h2⟩ := h
    cases h2
    obtain ⟨h3, h4, h5, h6⟩ := flashRead_ok wf h1
    exact ⟨rfl, h4, by simp only [h3]; omega, .inr h5, by rw [h3]; exact h6⟩

theorem Grown.trans {v : Env} {t t' t'' : T} {a n m : Nat} {d d' : Bytes} (h : Grown v t t' a n d) (h' : Grown v t' t'' (a + n) m d') :
    Grown v t t'' a (n + m) (d ++ d') := by
  refine ⟨by rw [h'.msg, h.msg, List.append_assoc], by rw [List.length_append, h.len, h'.len], Nat.le_trans h.clk h'.clk, ?_, ?_⟩
  · have := h.fits; have := h'.fits; omega
  · exact Seen.append (h.seen.mono (Nat.le_refl _) h'.clk) (by rw [h.len]; exact h'.seen.mono h.clk (Nat.le_refl _))

theorem Grown.refl {v : Env} {t : T} {a : Nat} : Grown v t t a 0 [] :=
  ⟨by simp, rfl, Nat.le_refl _, .inl rfl, Seen.nil⟩

theorem hashBlocks_ok {v : Env} (wf : v.WF) : ∀ (fuel : Nat) {t t' : T} {a n : Nat}, n ≤ fuel → hashBlocks v fuel t a n = .ok t' →
    ∃ d, Grown v t t' a n d := by
  intro fuel
  induction fuel with
  | zero =>
    intro t t' a n hn h
    have : n = 0 := by omega
    subst this
    cases h
    exact ⟨[], Grown.refl⟩
  | succ fuel ih =>
    intro t t' a n hn h
    unfold hashBlocks at h
    split at h
    · rename_i h0; subst h0
      cases h
      exact ⟨[], Grown.refl⟩
    · rename_i h0
      rw [bind_ok] at h
      obtain ⟨r, h1, h2⟩ := h
      have g := rdHash_ok wf h1
      have hf : a + min n 256 ≤ v.size := by
        rcases g.fits with h | h
        · omega
        · exact h
      have hs := wf.small
      have ha : add32 a (min n 256) = a + min n 256 := by unfold add32; omega
      rw [ha] at h2
      obtain ⟨d, g2⟩ := ih (by omega) h2
      have g3 := g.trans g2
      have e : min n 256 + (n - min n 256) = n := by omega
      rw [e] at g3
      exact ⟨_, g3⟩

theorem hashRange_ok {v : Env} (wf : v.WF) {t t' : T} {a n : Nat} (h : hashRange v t a n = .ok t') : ∃ d, Grown v t t' a n d :=
  hashBlocks_ok wf n (Nat.le_refl _) h

/-! ### Verification: everything from the start of the manifest on is hashed -/

/-- The message is what was read from the start of the manifest up to `next`. -/
structure Inv (c : Cfg) (v : Env) (lo : Nat) (t : T) (next : Nat) : Prop where
  pos : next = c.addr + t.msg.length
  fits : next ≤ v.size
  clk : lo ≤ t.clk
  seen : Seen v lo t.clk c.addr t.msg

theorem Inv.grow {c : Cfg} {v : Env} (wf : v.WF) {lo : Nat} {t t' : T} {next n : Nat} {d : Bytes} (i : Inv c v lo t next)
    (g : Grown v t t' next n d) : Inv c v lo t' (next + n) ∧ add32 next n = next + n := by
  have := i.pos; have := i.fits; have := g.fits; have := wf.small; have := g.len
  have e : t'.msg.length = t.msg.length + n := by rw [g.msg, List.length_append, g.len]
  refine ⟨⟨by omega, by omega, Nat.le_trans i.clk g.clk, ?_⟩, by unfold add32; omega⟩
  rw [g.msg]
  refine Seen.append (i.seen.mono (Nat.le_refl _) g.clk) ?_
  rw [← i.pos]
  exact g.seen.mono i.clk (Nat.le_refl _)

/-- Hashing up to a place never goes backward. -/
theorem Inv.skip {c : Cfg} {v : Env} (wf : v.WF) {lo : Nat} {t t' : T} {next off : Nat} (i : Inv c v lo t next)
    (h : hashRange v t next (sub32 (add32 c.addr off) next) = .ok t') (ho : off < 2 ^ 32) :
    ∃ d, Grown v t t' next d.length d ∧ Inv c v lo t' (c.addr + off) ∧ add32 c.addr off = c.addr + off ∧ t.msg.length + d.length = off := by
  obtain ⟨d, g⟩ := hashRange_ok wf h
  have h1 := i.pos; have h2 := i.fits; have h3 := g.fits; have h4 := wf.small; have h5 := g.len
  have h6 := i.grow wf g
  have e : add32 c.addr off = c.addr + off ∧ t.msg.length + d.length = off := by
    unfold sub32 add32 at *
    omega
  refine ⟨d, by rw [h5]; exact g, ?_, e.1, e.2⟩
  have : c.addr + off = next + sub32 (add32 c.addr off) next := by omega
  rw [this]; exact h6.1

theorem window_last {α} (a d : List α) (n : Nat) (h : d.length = n) : window (a ++ d) a.length n = d := by
  have := window_after a d 0 n
  rw [Nat.add_zero] at this
  rw [this, window_self d n h]

/-- What the loop over `k` entries found; `es` are their bytes. -/
structure ScanOk (st : St) (i k : Nat) (s s' : Scan) (es : Bytes) : Prop where
  msg : s'.t.msg = s.t.msg ++ es
  len : es.length = 8 * k
  place : ∀ j, j < k → eType (window es (8 * j) 8) = 1 → st.extAllowed = true ∧ i + j = 254
  ext : s'.ext = true ↔ s.ext = true ∨ ∃ j, j < k ∧ eType (window es (8 * j) 8) = 1
  last : 0 < k → s'.last = window es (8 * (k - 1)) 8
  off : 0 < k → s.prevEnd ≤ eOffset s'.last
  first : 0 < k → s.prevEnd ≤ eOffset (window es (8 * 0) 8)
  order : ∀ j, j + 1 < k → eOffset (window es (8 * j) 8) + eLength (window es (8 * j) 8) ≤ eOffset (window es (8 * (j + 1)) 8)
  plat : ∀ p, s'.plat = some p → s.plat = some p ∨ (s.plat = none ∧ ∃ j, j < k ∧ p = window es (8 * j) 8 ∧ eType p = 0 ∧
    ∀ j', j' < j → eType (window es (8 * j') 8) ≠ 0)

theorem window_cons8 (e es : Bytes) (h : e.length = 8) (j : Nat) : window (e ++ es) (8 * (j + 1)) 8 = window es (8 * j) 8 := by
  have := window_after e es (8 * j) 8
  rw [h] at this
  rw [← this]; congr 1; omega

theorem window_head8 (e es : Bytes) (h : e.length = 8) : window (e ++ es) (8 * 0) 8 = e := by
  rw [window_prefix _ _ _ _ (by omega), Nat.mul_zero, window_self _ _ h]

theorem scan_ok {c : Cfg} {v : Env} (wf : v.WF) {lo : Nat} {st : St} {hc : Nat} : ∀ (k i : Nat) {s s' : Scan},
    Inv c v lo s.t s.next → scan v st hc k i s = .ok s' → Inv c v lo s'.t s'.next ∧ ∃ es, ScanOk st i k s s' es := by
  intro k
  induction k with
  | zero =>
    intro i s s' inv h
    cases h
    exact ⟨inv, [], by simp, by simp, by omega, by simp, by omega, by omega, by omega, by omega, fun p hp => .inl hp⟩
  | succ k ih =>
    intro i s s' inv h
    simp only [scan, bind_ok] at h
    obtain ⟨s1, h1, h2⟩ := h
    simp only [scanStep, bind_ok, req_ok] at h1
    obtain ⟨r, hr, _, ho, _, hx, he⟩ := h1
    have g := rdHash_ok wf hr
    obtain ⟨inv1, hn⟩ := inv.grow wf g
    have ho : s.prevEnd ≤ eOffset r.1 := by simpa using ho
    cases he
    rw [hn] at h2
    obtain ⟨inv2, es, k1⟩ := ih (i + 1) inv1 h2
    have l8 := g.len
    have hhead := window_head8 r.1 es l8
    have hcons := window_cons8 r.1 es l8
    refine ⟨inv2, r.1 ++ es, ?_, ?_, ?_, ?_, ?_, ?_, ?_, ?_, ?_⟩
    · rw [k1.msg]; simp only [g.msg, List.append_assoc]
    · rw [List.length_append, l8, k1.len]; omega
    · intro j hj hj1
      cases j with
      | zero =>
        rw [hhead] at hj1
        simp only [hj1] at hx
        simp at hx
        exact ⟨hx.1.1, by omega⟩
      | succ j =>
        rw [hcons] at hj1
        have := k1.place j (by omega) hj1
        exact ⟨this.1, by omega⟩
    · rw [k1.ext]
      simp only [Bool.or_eq_true, beq_iff_eq]
      constructor
      · rintro ((h | h) | ⟨j, h3, h4⟩)
        · exact .inl h
        · exact .inr ⟨0, by omega, by rw [hhead]; exact h⟩
        · exact .inr ⟨j + 1, by omega, by rw [hcons]; exact h4⟩
      · rintro (h | ⟨j, h3, h4⟩)
        · exact .inl (.inl h)
        · cases j with
          | zero => rw [hhead] at h4; exact .inl (.inr h4)
          | succ j => rw [hcons] at h4; exact .inr ⟨j, by omega, h4⟩
    · intro _
      cases k with
      | zero =>
        cases h2
        show r.1 = window (r.1 ++ es) (8 * 0) 8
        rw [hhead]
      | succ k =>
        rw [k1.last (by omega)]
        show window es (8 * k) 8 = window (r.1 ++ es) (8 * (k + 1)) 8
        rw [hcons]
    · intro _
      cases k with
      | zero => cases h2; exact ho
      | succ k =>
        have := k1.off (by omega)
        simp only at this
        omega
    · intro _; rw [hhead]; exact ho
    · intro j hj
      cases j with
      | zero => rw [hhead, hcons]; exact k1.first (by omega)
      | succ j => rw [hcons, hcons]; exact k1.order j (by omega)
    · intro p hp
      rcases k1.plat p hp with h | ⟨h, j, h3, h4, h5, h6⟩
      · simp only at h
        split at h
        · rename_i hc'
          cases h
          exact .inr ⟨hc'.2, 0, by omega, by rw [hhead], hc'.1, by omega⟩
        · exact .inl h
      · simp only at h
        split at h
        · cases h
        · rename_i hc'
          refine .inr ⟨h, j + 1, by omega, by rw [hcons]; exact h4, h5, ?_⟩
          intro j' hj'
          cases j' with
          | zero =>
            rw [hhead]
            intro e0; exact hc' ⟨e0, h⟩
          | succ j' => rw [hcons]; exact h6 j' (by omega)

theorem u8_window (l : Bytes) (a n i : Nat) (h : i + 1 ≤ n) : u8 (window l a n) i = u8 l (a + i) := by
  unfold u8; rw [window_window _ _ _ _ _ h]

theorem Grown.length {v : Env} {t t' : T} {a n : Nat} {d : Bytes} (g : Grown v t t' a n d) : t'.msg.length = t.msg.length + n := by
  rw [g.msg, List.length_append, g.len]

/-- What `rootPart` adds to the message and to the state. -/
structure RootOk (st st' : St) (o : Nat) (m : Bytes) (p : Bytes) : Prop where
  root : st'.rootHash = window m o st.tocLen
  id : st'.platformId = window m (eOffset p + 4) (u8 m (eOffset p))
  inside : eOffset p + 4 + u8 m (eOffset p) ≤ m.length
  before : o + st.tocLen ≤ eOffset p
  same : st' = { st with rootHash := st'.rootHash, platformId := st'.platformId }

theorem rootPart_ok {c : Cfg} {v : Env} (wf : v.WF) {lo : Nat} {st : St} {t : T} {next : Nat} {plat : Option Bytes}
    {r : St × T × Nat} (inv : Inv c v lo t next) (h : rootPart c v st t next plat = .ok r) :
    ∃ p d, plat = some p ∧ r.2.1.msg = t.msg ++ d ∧ Inv c v lo r.2.1 r.2.2 ∧ RootOk st r.1 t.msg.length r.2.1.msg p := by
  unfold rootPart at h
  cases plat with
  | none => cases h
  | some p =>
    simp only [bind_ok, req_ok] at h
    obtain ⟨rh, h1, t2, h2, ph, h3, _, _, id, h4, h5⟩ := h
    have g1 := rdHash_ok wf h1
    obtain ⟨inv1, e1⟩ := inv.grow wf g1
    rw [e1] at h2
    obtain ⟨d2, g2, inv2, e2, l2⟩ := inv1.skip wf h2 (by have := u16_lt p 4; unfold eOffset; omega)
    rw [e2] at h3 h4 h5
    have g3 := rdHash_ok wf h3
    obtain ⟨inv3, e3⟩ := inv2.grow wf g3
    rw [e3] at h4 h5
    have g4 := rdHash_ok wf h4
    obtain ⟨inv4, e4⟩ := inv3.grow wf g4
    rw [e4] at h5
    cases h5
    have L1 := g1.length; have L2 := g2.length; have L3 := g3.length; have L4 := g4.length
    have ew : window id.2.msg (eOffset p) 4 = ph.1 := by
      rw [g4.msg, window_prefix _ _ _ _ (by omega), g3.msg]
      have := window_last t2.msg ph.1 4 g3.len
      have hh : t2.msg.length = eOffset p := by omega
      rw [hh] at this
      exact this
    have e8 : u8 ph.1 0 = u8 id.2.msg (eOffset p) := by rw [← ew, u8_window _ _ _ _ (by omega), Nat.add_zero]
    refine ⟨p, rh.1 ++ d2 ++ ph.1 ++ id.1, rfl, ?_, inv4, ?_, ?_, ?_, ?_, rfl⟩
    · show id.2.msg = _
      rw [g4.msg, g3.msg, g2.msg, g1.msg]; simp only [List.append_assoc]
    · show rh.1 = window id.2.msg t.msg.length st.tocLen
      rw [g4.msg, window_prefix _ _ _ _ (by omega), g3.msg, window_prefix _ _ _ _ (by omega), g2.msg,
        window_prefix _ _ _ _ (by omega), g1.msg, window_last _ _ _ g1.len]
    · show id.1 = window id.2.msg (eOffset p + 4) (u8 id.2.msg (eOffset p))
      have := window_last ph.2.msg id.1 _ g4.len
      have hh : ph.2.msg.length = eOffset p + 4 := by omega
      rw [hh] at this
      rw [← e8, g4.msg]; exact this.symm
    · show eOffset p + 4 + u8 id.2.msg (eOffset p) ≤ id.2.msg.length
      rw [← e8]; omega
    · omega

/-- What the header of a table of contents does to the state. -/
theorem checkToc_ok {c : Cfg} {st st' : St} {ext : Option Bytes} {h : Bytes} (hc : checkToc c st ext h = .ok st') :
    tCount h ≠ 0 ∧ st' = { st with tocType := st'.tocType, tocLen := st'.tocLen, entryCount := st.entryCount + tCount h } ∧
    (ext = none → st'.tocType = tHash h ∧ hashLen (tHash h) = some st'.tocLen) ∧
    (ext ≠ none → st'.tocType = st.tocType ∧ st'.tocLen = st.tocLen) := by
  unfold checkToc at hc
  simp only [bind_ok, req_ok] at hc
  obtain ⟨_, h0, hc⟩ := hc
  have h0 : tCount h ≠ 0 := by simpa using h0
  cases ext with
  | none =>
    simp only [bind_ok, req_ok] at hc
    obtain ⟨_, h1, h2⟩ := hc
    cases h2
    simp only [Bool.and_eq_true] at h1
    refine ⟨h0, rfl, fun _ => ⟨rfl, ?_⟩, fun h => absurd rfl h⟩
    obtain ⟨n, hn⟩ := Option.isSome_iff_exists.mp h1.2
    rw [hn]; rfl
  | some e =>
    simp only [bind_ok, req_ok] at hc
    obtain ⟨_, h1, _, h3, h2⟩ := hc
    cases h2
    exact ⟨h0, rfl, fun h => (nomatch h), fun _ => ⟨rfl, rfl⟩⟩

/-- One table of contents at offset `o`, seen in the message `m` after it has been handled. -/
structure OneOk (st st' : St) (ext ext' : Option Bytes) (o : Nat) (m : Bytes) : Prop where
  inside : o + tocLength (tocAt m o) st'.tocLen ≤ m.length
  nonempty : tCount (tocAt m o) ≠ 0
  count : st'.entryCount = st.entryCount + tCount (tocAt m o)
  sameHdr : st'.hdr = st.hdr ∧ st'.sig = st.sig ∧ st'.extAllowed = st.extAllowed
  sameExt : ext ≠ none → st'.tocType = st.tocType ∧ st'.tocLen = st.tocLen ∧ st'.rootHash = st.rootHash ∧ st'.platformId = st.platformId
  noExt : ext' = none → ¬ HasExt m o
  isExt : ∀ e, ext' = some e → HasExt m o ∧ e = entryAt m o 254 ∧ m.length = eOffset e ∧ o < eOffset e
  first : o + tocLength (tocAt m o) st'.tocLen + (if ext = none then st'.tocLen else 0) ≤ eOffset (entryAt m o 0)
  order : ∀ i, i + 1 < tCount (tocAt m o) → eOffset (entryAt m o i) + eLength (entryAt m o i) ≤ eOffset (entryAt m o (i + 1))
  hash : ext = none → st'.tocType = tHash (tocAt m o) ∧ hashLen st'.tocType = some st'.tocLen
  root : ext = none → ∃ s1 i, i < tCount (tocAt m o) ∧ eType (entryAt m o i) = 0 ∧ (∀ j, j < i → eType (entryAt m o j) ≠ 0) ∧
    s1.tocLen = st'.tocLen ∧
    o + tocLength (tocAt m o) st'.tocLen + st'.tocLen ≤ m.length ∧
    RootOk s1 st' (o + tocLength (tocAt m o) st'.tocLen) m (entryAt m o i)

theorem parts {m a h es rest : Bytes} {k : Nat} (hm : m = a ++ (h ++ (es ++ rest))) (hh : h.length = 4) (he : es.length = 8 * k) :
    tocAt m a.length = h ∧ ∀ i, i < k → entryAt m a.length i = window es (8 * i) 8 := by
  subst hm
  constructor
  · unfold tocAt
    have := window_after a (h ++ (es ++ rest)) 0 4
    rw [Nat.add_zero] at this
    rw [this, window_prefix _ _ _ _ (by omega), window_self _ _ hh]
  · intro i hi
    unfold entryAt
    have := window_after a (h ++ (es ++ rest)) (4 + 8 * i) 8
    have e : a.length + 4 + 8 * i = a.length + (4 + 8 * i) := by omega
    rw [e, this]
    have := window_after h (es ++ rest) (8 * i) 8
    rw [hh] at this
    rw [this, window_prefix _ _ _ _ (by omega)]

theorem oneToc_ok {c : Cfg} {v : Env} (wf : v.WF) {lo : Nat} {st : St} {ext : Option Bytes} {t : T} {next : Nat}
    {r : St × T × Nat × Option Bytes} (inv : Inv c v lo t next) (h : oneToc c v st ext t next = .ok r) :
    (∃ d, r.2.1.msg = t.msg ++ d) ∧ Inv c v lo r.2.1 r.2.2.1 ∧ OneOk st r.1 ext r.2.2.2 t.msg.length r.2.1.msg := by
  unfold oneToc at h
  simp only [bind_ok] at h
  obtain ⟨hd, h1, st1, h2, s, h3, t2, h4, r2, h5, h6⟩ := h
  have g1 := rdHash_ok wf h1
  obtain ⟨inv1, e1⟩ := inv.grow wf g1
  rw [e1] at h3
  obtain ⟨c1, c2, c3, c4⟩ := checkToc_ok h2
  obtain ⟨inv2, es, sk⟩ := scan_ok wf (c := c) (lo := lo) _ _ inv1 h3
  obtain ⟨d4, g4⟩ := hashRange_ok wf h4
  obtain ⟨inv4, e4⟩ := inv2.grow wf g4
  rw [e4] at h5
  have L1 := g1.length; have L4 := g4.length
  have L2 : s.t.msg.length = hd.2.msg.length + 8 * tCount hd.1 := by rw [sk.msg, List.length_append, sk.len]
  have hc256 : tCount hd.1 < 256 := u8_lt _ _
  -- the root part
  have R : ∃ d, r2.2.1.msg = t2.msg ++ d ∧ Inv c v lo r2.2.1 r2.2.2 ∧
      (ext = none → ∃ p, s.plat = some p ∧ RootOk st1 r2.1 t2.msg.length r2.2.1.msg p) ∧ (ext ≠ none → r2.1 = st1) := by
    by_cases he : ext = none
    · rw [maybeRoot, if_pos he] at h5
      obtain ⟨p, d, k1, k2, k3, k4⟩ := rootPart_ok wf inv4 h5
      exact ⟨d, k2, k3, fun _ => ⟨p, k1, k4⟩, fun h => absurd he h⟩
    · rw [maybeRoot, if_neg he] at h5
      cases h5
      exact ⟨[], by simp, inv4, fun h => absurd h he, fun _ => rfl⟩
  obtain ⟨d5, m5, inv5, root5, ext5⟩ := R
  -- the way to the extension
  have X : ∃ d, r.2.1.msg = r2.2.1.msg ++ d ∧ Inv c v lo r.2.1 r.2.2.1 ∧ r.1 = r2.1 ∧
      ((s.ext = false ∧ r.2.2.2 = none) ∨ (s.ext = true ∧ r.2.2.2 = some s.last ∧ r.2.1.msg.length = eOffset s.last)) := by
    by_cases hx : s.ext = true
    · rw [toExt, if_pos hx] at h6
      simp only [bind_ok] at h6
      obtain ⟨t6, h7, h8⟩ := h6
      obtain ⟨d6, g6, inv6, e6, l6⟩ := inv5.skip wf h7 (by have := u16_lt s.last 4; unfold eOffset; omega)
      cases h8
      rw [e6]
      exact ⟨d6, g6.msg, inv6, rfl, .inr ⟨hx, rfl, by have := g6.length; simp only; omega⟩⟩
    · rw [toExt, if_neg hx] at h6
      cases h6
      exact ⟨[], by simp, inv5, rfl, .inl ⟨by simpa using hx, rfl⟩⟩
  obtain ⟨d6, m6, inv6, e6, x6⟩ := X
  -- the message
  have hm : r.2.1.msg = t.msg ++ (hd.1 ++ (es ++ (d4 ++ d5 ++ d6))) := by
    rw [m6, m5, g4.msg, sk.msg]
    show hd.2.msg ++ es ++ d4 ++ d5 ++ d6 = _
    rw [g1.msg]; simp only [List.append_assoc]
  obtain ⟨pt, pe⟩ := parts hm g1.len sk.len
  have len6 : r.2.1.msg.length = t2.msg.length + d5.length + d6.length := by
    rw [m6, m5]; simp only [List.length_append]
  have st1Len : r2.1.tocLen = st1.tocLen := by
    by_cases he : ext = none
    · obtain ⟨p, _, k⟩ := root5 he
      rw [k.same]
    · rw [ext5 he]
  have base : t.msg.length + tocLength (tocAt r.2.1.msg t.msg.length) st1.tocLen = t2.msg.length := by
    rw [pt]; unfold tocLength
    have : tHashCount hd.1 * st1.tocLen = st1.tocLen * tHashCount hd.1 := Nat.mul_comm _ _
    omega
  have keep : r2.1.hdr = st.hdr ∧ r2.1.sig = st.sig ∧ r2.1.extAllowed = st.extAllowed ∧ r2.1.entryCount = st.entryCount + tCount hd.1 ∧
      r2.1.tocType = st1.tocType := by
    by_cases he : ext = none
    · obtain ⟨p, _, k⟩ := root5 he
      rw [k.same, c2]; exact ⟨rfl, rfl, rfl, rfl, rfl⟩
    · rw [ext5 he, c2]; exact ⟨rfl, rfl, rfl, rfl, rfl⟩
  have allowed := keep.2.2.1
  refine ⟨⟨_, hm⟩, inv6, ?_⟩
  rw [e6]
  constructor
  · rw [st1Len]; omega
  · rw [pt]; exact c1
  · rw [pt]; exact keep.2.2.2.1
  · exact ⟨keep.1, keep.2.1, keep.2.2.1⟩
  · intro he
    have := c4 he
    rw [ext5 he]
    refine ⟨this.1, this.2, ?_, ?_⟩ <;> rw [c2]
  · intro hn hx
    rcases x6 with ⟨x, _⟩ | ⟨_, y, _⟩
    · have : s.ext = true := by
        rw [sk.ext]
        refine .inr ⟨254, ?_, ?_⟩
        · have := hx.1; rw [pt] at this; omega
        · rw [← pe 254 (by have := hx.1; rw [pt] at this; omega)]; exact hx.2
      rw [x] at this; cases this
    · rw [hn] at y; cases y
  · intro e he
    rcases x6 with ⟨_, y⟩ | ⟨x, y, z⟩
    · rw [he] at y; cases y
    · rw [he] at y; cases y
      rw [sk.ext] at x
      rcases x with x | ⟨j, hj, hj1⟩
      · cases x
      · have hp := sk.place j hj hj1
        have hk : tCount hd.1 = 255 := by omega
        have hl : s.last = window es (8 * 254) 8 := by rw [sk.last (by omega), hk]
        have hj' : j = 254 := by omega
        subst hj'
        refine ⟨⟨by rw [pt]; exact hk, by rw [pe 254 hj]; exact hj1⟩, by rw [pe 254 hj]; exact hl, z, ?_⟩
        have ho := sk.off (by omega)
        have hp := inv1.pos
        have hf := inv1.fits
        have hs := wf.small
        simp only at ho
        have : sub32 (next + 4) c.addr = t.msg.length + 4 := by unfold sub32; omega
        omega
  · have ho := sk.first (by omega)
    have hp := inv1.pos
    have hf := inv1.fits
    have hs := wf.small
    simp only at ho
    have e4 : sub32 (next + 4) c.addr = t.msg.length + 4 := by unfold sub32; omega
    rw [e4] at ho
    rw [pe 0 (by omega), st1Len, base]
    have : tHashCount hd.1 * st1.tocLen = st1.tocLen * tHashCount hd.1 := Nat.mul_comm _ _
    omega
  · intro i hi
    rw [pt] at hi
    rw [pe i (by omega), pe (i + 1) hi]
    exact sk.order i hi
  · intro he
    have := c3 he
    refine ⟨by rw [pt, keep.2.2.2.2]; exact this.1, ?_⟩
    rw [keep.2.2.2.2, st1Len, this.1]; exact this.2
  · intro he
    obtain ⟨p, hp, k⟩ := root5 he
    rcases sk.plat p hp with h' | ⟨_, j, h7, h8, h9, h10⟩
    · cases h'
    · have hb := k.before; have hi := k.inside
      have e1 : ∀ off len, off + len ≤ r2.2.1.msg.length → window r.2.1.msg off len = window r2.2.1.msg off len := by
        intro off len h; rw [m6, window_prefix _ _ _ _ h]
      have e2 : u8 r.2.1.msg (eOffset p) = u8 r2.2.1.msg (eOffset p) := by
        unfold u8; rw [e1 _ _ (by omega)]
      have lb := len6
      have lb2 : r2.2.1.msg.length ≤ r.2.1.msg.length := by rw [m6, List.length_append]; omega
      refine ⟨st1, j, by rw [pt]; exact h7, by rw [pe j h7, ← h8]; exact h9, fun j' hj' => by rw [pe j' (by omega)]; exact h10 j' hj',
        st1Len.symm, by rw [st1Len]; omega, ?_⟩
      rw [pe j h7, ← h8, st1Len, base]
      refine ⟨?_, ?_, ?_, hb, k.same⟩
      · rw [e1 _ _ (by omega)]; exact k.root
      · rw [e2, e1 _ _ (by omega)]; exact k.id
      · rw [e2]; omega

theorem tocAt_prefix {m x : Bytes} {o : Nat} (h : o + 4 ≤ m.length) : tocAt (m ++ x) o = tocAt m o := window_prefix _ _ _ _ h

theorem entryAt_prefix {m x : Bytes} {o i : Nat} (h : o + 4 + 8 * i + 8 ≤ m.length) : entryAt (m ++ x) o i = entryAt m o i :=
  window_prefix _ _ _ _ h

theorem hasExt_prefix {m x : Bytes} {o hl : Nat} (h : o + tocLength (tocAt m o) hl ≤ m.length) : HasExt (m ++ x) o ↔ HasExt m o := by
  unfold tocLength at h
  unfold HasExt
  rw [tocAt_prefix (by omega)]
  constructor
  · intro ⟨h1, h2⟩
    rw [entryAt_prefix (by omega)] at h2
    exact ⟨h1, h2⟩
  · intro ⟨h1, h2⟩
    rw [entryAt_prefix (by omega)]
    exact ⟨h1, h2⟩

/-- `o'` is reached from `o` by references to further tables. -/
inductive Chain (M : Bytes) : Nat → Nat → Prop
  | refl (o) : Chain M o o
  | step {o o'} : HasExt M o → Chain M (eOffset (entryAt M o 254)) o' → Chain M o o'

theorem Chain.snoc {M : Bytes} {o o' : Nat} (h : Chain M o o') (hx : HasExt M o') : Chain M o (eOffset (entryAt M o' 254)) := by
  induction h with
  | refl o => exact .step hx (.refl _)
  | step h1 _ ih => exact .step h1 (ih hx)

theorem IsToc.chain {M : Bytes} {o n : Nat} (h : IsToc M o n) : Chain M 12 o := by
  induction h with
  | root => exact .refl _
  | ext _ hx ih => exact ih.snoc hx

theorem OneOk.laid {st st' : St} {ext ext' : Option Bytes} {o : Nat} {m : Bytes} (ok : OneOk st st' ext ext' o m) (he : ext = none ↔ o = 12)
    (x : Bytes) : Laid (m ++ x) st'.tocLen o := by
  have hin := ok.inside
  have h4 : o + 4 + 8 * tCount (tocAt m o) ≤ m.length := by unfold tocLength at hin; omega
  have ht : tocAt (m ++ x) o = tocAt m o := tocAt_prefix (by omega)
  have hn := ok.nonempty
  refine ⟨by rw [ht]; exact hn, ?_, ?_⟩
  · have := ok.first
    rw [ht, entryAt_prefix (by omega)]
    by_cases h12 : o = 12
    · rw [if_pos (he.mpr h12)] at this; rw [if_pos h12]; exact this
    · rw [if_neg (fun k => h12 (he.mp k))] at this; rw [if_neg h12]; exact this
  · intro i hi
    rw [ht] at hi
    rw [entryAt_prefix (by omega), entryAt_prefix (by omega)]
    exact ok.order i hi

/-- What the loop over the tables of contents does, from a table at offset `o` on. -/
structure TocsOk (st st' : St) (ext : Option Bytes) (o : Nat) (m : Bytes) : Prop where
  same : st'.hdr = st.hdr ∧ st'.sig = st.sig ∧ st'.extAllowed = st.extAllowed
  sameExt : ext ≠ none → st'.tocType = st.tocType ∧ st'.tocLen = st.tocLen ∧ st'.rootHash = st.rootHash ∧ st'.platformId = st.platformId
  count : ∀ x, IsToc (m ++ x) o st.entryCount →
    ∃ o' n', IsToc (m ++ x) o' n' ∧ ¬ HasExt (m ++ x) o' ∧ st'.entryCount = n' + tCount (tocAt (m ++ x) o')
  laid : ∀ x, 12 ≤ o → (ext = none ↔ o = 12) → ∀ o', Chain (m ++ x) o o' → Laid (m ++ x) st'.tocLen o'

theorem tocs_ok {c : Cfg} {v : Env} (wf : v.WF) {lo : Nat} : ∀ (fuel : Nat) {st : St} {ext : Option Bytes} {t : T} {next : Nat}
    {r : St × T × Nat}, Inv c v lo t next → tocs c v fuel st ext t next = .ok r →
    (∃ d, r.2.1.msg = t.msg ++ d) ∧ Inv c v lo r.2.1 r.2.2 ∧ TocsOk st r.1 ext t.msg.length r.2.1.msg := by
  intro fuel
  induction fuel with
  | zero => intro st ext t next r _ h; cases h
  | succ fuel ih =>
    intro st ext t next r inv h
    simp only [tocs, bind_ok] at h
    obtain ⟨r1, h1, h2⟩ := h
    obtain ⟨⟨d, hd⟩, inv1, ok⟩ := oneToc_ok wf inv h1
    cases hx : r1.2.2.2 with
    | none =>
      simp only [hx] at h2
      cases h2
      refine ⟨⟨d, hd⟩, inv1, ok.sameHdr, ok.sameExt, ?_, ?_⟩
      case refine_2 =>
        intro x _ he o' hc
        cases hc with
        | refl => exact ok.laid he x
        | step hx' _ => exact absurd ((hasExt_prefix ok.inside).mp hx') (ok.noExt hx)
      intro x hi
      have hin := ok.inside
      refine ⟨_, _, hi, ?_, ?_⟩
      · rw [hasExt_prefix hin]; exact ok.noExt hx
      · have h4 : t.msg.length + 4 ≤ r1.2.1.msg.length := by unfold tocLength at hin; omega
        rw [tocAt_prefix h4]; exact ok.count
    | some e =>
      simp only [hx] at h2
      obtain ⟨k1, k2, k3, k4⟩ := ok.isExt e hx
      obtain ⟨⟨d2, hd2⟩, inv2, ok2⟩ := ih inv1 h2
      refine ⟨⟨d ++ d2, by rw [hd2, hd, List.append_assoc]⟩, inv2, ?_, ?_, ?_, ?_⟩
      · have a := ok.sameHdr; have b := ok2.same
        exact ⟨b.1.trans a.1, b.2.1.trans a.2.1, b.2.2.trans a.2.2⟩
      · intro he
        have a := ok.sameExt he; have b := ok2.sameExt (by simp)
        exact ⟨b.1.trans a.1, b.2.1.trans a.2.1, b.2.2.1.trans a.2.2.1, b.2.2.2.trans a.2.2.2⟩
      · intro x hi
        have hin := ok.inside
        have hin' : t.msg.length + 4 ≤ r1.2.1.msg.length := by unfold tocLength at hin; omega
        apply ok2.count x
        have hx' : HasExt (r.2.1.msg ++ x) t.msg.length := by
          rw [hd2, List.append_assoc, hasExt_prefix hin]; exact k1
        have := IsToc.ext hi hx'
        have e1 : entryAt (r.2.1.msg ++ x) t.msg.length 254 = e := by
          rw [hd2, List.append_assoc, entryAt_prefix, k2]
          have := k1.1
          unfold tocLength at hin
          omega
        rw [e1, ← k3] at this
        rw [ok.count, k1.1]
        exact this
      · intro x h12 he o' hc
        have hin := ok.inside
        cases hc with
        | refl =>
          have := ok.laid he (d2 ++ x)
          rw [(ok2.sameExt (by simp)).2.1, hd2, List.append_assoc]; exact this
        | step hx' hc' =>
          have e1 : entryAt (r.2.1.msg ++ x) t.msg.length 254 = e := by
            rw [hd2, List.append_assoc, entryAt_prefix, k2]
            have := k1.1
            unfold tocLength at hin
            omega
          rw [e1, ← k3] at hc'
          exact ok2.laid x (by omega) ⟨fun h => (nomatch h), fun h => by omega⟩ o' hc'

/-- The root table and what follows from it. -/
theorem tocs_root {c : Cfg} {v : Env} (wf : v.WF) {lo fuel : Nat} {st : St} {t : T} {next : Nat}
    {r : St × T × Nat} (inv : Inv c v lo t next) (h12 : t.msg.length = 12) (h0 : st.entryCount = 0)
    (h : tocs c v fuel st none t next = .ok r) (x : Bytes) : Remembers r.1 (r.2.1.msg ++ x) := by
  obtain ⟨_, _, all⟩ := tocs_ok wf fuel inv h
  have cnt := all.count x (by rw [h12, h0]; exact IsToc.root)
  cases fuel with
  | zero => cases h
  | succ fuel =>
    simp only [tocs, bind_ok] at h
    obtain ⟨r1, h1, h2⟩ := h
    obtain ⟨⟨d, hd⟩, inv1, ok⟩ := oneToc_ok wf inv h1
    rw [h12] at ok
    have key : (∃ d2, r.2.1.msg = r1.2.1.msg ++ d2) ∧ r.1.tocType = r1.1.tocType ∧ r.1.tocLen = r1.1.tocLen ∧ r.1.rootHash = r1.1.rootHash ∧
        r.1.platformId = r1.1.platformId := by
      cases hx : r1.2.2.2 with
      | none => simp only [hx] at h2; cases h2; exact ⟨⟨[], by simp⟩, rfl, rfl, rfl, rfl⟩
      | some e =>
        simp only [hx] at h2
        obtain ⟨⟨d2, hd2⟩, inv2, ok2⟩ := tocs_ok wf fuel inv1 h2
        exact ⟨⟨d2, hd2⟩, ok2.sameExt (by simp)⟩
    obtain ⟨⟨d2, hd2⟩, e1, e2, e3, e4⟩ := key
    obtain ⟨s1, i, i1, i2, i3, i4, i5, R⟩ := ok.root rfl
    have hk := ok.hash rfl
    have hb := R.before; have hi := R.inside; have hin := ok.inside
    have W : ∀ off len, off + len ≤ r1.2.1.msg.length → window (r.2.1.msg ++ x) off len = window r1.2.1.msg off len := by
      intro off len hl; rw [hd2, List.append_assoc, window_prefix _ _ _ _ hl]
    have T12 : tocAt (r.2.1.msg ++ x) 12 = tocAt r1.2.1.msg 12 := W _ _ (by unfold tocLength at hin; omega)
    have E : ∀ j, j < tCount (tocAt r1.2.1.msg 12) → entryAt (r.2.1.msg ++ x) 12 j = entryAt r1.2.1.msg 12 j := by
      intro j hj; exact W _ _ (by unfold tocLength at hin; omega)
    constructor
    · rw [e1, T12]; exact hk.1
    · rw [e1, e2]; exact hk.2
    · rw [e3, e2, T12, R.root, W _ _ (by omega), i4]
    · exact cnt
    · refine ⟨i, by rw [T12]; exact i1, by rw [E i i1]; exact i2, fun j hj => by rw [E j (by omega)]; exact i3 j hj, ?_⟩
      have u : u8 (r.2.1.msg ++ x) (eOffset (entryAt r1.2.1.msg 12 i)) = u8 r1.2.1.msg (eOffset (entryAt r1.2.1.msg 12 i)) := by
        unfold u8; rw [W _ _ (by omega)]
      rw [E i i1, e4, R.id, u, W _ _ (by omega)]
    · intro o n ho
      exact all.laid x (by omega) ⟨fun _ => h12, fun _ => rfl⟩ o (by rw [h12]; exact ho.chain)

/-! ### The whole verification -/

theorem parseHeader_ok {c : Cfg} {v : Env} (wf : v.WF) {st : St} {clk : Nat} {p : St × Nat} (h : parseHeader c v st clk = .ok p) :
    p.1.hdr.length = 12 ∧ Seen v clk p.2 c.addr p.1.hdr ∧ clk ≤ p.2 ∧ c.addr + 12 ≤ v.size ∧
    12 ≤ hLength p.1.hdr ∧ hSigLength p.1.hdr ≤ hLength p.1.hdr - 12 ∧
    p.1.sig.length = hSigLength p.1.hdr ∧ Seen v clk p.2 (sigAddr c p.1.hdr) p.1.sig := by
  unfold parseHeader at h
  simp only [bind_ok, req_ok] at h
  obtain ⟨r, h1, _, h2, _, h3, s, h4, h5⟩ := h
  unfold readHeader at h1
  simp only [bind_ok, req_ok] at h1
  obtain ⟨r', k1, _, k2, _, k3, k4⟩ := h1
  cases k4
  obtain ⟨a1, a2, a3, a4⟩ := flashRead_ok wf k1
  obtain ⟨b1, b2, b3, b4⟩ := flashRead_ok wf h4
  cases h5
  simp only [Bool.and_eq_true, decide_eq_true_eq] at k3
  exact ⟨a2, a4.mono (Nat.le_refl _) (by simp only [b1]; omega), by simp only [b1]; omega, a3, k3.1, k3.2, b2,
    b4.mono (by omega) (by simp only [b1]; omega)⟩

theorem finish_ok {c : Cfg} {v : Env} {st st' : St} {t : T} (h : finish c v st t = .ok st') :
    st' = { st with digest := c.H (hSigHash st.hdr) t.msg } ∧ c.sigOk (c.H (hSigHash st.hdr) t.msg) st.sig = true := by
  unfold finish at h
  simp only [bind_ok, req_ok] at h
  obtain ⟨_, _, _, _, _, h3, h4⟩ := h
  cases h4
  exact ⟨rfl, h3⟩

theorem sigAddr_eq {c : Cfg} {v : Env} (wf : v.WF) {h : Bytes} (h1 : c.addr + 12 ≤ v.size) (h2 : 12 ≤ hLength h) (h3 : hSigLength h ≤ hLength h - 12) :
    sigAddr c h = add32 c.addr (hLength h - hSigLength h) := by
  have := wf.small
  have : hLength h < 65536 := u16_lt _ _
  unfold sigAddr sub32 add32
  omega

/-- The manifest up to the signature has been hashed: what is left to show for `Signed`. -/
theorem signed_of {c : Cfg} {v : Env} {lo clk clk' : Nat} {st st' : St} {t : T} {next : Nat} (inv : Inv c v lo t next)
    (hlo : clk ≤ lo) (hn : t.msg.length + hSigLength st.hdr = hLength st.hdr) (hh : t.msg.take 12 = st.hdr) (hs : st.sig.length = hSigLength st.hdr)
    (hss : Seen v clk clk' (c.addr + t.msg.length) st.sig) (hf : finish c v st t = .ok st') :
    Signed c v clk st' t.msg := by
  obtain ⟨e, ok⟩ := finish_ok hf
  subst e
  exact ⟨⟨hn, ⟨_, inv.seen.mono hlo (Nat.le_refl _)⟩, hs, ⟨_, hss⟩, rfl, ok⟩, hh⟩

theorem verifyV2_ok {c : Cfg} {v : Env} (wf : v.WF) {st0 : St} {clk fuel : Nat} {p : St × Nat} {st' : St}
    (hp : parseHeader c v st0 clk = .ok p) (h : verifyV2 c v p.1 p.2 fuel = .ok st') :
    ∃ m, Signed c v clk st' m ∧ Remembers st' m := by
  obtain ⟨a1, a2, a3, a4, a5, a6, a7, a8⟩ := parseHeader_ok wf hp
  unfold verifyV2 at h
  simp only [bind_ok, req_ok] at h
  obtain ⟨_, _, r, h1, t, h2, h3⟩ := h
  have hs := wf.small
  have e12 : add32 c.addr 12 = c.addr + 12 := by unfold add32; omega
  rw [e12] at h1
  have inv0 : Inv c v clk ⟨p.2 + 1, p.1.hdr⟩ (c.addr + 12) :=
    ⟨by simp only [a1], a4, by simp only; omega, a2.mono (Nat.le_refl _) (by simp only; omega)⟩
  obtain ⟨⟨d, hd⟩, inv1, ok⟩ := tocs_ok wf fuel inv0 h1
  have hdr : r.1.hdr = p.1.hdr := ok.same.1
  have sig : r.1.sig = p.1.sig := ok.same.2.1
  rw [hdr, sigAddr_eq wf a4 a5 a6] at h2
  have hlt : hLength p.1.hdr < 65536 := u16_lt _ _
  obtain ⟨d2, g2, inv2, e2, l2⟩ := inv1.skip wf h2 (by omega)
  have hlen := g2.length
  refine ⟨t.msg, ?_, ?_⟩
  · apply signed_of inv2 (Nat.le_refl _) (clk' := p.2) _ _ _ _ h3
    · rw [hdr]; omega
    · rw [g2.msg, hd, hdr, List.append_assoc, List.take_append_of_le_length (by simp only [a1]; omega), List.take_of_length_le (by simp only [a1]; omega)]
    · rw [hdr, sig]; exact a7
    · have e : sigAddr c p.1.hdr = c.addr + t.msg.length := by
        rw [sigAddr_eq wf a4 a5 a6, e2]; omega
      rw [sig, ← e]; exact a8
  · obtain ⟨e, _⟩ := finish_ok h3
    have R := tocs_root wf inv0 a1 rfl h1 d2
    rw [← g2.msg] at R
    subst e
    exact ⟨R.type, R.len, R.root, R.count, R.platform, R.laid⟩

theorem verifyV1_ok {c : Cfg} {v : Env} (wf : v.WF) {st0 : St} {clk : Nat} {p : St × Nat} {st' : St}
    (hp : parseHeader c v st0 clk = .ok p) (h : verifyV1 c v p.1 p.2 = .ok st') :
    ∃ m, Covered c v clk st' m ∧ st'.hdr.length = 12 ∧ ∃ hi, Seen v clk hi c.addr st'.hdr := by
  obtain ⟨a1, a2, a3, a4, a5, a6, a7, a8⟩ := parseHeader_ok wf hp
  unfold verifyV1 at h
  simp only [bind_ok, req_ok] at h
  obtain ⟨_, _, t, h1, h3⟩ := h
  have hs := wf.small
  obtain ⟨d, g⟩ := hashRange_ok wf h1
  obtain ⟨e, ok⟩ := finish_ok h3
  subst e
  have hm : t.msg = d := by rw [g.msg]; rfl
  have hf := g.fits
  have hl : t.msg.length = hLength p.1.hdr - hSigLength p.1.hdr := by rw [hm, g.len]
  refine ⟨t.msg, ⟨by simp only; omega, ⟨t.clk, ?_⟩, a7, ⟨p.2, ?_⟩, rfl, ok⟩, a1, ⟨_, a2⟩⟩
  · rw [hm]; exact g.seen.mono (by simp only; omega) (Nat.le_refl _)
  · have e : sigAddr c p.1.hdr = c.addr + t.msg.length := by
      rw [sigAddr_eq wf a4 a5 a6, hl]; unfold add32; omega
    rw [← e]; exact a8

end Verif.ManifestFlash
