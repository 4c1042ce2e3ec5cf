import Verif.Pcr.Spec
import Verif.BufferUtil.Props
/-! Helper lemmas for the PCR properties. -/
namespace Verif.Pcr
open BufferUtil

theorem at'_lt {b : Bank} {i : Nat} (h : i < b.list.length) : at' b i = .ok b.list[i] := by
  unfold at'; rw [List.getElem?_eq_getElem h]

theorem readBytes_eq (s : Bytes) (off len : Nat) : readBytes s off len = window s off len := by
  unfold readBytes window
  split
  · rename_i h
    rcases h with h | h | h
    · rw [List.length_eq_zero_iff] at h; subst h; simp
    · subst h; simp
    · rw [List.drop_eq_nil_of_le (by omega)]; simp
  · unfold copyFrom
    split
    · rw [show len - (s.length - off) = 0 by omega]; simp
    · rw [Nat.sub_self, List.take_of_length_le (by simp), List.take_of_length_le (by simp; omega)]; simp

theorem window_ge {α} (l : List α) (off len : Nat) (h : l.length ≤ off) : window l off len = [] := by
  simp [window, List.drop_eq_nil_of_le h]

theorem readPart_eq (incl : Bool) (src : Bytes) (off len : Nat) (x : Bytes) :
    let p := if incl then src else []
    let r := readPart incl src off len
    r.1 = window p off len ∧ r.2.1 = off - p.length ∧ r.2.2.1 = len - (p.length - off) ∧ r.2.2.2 = p.length ∧
    window (p ++ x) off len = r.1 ++ window x r.2.1 r.2.2.1 := by
  intro p r
  have key : r.1 = window p off len ∧ r.2.1 = off - p.length ∧ r.2.2.1 = len - (p.length - off) ∧ r.2.2.2 = p.length := by
    simp only [r, p]
    unfold readPart
    cases incl
    · simp [window_nil]
    · simp only [if_true]
      split
      · refine ⟨readBytes_eq .., ?_, ?_, rfl⟩
        · simp only; omega
        · simp only [readBytes_eq, window_length]; omega
      · refine ⟨(window_ge _ _ _ (by omega)).symm, rfl, ?_, rfl⟩
        simp only; omega
  obtain ⟨h1, h2, h3, h4⟩ := key
  exact ⟨h1, h2, h3, h4, by rw [window_append, h1, h2, h3]⟩

theorem readSource_eq {fail : Bool} {d : Data} {x : Bytes} (h : Denotes fail d x) (hx : x.length < 2 ^ 32) (off len : Nat) (ho : off < 2 ^ 32) :
    Out fail (readSource d off len) (window x off len, x.length) := by
  cases d with
  | value b => cases h; exact .inl (by simp only [readSource, readBytes_eq])
  | memory b => cases h; exact .inl (by simp only [readSource, readBytes_eq])
  | callback get hh =>
    rcases h.1 off len with e | ⟨f, e⟩
    · exact .inl (by simp only [readSource, e])
    · exact .inr ⟨f, .callback, by simp only [readSource, e]⟩
  | flash rd addr n =>
    obtain ⟨hl, hp, ha, hr⟩ := h
    subst hl
    unfold readSource
    have e1 : (x.length + sizeMod - 1) % sizeMod = x.length - 1 := by simp only [sizeMod]; omega
    simp only [e1]
    by_cases c : off > x.length - 1
    · rw [if_pos c]; exact .inl (by rw [window_ge _ _ _ (by omega)])
    · rw [if_neg c]
      have e2 : (x.length + sizeMod - off) % sizeMod = x.length - off := by simp only [sizeMod]; omega
      have e3 : (addr + off) % sizeMod = addr + off := Nat.mod_eq_of_lt (by simp only [sizeMod]; omega)
      have e4 : (if x.length - off > len then len else x.length - off) = min len (x.length - off) := by split <;> omega
      rw [e2, e3, e4]
      have e5 : window x off (min len (x.length - off)) = window x off len := by
        simp only [window]
        rw [← List.take_take, List.take_of_length_le (i := x.length - off) (by simp)]
      rcases hr (addr + off) (min len (x.length - off)) (by omega) (by omega) with e | ⟨f, e⟩
      · rw [Nat.add_sub_cancel_left, e5] at e
        exact .inl (by rw [e])
      · exact .inr ⟨f, _, by rw [e]⟩

theorem readData_eq {fail : Bool} {m : Meas} {s : Bytes} (h : Raw fail m s) (off len : Nat) (ho : off < 2 ^ 32) :
    Out fail (readData m off len) (window s off len, s.length) := by
  obtain ⟨hs, h⟩ := h
  unfold readData
  cases hd : m.data with
  | none =>
    rw [hd] at h
    simp only at h ⊢
    subst h; exact .inl (by simp [window_nil])
  | some d =>
    rw [hd] at h
    obtain ⟨x, hx, rfl⟩ := h
    simp only [List.length_append] at hs
    obtain ⟨a1, a2, a3, a4, a5⟩ := readPart_eq m.isEvent (toLE 4 m.event) off len ((if m.isVersion then [m.version] else []) ++ x)
    obtain ⟨b1, b2, b3, b4, b5⟩ := readPart_eq m.isVersion [m.version] (readPart m.isEvent (toLE 4 m.event) off len).2.1
      (readPart m.isEvent (toLE 4 m.event) off len).2.2.1 x
    simp only
    rcases readSource_eq hx (by omega) (readPart m.isVersion [m.version] (readPart m.isEvent (toLE 4 m.event) off len).2.1
      (readPart m.isEvent (toLE 4 m.event) off len).2.2.1).2.1 (readPart m.isVersion [m.version] (readPart m.isEvent (toLE 4 m.event) off len).2.1
      (readPart m.isEvent (toLE 4 m.event) off len).2.2.1).2.2.1 (by rw [b2, a2]; omega) with e | ⟨f, er, e⟩
    · refine .inl ?_
      rw [e]
      simp only
      rw [a4, b4, Nat.mod_eq_of_lt (by simp only [sizeMod]; omega)]
      rw [List.append_assoc (if m.isEvent = true then toLE 4 m.event else []), a5, b5, List.append_assoc]
      simp only [List.length_append, Nat.add_assoc]
    · exact .inr ⟨f, er, by rw [e]⟩

theorem feedSource_eq {fail : Bool} {d : Data} {x : Bytes} (h : Denotes fail d x) :
    Out fail (feedSource d) x ∨ feedSource d = .err .noHashCallback := by
  cases d with
  | value b => cases h; exact .inl (.inl rfl)
  | memory b => cases h; exact .inl (.inl rfl)
  | flash rd addr n =>
    obtain ⟨hl, _, _, hr⟩ := h
    subst hl
    have hw := hr addr x.length (Nat.le_refl _) (Nat.le_refl _)
    rw [Nat.sub_self, window_all _ _ (Nat.le_refl _)] at hw
    rcases hw with e | ⟨f, e⟩
    · exact .inl (.inl (by simp only [feedSource, e]))
    · exact .inl (.inr ⟨f, .flash, by simp only [feedSource, e]⟩)
  | callback get hh =>
    cases hh with
    | none => exact .inr rfl
    | some v =>
      cases v with
      | none => exact .inl (.inr ⟨h.2, _, rfl⟩)
      | some v => have := h.2; simp only at this; subst this; exact .inl (.inl rfl)

/-! ### TCG log -/

theorem tcgEntry_length (pcr : Nat) (a : Algo) (m : Meas) (n : Nat) (h : m.digest.length = a.len) :
    (tcgEntry pcr a m n).length = tcgEntryLen a := by
  simp only [tcgEntry, List.length_append, toLE_length, h, tcgEntryLen]

theorem tcgLoop_eq {fail : Bool} (pcr : Nat) (a : Algo) (ms : List Meas) : ∀ (ss : List Bytes) (off len : Nat),
    AllRaw fail ms ss → (∀ m ∈ ms, m.digest.length = a.len) → off < 2 ^ 32 →
    (∃ total, tcgLoop pcr a ms off len = .ok (window (bankEvents pcr a (ms.zip ss)) off len, total) ∧
      (0 < len → (bankEvents pcr a (ms.zip ss)).length ≤ off → total = (bankEvents pcr a (ms.zip ss)).length)) ∨
    (fail = true ∧ ∃ e, tcgLoop pcr a ms off len = .err e) := by
  induction ms with
  | nil =>
    intro ss off len h hd ho
    exact .inl ⟨0, by simp [tcgLoop, bankEvents, window_nil], by simp [bankEvents]⟩
  | cons m ms ih =>
    intro ss off len h hd ho
    cases ss with
    | nil => exact h.elim
    | cons s ss =>
    obtain ⟨hr, hrest⟩ := h
    have hrs := hr.1
    have hel := tcgEntry_length pcr a m s.length (hd m (by simp))
    have hL : bankEvents pcr a ((m :: ms).zip (s :: ss)) = tcgEntry pcr a m s.length ++ (s ++ bankEvents pcr a (ms.zip ss)) := by
      simp [bankEvents, tcgEventOf, tcgEntry]
    rw [hL]
    generalize hLr : bankEvents pcr a (ms.zip ss) = L at ih ⊢
    unfold tcgLoop
    by_cases c : len = 0
    · rw [if_pos c]; subst c
      exact .inl ⟨0, by rw [window_zero_len], by omega⟩
    · rw [if_neg c]
      simp only
      generalize hE : (if off ≥ tcgEntryLen a then 0 else min (tcgEntryLen a - off) len) = elen
      generalize hO : (if off ≥ tcgEntryLen a then off - tcgEntryLen a else 0) = off1
      have hE' : elen = min len (tcgEntryLen a - off) := by rw [← hE]; split <;> omega
      have hO' : off1 = off - tcgEntryLen a := by rw [← hO]; split <;> omega
      rcases readData_eq hr off1 (len - elen) (by omega) with e | ⟨f, er, e⟩
      · rw [e]
        simp only
        generalize hQ : (if (window s off1 (len - elen)).length > 0 then 0 else (off1 + sizeMod - s.length) % sizeMod) = off2
        have hdl : (window s off1 (len - elen)).length = min (len - elen) (s.length - off1) := window_length ..
        have hq : off2 < 2 ^ 32 ∧ (0 < len - elen → off2 = off1 - s.length) := by
          rw [← hQ, hdl]
          split
          · exact ⟨by omega, fun _ => by omega⟩
          · refine ⟨Nat.mod_lt _ (by simp [sizeMod]), fun _ => ?_⟩
            simp only [sizeMod]; omega
        have hw : window (tcgEntry pcr a m s.length ++ (s ++ L)) off len =
            ((tcgEntry pcr a m s.length).drop off).take elen ++ window s off1 (len - elen) ++
              window L off2 (len - elen - (window s off1 (len - elen)).length) := by
          rw [window_append, window_append, hel, ← List.append_assoc]
          congr 1
          · congr 1
            · rw [hE']
              simp only [window]
              rw [← List.take_take, List.take_of_length_le (i := tcgEntryLen a - off) (by simp [hel])]
            · rw [hO', hE']
              congr 1; omega
          · rw [hdl]
            by_cases z : 0 < len - elen
            · rw [hq.2 z, hO']
              congr 1; omega
            · have z1 : len - elen - min (len - elen) (s.length - off1) = 0 := by omega
              have z2 : len - (tcgEntryLen a - off) - (s.length - (off - tcgEntryLen a)) = 0 := by omega
              rw [z1, z2, window_zero_len, window_zero_len]
        rcases ih ss off2 (len - elen - (window s off1 (len - elen)).length) hrest (fun x hx => hd x (by simp [hx])) hq.1 with ⟨t, e2, ht⟩ | ⟨f, er, e2⟩
        · rw [hLr] at e2 ht
          refine .inl ⟨(tcgEntryLen a + s.length + t) % sizeMod, by rw [e2, hw], ?_⟩
          intro _ hge
          simp only [List.length_append, hel] at hge ⊢
          have : t = L.length := ht (by rw [hdl]; omega) (by rw [hq.2 (by omega)]; omega)
          rw [this, Nat.mod_eq_of_lt (by simp only [sizeMod]; omega)]; omega
        · exact .inr ⟨f, er, by rw [e2]⟩
      · exact .inr ⟨f, er, by rw [e]⟩

theorem tcgLog_eq {fail : Bool} (pcr : Nat) (b : Bank) (ss : List Bytes) (off len : Nat) (h : AllRaw fail b.list ss) (hw : WF b) (ho : off < 2 ^ 32) :
    (∃ total, tcgLog b pcr off len = .ok (window (bankLog pcr b ss) off len, total) ∧
      (0 < len → (bankLog pcr b ss).length ≤ off → total = (bankLog pcr b ss).length)) ∨
    (fail = true ∧ ∃ e, tcgLog b pcr off len = .err e) := by
  unfold tcgLog bankLog
  cases b.explicit
  · exact tcgLoop_eq pcr b.algo b.list ss off len h hw.digest ho
  · exact .inl ⟨0, by simp [window_nil], by simp⟩

theorem storeTcgLoop_eq {fail : Bool} (st : List Bank) : ∀ (rs : List (List Bytes)) (i off len : Nat), StoreRaw fail st rs → (∀ b ∈ st, WF b) →
    off < 2 ^ 32 → Out fail (storeTcgLoop st i off len) (window (banksLog i st rs) off len) := by
  induction st with
  | nil =>
    intro rs i off len h _ _
    refine .inl ?_
    cases rs <;> simp [storeTcgLoop, banksLog, window_nil]
  | cons b bs ih =>
    intro rs i off len h hw ho
    cases rs with
    | nil => exact h.elim
    | cons r rs =>
    obtain ⟨h1, h2⟩ := h
    unfold storeTcgLoop banksLog
    by_cases c : len = 0
    · rw [if_pos c]; subst c; exact .inl (by rw [window_zero_len])
    · rw [if_neg c]
      rcases tcgLog_eq i b r off len h1 (hw b (by simp)) ho with ⟨t, e, ht⟩ | ⟨f, er, e⟩
      · rw [e]
        simp only
        generalize hB : bankLog i b r = B at ht ⊢
        have hl : (window B off len).length = min len (B.length - off) := window_length ..
        generalize hQ : (if (window B off len).length = 0 then (off + sizeMod - t) % sizeMod else 0) = off2
        have hq : off2 = off - B.length := by
          rw [← hQ]
          split
          · rename_i z
            rw [ht (by omega) (by omega)]
            simp only [sizeMod]; omega
          · omega
        have hlen : len - (window B off len).length = len - (B.length - off) := by omega
        rcases ih rs (i + 1) off2 (len - (window B off len).length) h2 (fun x hx => hw x (by simp [hx])) (by omega) with e2 | ⟨f, er, e2⟩
        · refine .inl ?_
          rw [e2]
          simp only
          rw [window_append, hq, hlen]
        · exact .inr ⟨f, er, by rw [e2]⟩
      · exact .inr ⟨f, er, by rw [e]⟩

theorem foldl_addAlgo (l : List Algo) : ∀ acc : List Algo, l.foldl addAlgo acc = acc ++ (l.filter (fun a => !acc.contains a)).eraseDups := by
  induction l with
  | nil => intro acc; simp
  | cons a l ih =>
    intro acc
    rw [List.foldl_cons, ih]
    unfold addAlgo
    by_cases c : a ∈ acc
    · rw [if_pos c, List.filter_cons_of_neg (by simp [c])]
    · rw [if_neg c, List.filter_cons_of_pos (by simp [c]), List.eraseDups_cons, List.append_assoc, List.singleton_append, List.filter_filter]
      congr 3
      apply List.filter_congr
      intro x _
      simp only [List.contains_eq_mem, List.mem_append, List.mem_singleton]
      by_cases h1 : x ∈ acc <;> by_cases h2 : x = a <;> simp [h1, h2]

theorem tcgHeader_eq (st : List Bank) : tcgHeader st = specHeader st := by
  have e : st.foldl (fun l b => addAlgo l b.algo) [] = (st.map (·.algo)).eraseDups := by
    have := foldl_addAlgo (st.map (·.algo)) []
    rw [List.foldl_map] at this
    rw [this]
    simp only [List.nil_append]
    rw [List.filter_eq_self.mpr (by simp)]
  unfold tcgHeader specHeader
  simp only [e]
  have : "Spec ID Event03".toUTF8.data.toList = [0x53, 0x70, 0x65, 0x63, 0x20, 0x49, 0x44, 0x20, 0x45, 0x76, 0x65, 0x6e, 0x74, 0x30, 0x33] := by
    decide +kernel
  rw [this]
  simp

/-! ### Chains and the attestation log -/

theorem computeLoop_full (h : Bytes → Bytes) (ms : List Meas) : ∀ (prev : Bytes) (fail : Option Nat), (∀ n, fail = some n → ms.length ≤ n) →
    (computeLoop h ms prev fail).2 = some (extend h prev (ms.map (·.digest))) ∧
    ∀ i : Nat, (computeLoop h ms prev fail).1[i]? = ms[i]?.map fun m => { m with measurement := extend h prev ((ms.take (i + 1)).map (·.digest)) } := by
  induction ms with
  | nil => intro prev fail _; exact ⟨rfl, fun i => by simp [computeLoop]⟩
  | cons m ms ih =>
    intro prev fail hf
    have hn : fail ≠ some 0 := by rintro rfl; have := hf 0 rfl; simp at this
    unfold computeLoop
    rw [if_neg hn]
    simp only
    obtain ⟨h1, h2⟩ := ih (h (prev ++ m.digest)) (fail.map (· - 1)) (by
      intro n hn'
      cases fail with
      | none => simp at hn'
      | some k => have := hf k rfl; simp at hn' this; omega)
    refine ⟨by rw [h1]; rfl, ?_⟩
    intro i
    cases i with
    | zero => simp [extend]
    | succ i => simp only [List.getElem?_cons_succ, h2 i, List.take_succ_cons, List.map_cons]; rfl

theorem computeLoop_fails (h : Bytes → Bytes) (ms : List Meas) : ∀ (prev : Bytes) (n : Nat), n < ms.length →
    (computeLoop h ms prev (some n)).2 = none := by
  induction ms with
  | nil => intro prev n hn; simp at hn
  | cons m ms ih =>
    intro prev n hn
    unfold computeLoop
    cases n with
    | zero => simp
    | succ n =>
      rw [if_neg (by simp)]
      exact ih _ n (by simpa using hn)

/-- Everything but the intermediate values. -/
def Meas.forget (m : Meas) : Meas := { m with measurement := [] }

theorem computeLoop_forget (h : Bytes → Bytes) (ms : List Meas) : ∀ (prev : Bytes) (fail : Option Nat),
    (computeLoop h ms prev fail).1.map Meas.forget = ms.map Meas.forget := by
  induction ms with
  | nil => intro _ _; rfl
  | cons m ms ih =>
    intro prev fail
    unfold computeLoop
    by_cases c : fail = some 0
    · rw [if_pos c]
    · rw [if_neg c]; simp only [List.map_cons, ih]; rfl

theorem attEntry_eq (id pcr i : Nat) (a : Algo) (m : Meas) : attEntry id pcr i a m = entryOf id pcr i a m.event m.digest m.measurement := by
  unfold attEntry entryOf attEntryLen
  have : 7 + 14 + a.len + 4 + a.len = 25 + 2 * a.len := by omega
  rw [this]; rfl

theorem attBank_eq (pcr : Nat) (a : Algo) (ms : List Meas) : ∀ (i id : Nat) (c : Cursor),
    let L := (ms.mapIdx fun j m => attEntry (id + j) pcr (i + j) a m).flatten
    let r := attBank pcr a ms i id c
    r.2.out = c.out ++ window L c.offset c.destLength ∧
    r.2.destLength = c.destLength - (L.length - c.offset) ∧
    (0 < r.2.destLength → r.1 = id + ms.length ∧ r.2.offset = c.offset - L.length) := by
  induction ms with
  | nil => intro i id c; simp [attBank, window_nil]
  | cons m ms ih =>
    intro i id c L r
    obtain ⟨h1, h2, h3, _⟩ := bufferCopy_spec (attEntry id pcr i a m) c
    have hL : L = attEntry id pcr i a m ++ (ms.mapIdx fun j m => attEntry (id + 1 + j) pcr (i + 1 + j) a m).flatten := by
      simp only [L, List.mapIdx_cons, List.flatten_cons, Nat.add_zero]
      congr 3
      funext j m
      rw [Nat.add_assoc, Nat.add_assoc, Nat.add_comm 1 j]
    have hr : r = attBank pcr a (m :: ms) i id c := rfl
    unfold attBank at hr
    by_cases z : c.destLength = 0
    · rw [if_pos z] at hr
      rw [hr]
      simp only
      rw [z, window_zero_len]
      exact ⟨by simp, by omega, by omega⟩
    · rw [if_neg z] at hr
      obtain ⟨g1, g2, g3⟩ := ih (i + 1) (id + 1) (bufferCopy (attEntry id pcr i a m) c).2
      rw [← hr] at g1 g2 g3
      rw [hL]
      generalize (ms.mapIdx fun j m => attEntry (id + 1 + j) pcr (i + 1 + j) a m).flatten = R at g1 g2 g3 ⊢
      rw [h1, h2, h3] at g1
      rw [h2, h3] at g2
      rw [h3] at g3
      refine ⟨by rw [g1, window_append, List.append_assoc], by rw [g2, List.length_append]; omega, ?_⟩
      intro p
      obtain ⟨k1, k2⟩ := g3 p
      exact ⟨by rw [k1, List.length_cons]; omega, by rw [k2, List.length_append]; omega⟩

/-- A bank up to the intermediate values. -/
def Bank.forget (b : Bank) : Bank := { b with list := b.list.map Meas.forget }

theorem compute_forget (H : Hash) (f : Option Nat) (b : Bank) (n : Option Nat) : (compute H f b n).1.forget = b.forget := by
  unfold compute
  split
  · rfl
  · split
    · split <;> rfl
    · simp only [Bank.forget, computeLoop_forget]

theorem forget_list {b b' : Bank} (h : b'.forget = b.forget) :
    b'.algo = b.algo ∧ b'.explicit = b.explicit ∧ b'.list.length = b.list.length ∧ b'.list.map (·.digest) = b.list.map (·.digest) ∧
    b'.list.map (·.event) = b.list.map (·.event) := by
  have h1 : b'.list.map Meas.forget = b.list.map Meas.forget := congrArg Bank.list h
  have key : ∀ {α} (f : Meas → α), (∀ m, f m.forget = f m) → b'.list.map f = b.list.map f := by
    intro α f hf
    have := congrArg (List.map f) h1
    simpa only [List.map_map, Function.comp_def, hf] using this
  have ha : b'.forget.algo = b.forget.algo := by rw [h]
  have hx : b'.forget.explicit = b.forget.explicit := by rw [h]
  exact ⟨ha, hx, by simpa using congrArg List.length h1, key _ fun _ => rfl, key _ fun _ => rfl⟩

theorem forget_entries {H : Hash} {b b' : Bank} (h : b'.forget = b.forget) (pcr id : Nat) : bankEntries H pcr id b' = bankEntries H pcr id b := by
  obtain ⟨h1, h2, h3, h4, h5⟩ := forget_list h
  unfold bankEntries
  rw [h2]
  split
  · rfl
  · apply List.ext_getElem?
    intro i
    have e1 := congrArg (·[i]?) h4
    have e2 := congrArg (·[i]?) h5
    simp only [List.getElem?_map] at e1 e2
    have e3 : valueAfter H b' (i + 1) = valueAfter H b (i + 1) := by
      unfold valueAfter; rw [h1, List.map_take, List.map_take, h4]
    simp only [List.getElem?_mapIdx, e3, h1]
    cases g : b.list[i]? <;> cases g' : b'.list[i]? <;> simp_all

theorem forget_storeEntries {H : Hash} (st : List Bank) : ∀ (st' : List Bank) (pcr id : Nat), st'.map Bank.forget = st.map Bank.forget →
    storeEntries H pcr id st' = storeEntries H pcr id st := by
  induction st with
  | nil => intro st' pcr id h; simp at h; rw [h]
  | cons b bs ih =>
    intro st' pcr id h
    cases st' with
    | nil => simp at h
    | cons b' bs' =>
      simp only [List.map_cons, List.cons.injEq] at h
      unfold storeEntries
      rw [forget_entries h.1, ih bs' _ _ h.2]

theorem num_zero {b : Bank} (h : WF b) : num b = 0 ↔ b.explicit = true := by
  unfold num
  have := h.pos
  split
  · simp [*]
  · constructor
    · intro e; omega
    · intro e; contradiction

theorem attLoop_eq (H : Hash) (st : List Bank) : ∀ (fails : List (Option Nat)) (pcr id : Nat) (c : Cursor), (∀ b ∈ st, WF b) →
    (attLoop H st fails pcr id c).1.map Bank.forget = st.map Bank.forget ∧
    ((attLoop H st fails pcr id c).2 = .ok (c.out ++ window (storeEntries H pcr id st).flatten c.offset c.destLength) ∨
      ((∃ f ∈ fails, f ≠ none) ∧ (attLoop H st fails pcr id c).2 = .err .hash)) := by
  induction st with
  | nil => intro fails pcr id c _; simp [attLoop, storeEntries, window_nil]
  | cons b bs ih =>
    intro fails pcr id c hw
    have hb := hw b (by simp)
    have hbs : ∀ x ∈ bs, WF x := fun x hx => hw x (by simp [hx])
    unfold attLoop
    by_cases z : c.destLength = 0
    · rw [if_pos z]
      exact ⟨rfl, .inl (by rw [z, window_zero_len, List.append_nil])⟩
    · rw [if_neg z]
      have tailfail : (∃ f ∈ fails.tail, f ≠ none) → ∃ f ∈ fails, f ≠ none := fun ⟨f, h1, h2⟩ => ⟨f, List.mem_of_mem_tail h1, h2⟩
      by_cases n : num b = 0
      · rw [if_pos n]
        have he : b.explicit = true := (num_zero hb).mp n
        have hn : bankEntries H pcr id b = [] := by unfold bankEntries; rw [if_pos he]
        obtain ⟨g1, g2⟩ := ih fails.tail (pcr + 1) id c hbs
        refine ⟨by simp only [List.map_cons, g1], ?_⟩
        unfold storeEntries
        rw [hn, List.nil_append, List.length_nil, Nat.add_zero]
        exact g2.imp (fun h => h) fun h => ⟨tailfail h.1, h.2⟩
      · rw [if_neg n]
        have he : b.explicit = false := by
          cases h : b.explicit
          · rfl
          · exact absurd ((num_zero hb).mpr h) n
        have hf := compute_forget H (fails.headD none) b none
        have hc : compute H (fails.headD none) b none =
            ({ b with list := (computeLoop (H (.sha2 b.algo)) b.list (List.replicate b.algo.len 0) (fails.headD none)).1 },
              match (computeLoop (H (.sha2 b.algo)) b.list (List.replicate b.algo.len 0) (fails.headD none)).2 with
              | some v => .ok v
              | none => .err .hash) := by
          unfold compute
          rw [if_neg (by simp), he]
          rfl
        by_cases full : ∀ k, fails.headD none = some k → b.list.length ≤ k
        · obtain ⟨l1, l2⟩ := computeLoop_full (H (.sha2 b.algo)) b.list (List.replicate b.algo.len 0) (fails.headD none) full
          rw [l1] at hc
          rw [hc] at hf ⊢
          generalize (computeLoop (H (.sha2 b.algo)) b.list (List.replicate b.algo.len 0) (fails.headD none)).1 = l' at hf l2 ⊢
          simp only
          obtain ⟨p1, p2, p3⟩ := attBank_eq pcr b.algo l' 0 id c
          have hlen : l'.length = b.list.length := (forget_list hf).2.2.1
          have hent : (l'.mapIdx fun j m => attEntry (id + j) pcr (0 + j) b.algo m) = bankEntries H pcr id b := by
            unfold bankEntries
            rw [he]
            apply List.ext_getElem?
            intro i
            simp only [Bool.false_eq_true, if_false, List.getElem?_mapIdx, l2 i, Option.map_map, Nat.zero_add]
            cases b.list[i]? with
            | none => rfl
            | some m => simp only [Option.map_some, Function.comp, attEntry_eq]; rfl
          rw [hent] at p1 p2 p3
          generalize hR : attBank pcr b.algo l' 0 id c = R at p1 p2 p3 ⊢
          obtain ⟨id', c'⟩ := R
          simp only at p1 p2 p3 ⊢
          have hel : (bankEntries H pcr id b).length = b.list.length := by unfold bankEntries; rw [he]; simp
          obtain ⟨g1, g2⟩ := ih fails.tail (pcr + 1) id' c' hbs
          refine ⟨by simp only [List.map_cons, g1, hf], ?_⟩
          rcases g2 with g2 | g2
          · refine .inl ?_
            rw [g2]
            have e : storeEntries H pcr id (b :: bs) = bankEntries H pcr id b ++ storeEntries H (pcr + 1) (id + (bankEntries H pcr id b).length) bs := rfl
            rw [e]
            rw [List.flatten_append, window_append, p1, List.append_assoc]
            by_cases d : 0 < c'.destLength
            · obtain ⟨q1, q2⟩ := p3 d
              rw [q1, q2, hlen, hel, p2]
            · rw [p2] at d
              have d0 : c.destLength - ((bankEntries H pcr id b).flatten.length - c.offset) = 0 := by omega
              rw [p2, d0, window_zero_len, window_zero_len]
          · exact .inr ⟨tailfail g2.1, g2.2⟩
        · have ⟨k, hk, hlt⟩ : ∃ k, fails.headD none = some k ∧ k < b.list.length := by
            apply Classical.byContradiction
            intro no
            exact full fun k hk => Nat.le_of_not_lt fun hl => no ⟨k, hk, hl⟩
          have l1 := computeLoop_fails (H (.sha2 b.algo)) b.list (List.replicate b.algo.len 0) k hlt
          rw [← hk] at l1
          rw [l1] at hc
          rw [hc] at hf ⊢
          refine ⟨by simp only [List.map_cons, hf], .inr ⟨?_, rfl⟩⟩
          cases fails with
          | nil => simp at hk
          | cons f fs => exact ⟨f, by simp, by simp at hk; simp [hk]⟩

/-! ### Steps -/

/-- What a call may do to the bank: nothing, replace one measurement, or recompute the intermediate values. -/
theorem step_cases (H : Hash) (b : Bank) (op : Op) :
    (step H b op).1.forget = b.forget ∨
    ∃ i, ∃ h : i < b.list.length, ∃ m, (step H b op).1 = setMeas b i m ∧
      (m.isConstant ≠ b.list[i].isConstant → b.list[i].isConstant = false) ∧
      (b.list[i].isConstant = true → m.digest = b.list[i].digest ∧ m.version = b.list[i].version ∧ m.config = b.list[i].config) ∧
      (GoodHash H → b.list[i].digest.length = b.algo.len → m.digest.length = b.algo.len) := by
  have upd : ∀ (i : Nat) (d : Bytes) (c v : UInt8),
      (updateDigestCommon b i d c v).1.forget = b.forget ∨
      ∃ h : i < b.list.length, (updateDigestCommon b i d c v).1 = setMeas b i { b.list[i] with digest := d, config := c, version := v } ∧
        b.list[i].isConstant = false ∧ d.length = b.algo.len := by
    intro i d c v
    unfold updateDigestCommon
    by_cases h1 : d.length ≠ b.algo.len
    · rw [if_pos h1]; exact .inl rfl
    · rw [if_neg h1]
      by_cases h2 : i ≥ b.list.length
      · rw [if_pos h2]; exact .inl rfl
      · rw [if_neg h2, at'_lt (by omega)]
        simp only
        by_cases h3 : b.list[i].isConstant = true
        · rw [if_pos h3]; exact .inl rfl
        · rw [if_neg h3]; exact .inr ⟨by omega, rfl, by simpa using h3, by omega⟩
  have fin : ∀ (i : Nat) (d : Bytes) (c v : UInt8), (step H b op).1 = (updateDigestCommon b i d c v).1 →
      ((step H b op).1.forget = b.forget ∨
      ∃ i, ∃ h : i < b.list.length, ∃ m, (step H b op).1 = setMeas b i m ∧
      (m.isConstant ≠ b.list[i].isConstant → b.list[i].isConstant = false) ∧
      (b.list[i].isConstant = true → m.digest = b.list[i].digest ∧ m.version = b.list[i].version ∧ m.config = b.list[i].config) ∧
      (GoodHash H → b.list[i].digest.length = b.algo.len → m.digest.length = b.algo.len)) := by
    intro i d c v e
    rcases upd i d c v with h | ⟨h, h1, h2, h3⟩
    · exact .inl (by rw [e, h])
    · exact .inr ⟨i, h, _, by rw [e, h1], fun _ => h2, fun hc => by rw [h2] at hc; simp at hc, fun _ _ => h3⟩
  have simple : ∀ (i : Nat) (f : Meas → Meas), (∀ m, (f m).digest = m.digest ∧ (f m).version = m.version ∧ (f m).config = m.config) →
      (∃ h : i < b.list.length, (step H b op).1 = setMeas b i (f b.list[i])) →
      ((step H b op).1.forget = b.forget ∨
      ∃ i, ∃ h : i < b.list.length, ∃ m, (step H b op).1 = setMeas b i m ∧
      (m.isConstant ≠ b.list[i].isConstant → b.list[i].isConstant = false) ∧
      (b.list[i].isConstant = true → m.digest = b.list[i].digest ∧ m.version = b.list[i].version ∧ m.config = b.list[i].config) ∧
      (GoodHash H → b.list[i].digest.length = b.algo.len → m.digest.length = b.algo.len)) := by
    rintro i f hf ⟨h, e⟩
    obtain ⟨f1, f2, f3⟩ := hf b.list[i]
    refine .inr ⟨i, h, _, e, fun ne => ?_, fun _ => ⟨f1, f2, f3⟩, fun _ hl => by rw [f1, hl]⟩
    exact absurd (by unfold Meas.isConstant; rw [f3]) ne
  cases op with
  | compute f n => exact .inl (compute_forget H f b n)
  | setEvent i ev =>
    by_cases h : i ≥ b.list.length
    · exact .inl (by simp only [step, setEvent, if_pos h])
    · exact simple i (fun m => { m with event := ev }) (fun _ => ⟨rfl, rfl, rfl⟩)
        ⟨by omega, by simp only [step, setEvent, if_neg h, at'_lt (Nat.lt_of_not_ge h)]⟩
  | setDmtf i ty n =>
    by_cases h : i ≥ b.list.length
    · exact .inl (by simp only [step, setDmtf, if_pos h])
    · by_cases g : ty ≥ 5
      · exact .inl (by simp only [step, setDmtf, if_neg h, if_pos g])
      · exact simple i (fun m => { m with dmtf := ty, notTcb := n }) (fun _ => ⟨rfl, rfl, rfl⟩)
          ⟨by omega, by simp only [step, setDmtf, if_neg h, if_neg g, at'_lt (Nat.lt_of_not_ge h)]⟩
  | setData i d =>
    by_cases h : i ≥ b.list.length
    · exact .inl (by simp only [step, setData, if_pos h])
    · exact simple i (fun m => { m with data := d }) (fun _ => ⟨rfl, rfl, rfl⟩)
        ⟨by omega, by simp only [step, setData, if_neg h, at'_lt (Nat.lt_of_not_ge h)]⟩
  | updateDigest i d c => exact fin i d _ _ rfl
  | updateBuffer f1 f2 i buf ev v c =>
    by_cases h1 : ev = false ∧ v = none ∧ buf.length = 0
    · exact .inl (by simp only [step, updateBufferCommon, if_pos h1])
    · cases f1
      · cases he : eventBytes b i ev with
        | oob => exact .inl (by simp only [step, updateBufferCommon, if_neg h1, he]; rfl)
        | err e => exact .inl (by simp only [step, updateBufferCommon, if_neg h1, he]; rfl)
        | ok x =>
          cases f2
          · refine fin i (H (.sha2 b.algo) (x ++ v.toList ++ buf)) (mkConfig ev v.isSome c) (v.getD 0) ?_
            simp only [step, updateBufferCommon, if_neg h1, he]
            rfl
          · exact .inl (by simp only [step, updateBufferCommon, if_neg h1, he]; rfl)
      · exact .inl (by simp only [step, updateBufferCommon, if_neg h1]; rfl)
  | invalidate i =>
    by_cases h : i ≥ b.list.length
    · exact .inl (by simp only [step, invalidate, if_pos h])
    · by_cases g : b.list[i].isConstant = true
      · exact .inl (by simp only [step, invalidate, if_neg h, at'_lt (Nat.lt_of_not_ge h), if_pos g])
      · refine .inr ⟨i, by omega, { b.list[i] with digest := List.replicate b.algo.len 0 },
          by simp only [step, invalidate, if_neg h, at'_lt (Nat.lt_of_not_ge h), if_neg g], fun _ => by simpa using g,
          fun hc => absurd hc g, fun _ _ => by simp⟩

theorem step_wf {H : Hash} (hH : GoodHash H) {b : Bank} (h : WF b) (op : Op) : WF (step H b op).1 := by
  rcases step_cases H b op with e | ⟨i, hi, m, e, _, _, hd⟩
  · obtain ⟨e1, e2, e3, e4, _⟩ := forget_list e
    refine ⟨by rw [e3]; exact h.pos, by rw [e2, e3]; exact h.one, ?_⟩
    intro m hm
    have : m.digest ∈ b.list.map (·.digest) := by rw [← e4]; exact List.mem_map_of_mem hm
    obtain ⟨m', hm', e'⟩ := List.mem_map.mp this
    rw [e1, ← e']; exact h.digest m' hm'
  · rw [e]
    refine ⟨by simp only [setMeas, List.length_set]; exact h.pos, by simp only [setMeas, List.length_set]; exact h.one, ?_⟩
    intro x hx
    rcases List.mem_or_eq_of_mem_set hx with hx | rfl
    · exact h.digest x hx
    · exact hd hH (h.digest _ (List.getElem_mem hi))

end Verif.Pcr
