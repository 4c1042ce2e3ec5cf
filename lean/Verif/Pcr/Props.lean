import Verif.Pcr.Lemmas
/-! Properties C35-C40 and C57: PCR banks and the PCR store. -/
namespace Verif.Pcr
open BufferUtil

/-- A hash for examples: the length of the input in every byte. -/
def exHash : Hash := fun t x => List.replicate t.len (UInt8.ofNat (x.length + (x.map (·.toNat)).sum))

/-! ### C35 -/

/-- C35: once a measurement is constant, no sequence of calls changes its digest, version or flags. -/
theorem constant_fixed (H : Hash) (ops : List Op) (b : Bank) (i : Nat) (m : Meas) (hm : b.list[i]? = some m) (hc : m.isConstant = true) :
    ∃ m', (run H b ops).list[i]? = some m' ∧ m'.digest = m.digest ∧ m'.version = m.version ∧ m'.config = m.config := by
  induction ops generalizing b m with
  | nil => exact ⟨m, hm, rfl, rfl, rfl⟩
  | cons op ops ih =>
    have hi : i < b.list.length := (List.getElem?_eq_some_iff.mp hm).1
    have hmi : b.list[i] = m := (List.getElem?_eq_some_iff.mp hm).2
    have one : ∃ m', (step H b op).1.list[i]? = some m' ∧ m'.digest = m.digest ∧ m'.version = m.version ∧ m'.config = m.config := by
      rcases step_cases H b op with e | ⟨j, hj, x, e, _, hx, _⟩
      · have e1 : (step H b op).1.list.map Meas.forget = b.list.map Meas.forget := congrArg Bank.list e
        have e2 := congrArg (·[i]?) e1
        simp only [List.getElem?_map, hm, Option.map_some] at e2
        obtain ⟨m', h1, h2⟩ := Option.map_eq_some_iff.mp e2
        have hd : m'.forget.digest = m.forget.digest := by rw [h2]
        have hv : m'.forget.version = m.forget.version := by rw [h2]
        have hf : m'.forget.config = m.forget.config := by rw [h2]
        exact ⟨m', h1, hd, hv, hf⟩
      · rw [e]
        by_cases c : j = i
        · subst c
          rw [hmi] at hx
          exact ⟨x, by simp [setMeas, List.getElem?_set_self hj], hx hc⟩
        · exact ⟨m, by simp [setMeas, List.getElem?_set_ne c, hm], rfl, rfl, rfl⟩
    obtain ⟨m', h1, h2, h3, h4⟩ := one
    obtain ⟨m'', g1, g2, g3, g4⟩ := ih (step H b op).1 m' h1 (by unfold Meas.isConstant; rw [h4]; exact hc)
    exact ⟨m'', g1, g2.trans h2, g3.trans h3, g4.trans h4⟩

/-- C35: when a plain or constant digest update succeeds and what it does: exactly the digest, flags and version of that one measurement change. -/
theorem update_digest_iff (H : Hash) (b : Bank) (i : Nat) (d : Bytes) (const : Bool) :
    ((step H b (.updateDigest i d const)).2 = .ok () ↔
      d.length = b.algo.len ∧ ∃ m, b.list[i]? = some m ∧ m.isConstant = false) ∧
    ((step H b (.updateDigest i d const)).2 = .ok () → ∃ m, b.list[i]? = some m ∧
      (step H b (.updateDigest i d const)).1 =
        { b with list := b.list.set i { m with digest := d, config := if const then 0x80 else 0, version := 0 } }) ∧
    ((step H b (.updateDigest i d const)).2 ≠ .ok () → (step H b (.updateDigest i d const)).1 = b) := by
  simp only [step, updateDigestCommon]
  by_cases h1 : d.length ≠ b.algo.len
  · rw [if_pos h1]; simp [h1]
  · rw [if_neg h1]
    by_cases h2 : i ≥ b.list.length
    · rw [if_pos h2]; simp [List.getElem?_eq_none h2]
    · have h2' : i < b.list.length := by omega
      rw [if_neg h2, at'_lt h2']
      simp only [List.getElem?_eq_getElem h2', Option.some.injEq, exists_eq_left']
      by_cases h3 : b.list[i].isConstant = true
      · rw [if_pos h3]; simp [h3]
      · rw [if_neg h3]
        refine ⟨⟨fun _ => ⟨by omega, by simpa using h3⟩, fun _ => rfl⟩, fun _ => ?_, fun h => absurd rfl h⟩
        cases const <;> rfl

/-- C35: a successful constant update makes the measurement constant. -/
theorem const_update_sets (H : Hash) (b : Bank) (i : Nat) (d : Bytes) (h : (step H b (.updateDigest i d true)).2 = .ok ()) :
    ∃ m, (step H b (.updateDigest i d true)).1.list[i]? = some m ∧ m.isConstant = true ∧ m.digest = d := by
  obtain ⟨m, hm, e⟩ := (update_digest_iff H b i d true).2.1 h
  have hi : i < b.list.length := (List.getElem?_eq_some_iff.mp hm).1
  refine ⟨_, by rw [e]; exact List.getElem?_set_self hi, ?_, rfl⟩
  simp only [Meas.isConstant]
  decide

theorem mkConfig_flags : ∀ e v c : Bool, decide (mkConfig e v c &&& flagEvent ≠ 0) = e ∧ decide (mkConfig e v c &&& flagVersion ≠ 0) = v ∧
    decide (mkConfig e v c &&& flagConstant ≠ 0) = c := by decide

/-- The same for data that is hashed by the call: the digest is that of event type, version and buffer, in this order, and a constant update
makes the measurement constant. -/
theorem update_buffer_digest (H : Hash) (b : Bank) (f1 f2 : Bool) (i : Nat) (buf : Bytes) (event : Bool) (version : Option UInt8) (const : Bool)
    (h : (step H b (.updateBuffer f1 f2 i buf event version const)).2 = .ok ()) :
    ∃ m m', b.list[i]? = some m ∧ m.isConstant = false ∧ (step H b (.updateBuffer f1 f2 i buf event version const)).1.list[i]? = some m' ∧
      m'.digest = H (.sha2 b.algo) ((if event then toLE 4 m.event else []) ++ version.toList ++ buf) ∧
      m'.isEvent = event ∧ m'.isVersion = version.isSome ∧ m'.version = version.getD 0 ∧ m'.isConstant = const ∧ m'.event = m.event := by
  simp only [step, updateBufferCommon] at h ⊢
  by_cases h1 : event = false ∧ version = none ∧ buf.length = 0
  · rw [if_pos h1] at h; cases h
  rw [if_neg h1] at h ⊢
  cases f1
  case true => rw [if_pos rfl] at h; cases h
  rw [if_neg (by simp)] at h ⊢
  cases he : eventBytes b i event with
  | oob => rw [he] at h; cases h
  | err e => rw [he] at h; cases h
  | ok ev =>
    rw [he] at h
    simp only at h ⊢
    cases f2
    case true => rw [if_pos rfl] at h; cases h
    rw [if_neg (by simp)] at h ⊢
    unfold updateDigestCommon at h ⊢
    by_cases g1 : (H (.sha2 b.algo) (ev ++ version.toList ++ buf)).length ≠ b.algo.len
    · rw [if_pos g1] at h; cases h
    rw [if_neg g1] at h ⊢
    by_cases g2 : i ≥ b.list.length
    · rw [if_pos g2] at h; cases h
    have g2' : i < b.list.length := by omega
    rw [if_neg g2, at'_lt g2'] at h ⊢
    simp only at h ⊢
    by_cases g3 : b.list[i].isConstant = true
    · rw [if_pos g3] at h; cases h
    rw [if_neg g3]
    have hev : ev = if event then toLE 4 b.list[i].event else [] := by
      unfold eventBytes at he
      rw [at'_lt g2'] at he
      cases event <;> simpa using he.symm
    refine ⟨b.list[i], { b.list[i] with digest := H (.sha2 b.algo) (ev ++ version.toList ++ buf), config := mkConfig event version.isSome const, version := version.getD 0 }, List.getElem?_eq_getElem g2',
      by simpa using g3, by simp only [setMeas]; exact List.getElem?_set_self g2', ?_, ?_, ?_, rfl, ?_, rfl⟩
    · simp only [hev]
    · exact (mkConfig_flags event version.isSome const).1
    · exact (mkConfig_flags event version.isSome const).2.1
    · exact (mkConfig_flags event version.isSome const).2.2

/-- The event type of a constant measurement can still be changed, although it may be part of what was measured and is reported in the logs. -/
theorem constant_event_changes : ∃ (H : Hash) (ops : List Op) (b : Bank) (m m' : Meas), b.list[0]? = some m ∧ m.isConstant = true ∧
    m.isEvent = true ∧ (run H b ops).list[0]? = some m' ∧ m'.event ≠ m.event :=
  ⟨exHash, [.setEvent 0 7], run exHash (init 1 .sha256) [.updateBuffer false false 0 [1] true none true], _, _, rfl, by decide, by decide, rfl, by decide⟩

example : ∃ m, (run exHash (init 2 .sha256) [.updateDigest 1 (List.replicate 32 5) true, .updateDigest 1 (List.replicate 32 6) false,
    .invalidate 1, .updateBuffer false false 1 [9] true (some 3) false]).list[1]? = some m ∧ m.digest = List.replicate 32 5 ∧ m.isConstant = true :=
  ⟨_, rfl, by decide, by decide⟩

/-- Every history keeps the shape of a bank. -/
theorem run_wf {H : Hash} (hH : GoodHash H) (ops : List Op) {b : Bank} (h : WF b) : WF (run H b ops) := by
  induction ops generalizing b with
  | nil => exact h
  | cons op ops ih => exact ih (step_wf hH h op)

theorem init_wf (n : Nat) (a : Algo) : WF (init n a) := by
  refine ⟨?_, ?_, ?_⟩
  · simp only [init, List.length_replicate]; split <;> omega
  · simp only [init, List.length_replicate, decide_eq_true_eq]; intro h; rw [if_pos h]
  · intro m hm
    rw [List.eq_of_mem_replicate hm]
    simp [zeroMeas, init]

theorem exHash_good : GoodHash exHash := fun t x => by simp [exHash]

/-! ### C36 -/

/-- C36: the value reported for a PCR is the extend chain over the current digests from zero, the intermediate value of each measurement is that
of the chain up to it, and nothing else changes. The value of an explicit PCR is its digest. A hash failure is reported. -/
theorem compute_chain (H : Hash) (fail : Option Nat) (b : Bank) (length : Option Nat) (hw : WF b) (hl : ∀ n, length = some n → b.algo.len ≤ n) :
    (compute H fail b length).1.forget = b.forget ∧
    (b.explicit = true → ∃ m, b.list = [m] ∧ (compute H fail b length).2 = .ok m.digest) ∧
    (b.explicit = false → (∀ n, fail = some n → b.list.length ≤ n) →
      (compute H fail b length).2 = .ok (valueAfter H b b.list.length) ∧
      ∀ i m, (compute H fail b length).1.list[i]? = some m → m.measurement = valueAfter H b (i + 1)) ∧
    (b.explicit = false → ∀ n, fail = some n → n < b.list.length → (compute H fail b length).2 = .err .hash) := by
  have hs : length.any (· < b.algo.len) = false := by
    cases length with
    | none => rfl
    | some n => have := hl n rfl; simpa using this
  refine ⟨compute_forget .., ?_, ?_, ?_⟩
  · intro he
    obtain ⟨m, hm⟩ := List.length_eq_one_iff.mp (hw.one he)
    refine ⟨m, hm, ?_⟩
    unfold compute
    rw [hs, if_neg (by simp), if_pos he]
    simp [at', hm]
  · intro he hf
    obtain ⟨h1, h2⟩ := computeLoop_full (H (.sha2 b.algo)) b.list (List.replicate b.algo.len 0) fail hf
    unfold compute
    rw [hs, if_neg (by simp), if_neg (by simp [he])]
    simp only [h1]
    refine ⟨by unfold valueAfter; rw [List.take_length], ?_⟩
    intro i m hm
    rw [h2 i] at hm
    obtain ⟨x, hx, rfl⟩ := Option.map_eq_some_iff.mp hm
    rfl
  · intro he n hf hn
    unfold compute
    rw [hs, if_neg (by simp), if_neg (by simp [he])]
    simp only [hf, computeLoop_fails _ _ _ n hn]

/-- A buffer that is too small is refused and nothing changes. -/
theorem compute_small (H : Hash) (fail : Option Nat) (b : Bank) (n : Nat) (h : n < b.algo.len) : compute H fail b (some n) = (b, .err .smallOutput) := by
  unfold compute
  rw [if_pos (by simpa using h)]

example : (compute exHash none (run exHash (init 2 .sha256) [.updateDigest 0 (List.replicate 32 1) false]) (some 32)).2 =
    .ok (exHash (.sha2 .sha256) (exHash (.sha2 .sha256) (List.replicate 32 0 ++ List.replicate 32 1) ++ List.replicate 32 0)) := by
  decide +kernel

/-! ### C37 -/

/-- C37: reading raw data gives the window of event type, version and data, and the length of the whole. -/
theorem data_window_partial {fail : Bool} (b : Bank) (i : Nat) (m : Meas) (s : Bytes) (hm : b.list[i]? = some m) (hr : Raw fail m s)
    (offset length : Nat) (ho : offset < 2 ^ 32) : Out fail (getData b i offset length) (window s offset length, s.length) := by
  obtain ⟨hi, e⟩ := List.getElem?_eq_some_iff.mp hm
  unfold getData
  rw [if_neg (by omega), at'_lt hi, e]
  exact readData_eq hr offset length ho

/-- C37: what is hashed for another algorithm is this same byte string; for the algorithm of the bank it is the recorded digest. -/
theorem data_hash_partial {fail : Bool} (H : Hash) (hfail : Bool) (b : Bank) (i : Nat) (m : Meas) (s : Bytes) (hm : b.list[i]? = some m)
    (hr : Raw fail m s) (ty : HashType) (length : Nat) (hl : ty.len ≤ length) :
    (ty = .sha2 b.algo → hashData H hfail b i ty length = .ok m.digest) ∧
    (ty ≠ .sha2 b.algo → ∀ v, hashData H hfail b i ty length = .ok v → v = H ty s) ∧
    (ty ≠ .sha2 b.algo → fail = false → hfail = false → (∀ get, m.data ≠ some (.callback get none)) → m.data.isSome = true →
      hashData H hfail b i ty length = .ok (H ty s)) := by
  obtain ⟨hi, e⟩ := List.getElem?_eq_some_iff.mp hm
  have key : hashData H hfail b i ty length = (if ty = .sha2 b.algo then .ok m.digest
      else match m.data with
        | none => .err .notAvailable
        | some d =>
          if hfail then .err .hash
          else match feedSource d with
            | .ok s => .ok (H ty ((if m.isEvent then toLE 4 m.event else []) ++ (if m.isVersion then [m.version] else []) ++ s))
            | .err e => .err e
            | .oob => .oob) := by
    unfold hashData
    rw [if_neg (by omega), if_neg (by omega), at'_lt hi, e]
    rfl
  rw [key]
  obtain ⟨_, hr⟩ := hr
  refine ⟨fun h => if_pos h, ?_, ?_⟩
  · intro h v hv
    rw [if_neg h] at hv
    cases hd : m.data with
    | none => rw [hd] at hv; cases hv
    | some d =>
      rw [hd] at hv hr
      obtain ⟨x, hx, rfl⟩ := hr
      cases hfail
      case true => cases hv
      rcases feedSource_eq hx with (h1 | ⟨_, er, h1⟩) | h1
      · simp only [h1] at hv; cases hv; rfl
      · simp only [h1] at hv; cases hv
      · simp only [h1] at hv; cases hv
  · intro h hf hh hcb hsome
    rw [if_neg h]
    cases hd : m.data with
    | none => rw [hd] at hsome; cases hsome
    | some d =>
      rw [hd] at hr
      obtain ⟨x, hx, rfl⟩ := hr
      subst hh
      rcases feedSource_eq hx with (h1 | ⟨h1, _⟩) | h1
      · simp only [h1]; rfl
      · rw [hf] at h1; cases h1
      · exfalso
        cases d with
        | value b => cases h1
        | memory b => cases h1
        | flash rd a n =>
          simp only [feedSource] at h1
          cases g : rd a n <;> rw [g] at h1 <;> cases h1
        | callback get hs =>
          cases hs with
          | none => exact hcb get hd
          | some v => cases v <;> cases h1

/-- C37: the reported length of the raw data. -/
theorem data_length_partial {fail : Bool} (b : Bank) (i : Nat) (m : Meas) (s : Bytes) (hm : b.list[i]? = some m) (hr : Raw fail m s) (hs : s ≠ []) :
    Out fail (dataLength b i) s.length := by
  have hp : s.length ≠ 0 := by simpa using hs
  unfold dataLength
  rcases data_window_partial b i m s hm hr 0 0 (by omega) with h | ⟨f, e, h⟩
  · exact .inl (by rw [h]; simp [window_zero_len, hp])
  · exact .inr ⟨f, e, by rw [h]⟩

/-- A measurement with event type and version whose data is three bytes of a flash device at address 2. -/
def exMeas : Meas :=
  { digest := List.replicate 32 0, measurement := List.replicate 32 0, data := some (.flash (fun a n => some (window [9, 8, 7, 6, 5, 4] a n)) 2 3),
    event := 0x01020304, version := 0x55, config := 3, dmtf := 0, notTcb := false }

theorem exMeas_raw : Raw false exMeas [4, 3, 2, 1, 0x55, 7, 6, 5] := by
  refine ⟨by decide, [7, 6, 5], ⟨rfl, by decide, by decide, ?_⟩, by decide⟩
  intro a n h1 h2
  refine .inl (congrArg some ?_)
  have e : ([7, 6, 5] : Bytes) = window [9, 8, 7, 6, 5, 4] 2 3 := by decide
  rw [e]
  simp only [window, List.drop_take, List.drop_drop, List.take_take]
  rw [Nat.add_sub_cancel' h1, Nat.min_eq_left (by omega)]

example : getData ⟨[exMeas], false, .sha256⟩ 0 3 4 = .ok ([1, 0x55, 7, 6], 8) := by decide

/-- Why C37 needs a hypothesis on flash data: an empty range of flash, read behind its start, gives flash content that was never measured. -/
theorem empty_flash_leak : ∃ (b : Bank) (rd : Nat → Nat → Option Bytes), b.list.map (·.data.isSome) = [true] ∧
    (∃ m, b.list = [m] ∧ ∃ d, m.data = some d ∧ d = .flash rd 2 0) ∧
    getData b 0 0 4 = .ok ([], 0) ∧ getData b 0 1 4 = .ok ([6, 5, 4], 0) :=
  ⟨⟨[{ exMeas with config := 0, data := some (.flash (fun a n => some (window [9, 8, 7, 6, 5, 4] a n)) 2 0) }], false, .sha256⟩, _, rfl,
    ⟨_, rfl, _, rfl, rfl⟩, by decide, by decide⟩

/-! ### C38 -/

/-- C38: reading the TCG log with any offset and length gives the window of one log. -/
theorem tcg_log_window {fail : Bool} (st : List Bank) (raws : List (List Bytes)) (hr : StoreRaw fail st raws) (hw : ∀ b ∈ st, WF b)
    (offset length : Nat) (ho : offset < 2 ^ 32) : Out fail (storeTcgLog st offset length) (window (fullTcgLog st raws) offset length) := by
  unfold storeTcgLog fullTcgLog
  simp only [tcgHeader_eq]
  obtain ⟨a1, a2, a3, _⟩ := bufferCopy_spec (tcgEvent1 (specHeader st).length) ⟨offset, length, []⟩
  obtain ⟨b1, b2, b3, _⟩ := bufferCopy_spec (specHeader st) (bufferCopy (tcgEvent1 (specHeader st).length) ⟨offset, length, []⟩).2
  have e : toLE 4 0 ++ toLE 4 3 ++ List.replicate 20 0 ++ toLE 4 (specHeader st).length = tcgEvent1 (specHeader st).length := rfl
  rw [e]
  simp only [a1, a2, a3, List.nil_append] at b1 b2 b3
  rw [b1, b2, b3]
  rcases storeTcgLoop_eq st raws 0 (offset - (tcgEvent1 (specHeader st).length).length - (specHeader st).length)
    (length - ((tcgEvent1 (specHeader st).length).length - offset) - ((specHeader st).length - (offset - (tcgEvent1 (specHeader st).length).length)))
    hr hw (by omega) with h | ⟨f, er, h⟩
  · refine .inl ?_
    rw [h]
    simp only
    rw [List.append_assoc (tcgEvent1 _), window_append, window_append, List.append_assoc]
  · exact .inr ⟨f, er, by rw [h]⟩

/-- A reader of windows of `L` that continues behind what it received collects a prefix of `L`. -/
theorem readChunks_window {σ : Type} (read : σ → Nat → Nat → σ × Res Err Bytes) (Inv : σ → Prop) (L : Bytes) (hL : L.length < 2 ^ 32)
    (h : ∀ s off n, Inv s → off < 2 ^ 32 → Inv (read s off n).1 ∧ (read s off n).2 = .ok (window L off n)) (ns : List Nat) :
    ∀ (s : σ) (off : Nat), Inv s → off ≤ L.length → (readChunks read s off ns).2 = .ok (window L off ns.sum) := by
  induction ns with
  | nil => intro s off _ _; simp [readChunks, window_zero_len]
  | cons n ns ih =>
    intro s off hs ho
    obtain ⟨h1, h2⟩ := h s off n hs (by omega)
    unfold readChunks
    generalize hr : read s off n = r at h1 h2
    obtain ⟨s', o⟩ := r
    simp only at h1 h2
    subst h2
    simp only
    have hlen : (window L off n).length = min n (L.length - off) := window_length ..
    have h3 := ih s' (off + (window L off n).length) h1 (by omega)
    generalize hq : readChunks read s' (off + (window L off n).length) ns = q at h3
    obtain ⟨s'', o''⟩ := q
    simp only at h3
    subst h3
    simp only [List.sum_cons]
    rw [← window_concat]
    congr 2
    by_cases c : n ≤ L.length - off
    · rw [hlen, Nat.min_eq_left c]
    · rw [window_ge _ _ _ (by omega), window_ge _ _ _ (by omega)]

/-- C38: consecutive chunks of any sizes give the log, when reads do not fail. -/
theorem tcg_log_chunks (st : List Bank) (raws : List (List Bytes)) (hr : StoreRaw false st raws) (hw : ∀ b ∈ st, WF b)
    (hL : (fullTcgLog st raws).length < 2 ^ 32) (sizes : List Nat) (hs : (fullTcgLog st raws).length ≤ sizes.sum) :
    (readChunks (fun (_ : Unit) off n => ((), storeTcgLog st off n)) () 0 sizes).2 = .ok (fullTcgLog st raws) := by
  have h := readChunks_window (fun (_ : Unit) off n => ((), storeTcgLog st off n)) (fun _ => True) (fullTcgLog st raws) hL
    (fun _ off n _ ho => ⟨trivial, by
      rcases tcg_log_window st raws hr hw off n ho with e | ⟨f, _⟩
      · exact e
      · cases f⟩) sizes () 0 trivial (Nat.zero_le _)
  rw [h, window_all _ _ hs]

/-- A store with an explicit bank, a bank with raw data, and an empty measurement. -/
def exStore : List Bank := [init 0 .sha384, ⟨[exMeas, zeroMeas .sha256], false, .sha256⟩]

theorem exStore_ok : StoreRaw false exStore [[[]], [[4, 3, 2, 1, 0x55, 7, 6, 5], []]] ∧ ∀ b ∈ exStore, WF b := by
  refine ⟨⟨⟨⟨by decide, rfl⟩, trivial⟩, ⟨exMeas_raw, ⟨by decide, rfl⟩, trivial⟩, trivial⟩, ?_⟩
  intro b hb
  simp only [exStore, List.mem_cons, List.not_mem_nil, or_false] at hb
  rcases hb with rfl | rfl
  · exact init_wf 0 .sha384
  · exact ⟨by decide, by decide, by decide⟩

example : (fullTcgLog exStore [[[]], [[4, 3, 2, 1, 0x55, 7, 6, 5], []]]).length = 32 + 37 + 50 + 8 + 50 := by decide +kernel

example : storeTcgLog exStore 117 6 = .ok [0, 0, 4, 3, 2, 1] := by decide +kernel

/-! ### C39 -/

/-- C39: reading the attestation log with any offset and length gives the window of one log, whose entries carry the digests with the values of the
PCRs after them, or reports a hash failure. Digests and everything else but the intermediate values stay. -/
theorem attestation_log_window (H : Hash) (st : List Bank) (fails : List (Option Nat)) (offset length : Nat) (hw : ∀ b ∈ st, WF b) :
    (attLog H st fails offset length).1.map Bank.forget = st.map Bank.forget ∧
    ((attLog H st fails offset length).2 = .ok (window (storeEntries H 0 0 st).flatten offset length) ∨
      ((∃ f ∈ fails, f ≠ none) ∧ (attLog H st fails offset length).2 = .err .hash)) := by
  exact attLoop_eq H st fails 0 0 ⟨offset, length, []⟩ hw

theorem valueAfter_length {H : Hash} (hH : GoodHash H) (b : Bank) (k : Nat) : (valueAfter H b k).length = b.algo.len := by
  unfold valueAfter extend
  generalize List.map (·.digest) (b.list.take k) = l
  have : ∀ (l : List Bytes) (z : Bytes), z.length = b.algo.len → (l.foldl (fun v d => H (.sha2 b.algo) (v ++ d)) z).length = b.algo.len := by
    intro l
    induction l with
    | nil => intro z h; exact h
    | cons d l ih => intro z _; exact ih _ (by rw [hH]; rfl)
  exact this l _ (by simp)

theorem flatten_length_const (l : List Bytes) (n : Nat) (h : ∀ x ∈ l, x.length = n) : l.flatten.length = l.length * n := by
  induction l with
  | nil => simp
  | cons a l ih =>
    rw [List.flatten_cons, List.length_append, ih fun x hx => h x (by simp [hx]), h a (by simp), List.length_cons, Nat.succ_mul, Nat.add_comm]

theorem bankEntries_length {H : Hash} (hH : GoodHash H) {b : Bank} (hw : WF b) (pcr id : Nat) :
    (bankEntries H pcr id b).flatten.length = num b * attEntryLen b.algo := by
  unfold bankEntries num
  split
  · simp
  · rw [flatten_length_const _ (attEntryLen b.algo), List.length_mapIdx]
    intro x hx
    obtain ⟨i, hi, rfl⟩ := List.mem_mapIdx.mp hx
    simp only [entryOf, List.length_append, toLE_length, valueAfter_length hH, hw.digest _ (List.getElem_mem hi), attEntryLen, List.length_cons,
      List.length_nil]
    try omega

/-- C39: the size of the log is the advertised size. -/
theorem attestation_log_size {H : Hash} (hH : GoodHash H) (st : List Bank) (hw : ∀ b ∈ st, WF b) :
    (storeEntries H 0 0 st).flatten.length = attLogSize st := by
  have : ∀ (st : List Bank) (pcr id : Nat), (∀ b ∈ st, WF b) → (storeEntries H pcr id st).flatten.length = attLogSize st := by
    intro st
    induction st with
    | nil => intro _ _ _; rfl
    | cons b bs ih =>
      intro pcr id hw
      have e : storeEntries H pcr id (b :: bs) = bankEntries H pcr id b ++ storeEntries H (pcr + 1) (id + (bankEntries H pcr id b).length) bs := rfl
      rw [e, List.flatten_append, List.length_append, bankEntries_length hH (hw b (by simp)), ih _ _ fun x hx => hw x (by simp [hx])]
      simp [attLogSize]
  exact this st 0 0 hw

/-- C39: consecutive chunks of any sizes give the log; the intermediate values left behind by one read do not influence the next. -/
theorem attestation_log_chunks {H : Hash} (hH : GoodHash H) (st : List Bank) (hw : ∀ b ∈ st, WF b) (hL : attLogSize st < 2 ^ 32) (sizes : List Nat)
    (hs : attLogSize st ≤ sizes.sum) :
    (readChunks (fun st off n => attLog H st [] off n) st 0 sizes).2 = .ok (storeEntries H 0 0 st).flatten := by
  have hsz := attestation_log_size hH st hw
  have wf : ∀ st' : List Bank, st'.map Bank.forget = st.map Bank.forget → ∀ b ∈ st', WF b := by
    intro st' e b hb
    have : b.forget ∈ st.map Bank.forget := by rw [← e]; exact List.mem_map_of_mem hb
    obtain ⟨x, hx, ex⟩ := List.mem_map.mp this
    obtain ⟨e1, e2, e3, e4, _⟩ := forget_list ex.symm
    have h := hw x hx
    refine ⟨by rw [e3]; exact h.pos, by rw [e2, e3]; exact h.one, ?_⟩
    intro m hm
    have : m.digest ∈ x.list.map (·.digest) := by rw [← e4]; exact List.mem_map_of_mem hm
    obtain ⟨m', hm', e'⟩ := List.mem_map.mp this
    rw [e1, ← e']; exact h.digest m' hm'
  have h := readChunks_window (fun st off n => attLog H st [] off n) (fun st' => st'.map Bank.forget = st.map Bank.forget)
    (storeEntries H 0 0 st).flatten (by rw [hsz]; exact hL)
    (fun st' off n hst _ => by
      obtain ⟨g1, g2⟩ := attestation_log_window H st' [] off n (wf st' hst)
      refine ⟨g1.trans hst, ?_⟩
      rcases g2 with g2 | ⟨⟨f, hf, _⟩, _⟩
      · rw [g2, forget_storeEntries st st' 0 0 hst]
      · cases hf) sizes st 0 rfl (Nat.zero_le _)
  rw [h, window_all _ _ (by rw [hsz]; exact hs)]

/-- C39: the value in the last entry of a bank is the value of the PCR. -/
theorem last_entry_value (H : Hash) (b : Bank) (hw : WF b) (he : b.explicit = false) (pcr id : Nat) :
    ∃ m v, b.list.getLast? = some m ∧ (compute H none b none).2 = .ok v ∧
      (bankEntries H pcr id b).getLast? = some (entryOf (id + (b.list.length - 1)) pcr (b.list.length - 1) b.algo m.event m.digest v) := by
  have hp := hw.pos
  obtain ⟨_, _, h, _⟩ := compute_chain H none b none hw (by simp)
  obtain ⟨h1, _⟩ := h he (by simp)
  refine ⟨b.list[b.list.length - 1], _, ?_, h1, ?_⟩
  · rw [List.getLast?_eq_getElem?, List.getElem?_eq_getElem (by omega)]
  · rw [List.getLast?_eq_getElem?]
    unfold bankEntries
    simp only [he, Bool.false_eq_true, if_false, List.length_mapIdx, List.getElem?_mapIdx]
    rw [List.getElem?_eq_getElem (by omega), Option.map_some, Nat.sub_add_cancel hp]

example : (attLog exHash exStore [] 80 20).2 = .ok (window (storeEntries exHash 0 0 exStore).flatten 80 20) ∧ attLogSize exStore = 178 := by
  decide +kernel

/-! ### C40 -/

/-- C40: an update with the event type included reads outside the bank before the index is checked. -/
theorem bad_index_reads : ∃ (b : Bank) (i : Nat) (op : Op), WF b ∧ op.index = some i ∧ b.list.length ≤ i ∧ i < 256 ∧ (step exHash b op).2 = .oob :=
  ⟨init 1 .sha256, 200, .updateBuffer false false 200 [1] true none false, init_wf 1 .sha256, rfl, by decide, by decide, by decide⟩

/-- C40: every other call with a bad index is refused and changes nothing. -/
theorem bad_index_refused_partial (H : Hash) (b : Bank) (op : Op) (i : Nat) (hi : op.index = some i) (hb : b.list.length ≤ i)
    (he : op.readsEvent = false) : (step H b op).1 = b ∧ ∃ e, (step H b op).2 = .err e := by
  cases op with
  | compute f n => cases hi
  | setEvent j ev => cases hi; simp [step, setEvent, hb]
  | setDmtf j ty n => cases hi; simp [step, setDmtf, hb]
  | setData j d => cases hi; simp [step, setData, hb]
  | invalidate j => cases hi; simp [step, invalidate, hb]
  | updateDigest j d c =>
    cases hi
    simp only [step, updateDigestCommon]
    rw [if_pos (show i ≥ b.list.length from hb)]
    split <;> simp
  | updateBuffer f1 f2 j buf ev v c =>
    cases hi
    simp only [Op.readsEvent] at he
    subst he
    simp only [step, updateBufferCommon, eventBytes]
    split
    · simp
    · split
      · simp
      · simp only [Bool.false_eq_true, if_false]
        split
        · simp
        · simp only [updateDigestCommon]
          rw [if_pos (show i ≥ b.list.length from hb)]
          split <;> simp

/-- C40: reading calls with a bad index are refused. -/
theorem bad_index_query (H : Hash) (b : Bank) (q : Query) (i : Nat) (hb : b.list.length ≤ i) : ask H b i q = .err .invalidIndex := by
  cases q <;> simp [ask, checkIndex, getEvent, getDmtf, inTcb, Pcr.hasData, getMeasurement, dataLength, getData, hashData, hb, Res.bind]

/-- C40: no call on a bank reads outside it, except an update with event type and a bad index. -/
theorem no_oob_partial (H : Hash) (b : Bank) (hw : WF b) (op : Op)
    (h : op.readsEvent = true → ∀ i, op.index = some i → i < b.list.length) : (step H b op).2 ≠ .oob := by
  have upd : ∀ (i : Nat) (d : Bytes) (c v : UInt8), (updateDigestCommon b i d c v).2 ≠ .oob := by
    intro i d c v
    unfold updateDigestCommon
    split
    · simp
    · split
      · simp
      · rename_i h2
        rw [at'_lt (Nat.lt_of_not_ge h2)]
        simp only
        split <;> simp
  cases op with
  | compute f n =>
    simp only [step, compute]
    split
    · simp [Res.bind]
    · split
      · rw [at'_lt hw.pos]; simp [Res.bind]
      · simp only; split <;> simp [Res.bind]
  | setEvent j ev =>
    simp only [step, setEvent]
    split
    · simp
    · rename_i h2; rw [at'_lt (Nat.lt_of_not_ge h2)]; simp
  | setDmtf j ty n =>
    simp only [step, setDmtf]
    split
    · simp
    · split
      · simp
      · rename_i h2 _; rw [at'_lt (Nat.lt_of_not_ge h2)]; simp
  | setData j d =>
    simp only [step, setData]
    split
    · simp
    · rename_i h2; rw [at'_lt (Nat.lt_of_not_ge h2)]; simp
  | invalidate j =>
    simp only [step, invalidate]
    split
    · simp
    · rename_i h2
      rw [at'_lt (Nat.lt_of_not_ge h2)]
      simp only
      split <;> simp
  | updateDigest j d c => exact upd _ _ _ _
  | updateBuffer f1 f2 j buf ev v c =>
    simp only [step, updateBufferCommon]
    split
    · simp
    · split
      · simp
      · have : ∃ x, eventBytes b j ev = .ok x := by
          unfold eventBytes
          cases ev
          · exact ⟨_, rfl⟩
          · rw [at'_lt (h rfl j rfl)]; exact ⟨_, rfl⟩
        obtain ⟨x, hx⟩ := this
        rw [hx]
        simp only
        split
        · simp
        · exact upd _ _ _ _

/-- C40: a store refuses a measurement type with a bank it does not have; otherwise the call goes to that bank and no other changes. -/
theorem store_dispatch (st : List Bank) (t : Nat) (f : Bank → Nat → Bank × Res Err Unit) :
    (st.length ≤ t / 256 % 256 → onBank st t f = (st, .err .invalidPcr)) ∧
    (∀ b, st[t / 256 % 256]? = some b → (onBank st t f).2 = (f b (t % 256)).2 ∧
      (onBank st t f).1[t / 256 % 256]? = some (f b (t % 256)).1 ∧ ∀ j, j ≠ t / 256 % 256 → (onBank st t f).1[j]? = st[j]?) := by
  refine ⟨fun h => by simp [onBank, pcrOf, h], fun b hb => ?_⟩
  have hl := (List.getElem?_eq_some_iff.mp hb).1
  have e : onBank st t f = (st.set (t / 256 % 256) (f b (t % 256)).1, (f b (t % 256)).2) := by
    simp only [onBank, pcrOf, idxOf, hb, if_neg (Nat.not_le.mpr hl), ge_iff_le]
  rw [e]
  exact ⟨rfl, List.getElem?_set_self hl, fun j hj => List.getElem?_set_ne (Ne.symm hj)⟩

example : (step exHash (init 3 .sha256) (.setEvent 3 1)).2 = .err .invalidIndex ∧ (step exHash (init 3 .sha256) (.setEvent 2 1)).2 = .ok () := by decide

/-! ### C57 -/

/-- C57: sequential ids enumerate the measurements of all banks that are not explicit, in order, each exactly once; others are refused. -/
theorem sequential_ids (st : List Bank) (hw : ∀ b ∈ st, WF b) (id : Nat) :
    measurementType st 0 id = (match (allTypes 0 st)[id]? with | some x => .ok x | none => .err .invalidSequentialId) := by
  have : ∀ (st : List Bank) (p id : Nat), (∀ b ∈ st, WF b) →
      measurementType st p id = (match (allTypes p st)[id]? with | some x => .ok x | none => .err .invalidSequentialId) := by
    intro st
    induction st with
    | nil => intro p id _; rfl
    | cons b bs ih =>
      intro p id hw
      have hb := hw b (by simp)
      have hbs : ∀ x ∈ bs, WF x := fun x hx => hw x (by simp [hx])
      have e : allTypes p (b :: bs) = (if b.explicit then [] else (List.range b.list.length).map fun i => (p, i)) ++ allTypes (p + 1) bs := rfl
      unfold measurementType
      cases he : b.explicit
      · have hn : num b = b.list.length := by simp [num, he]
        have hp := hb.pos
        rw [if_neg (by omega), e, he, hn]
        simp only [Bool.false_eq_true, if_false]
        by_cases c : id ≥ b.list.length
        · rw [if_pos c, ih _ _ hbs, List.getElem?_append_right (by simpa using c)]
          simp
        · rw [if_neg c, List.getElem?_append_left (by simpa using c)]
          simp [List.getElem?_range (Nat.lt_of_not_ge c)]
      · rw [if_pos ((num_zero hb).mpr he), ih _ _ hbs, e, he]
        simp
  exact this st 0 id hw

/-- C57: their number is the advertised total. -/
theorem sequential_total (st : List Bank) : (allTypes 0 st).length = totalMeasurements st := by
  have : ∀ (st : List Bank) (p : Nat), (allTypes p st).length = totalMeasurements st := by
    intro st
    induction st with
    | nil => intro _; rfl
    | cons b bs ih =>
      intro p
      have e : allTypes p (b :: bs) = (if b.explicit then [] else (List.range b.list.length).map fun i => (p, i)) ++ allTypes (p + 1) bs := rfl
      rw [e, List.length_append, ih]
      simp only [totalMeasurements, List.map_cons, List.sum_cons, num]
      split <;> simp
  exact this st 0

example : allTypes 0 exStore = [(1, 0), (1, 1)] ∧ measurementType exStore 0 1 = .ok (1, 1) ∧ measurementType exStore 0 2 = .err .invalidSequentialId := by
  decide

end Verif.Pcr
