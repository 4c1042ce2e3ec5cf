import Verif.SpdmMeas.Model
import Verif.Pcr.Props
/-! Helper lemmas for `SpdmMeas`. -/
namespace Verif.SpdmMeas
open Verif

/-- A device: PCR banks of the right shape, measurements that stand for the data `R` (reads may fail if
`fail`), types of 7 bits and data that fit a block. -/
structure Good (fail : Bool) (R : Nat → Nat → Bytes) (st : List Pcr.Bank) : Prop where
  wf : ∀ b ∈ st, Pcr.WF b
  raw : ∀ p b j m, st[p]? = some b → b.list[j]? = some m → Pcr.Raw fail m (R p j)
  type : ∀ b ∈ st, ∀ m ∈ b.list, m.dmtf < 128
  size : ∀ p j, (R p j).length < 65533

theorem toLE2_mod (n : Nat) : toLE 2 (n % 65536) = toLE 2 n := by
  simp only [toLE, List.cons.injEq, and_true]
  constructor <;> apply UInt8.toNat_inj.1 <;> simp only [UInt8.toNat_ofNat'] <;> omega

theorem header_wire {id : UInt8} {raw : Bool} {type : Nat} {v : Bytes} (ht : type < 128) :
    header id raw type v.length ++ v = (Spec.Block.mk id raw type v).wire := by
  unfold header Spec.Block.wire
  rw [toLE2_mod, toLE2_mod, Nat.mod_eq_of_lt ht]
  simp

theorem wire_length (b : Spec.Block) : b.wire.length = 7 + b.value.length := by
  simp only [Spec.Block.wire, List.length_cons, List.length_append, toLE_length]; omega

theorem readData_err {m : Pcr.Meas} {o l : Nat} {e : Pcr.Err} (h : Pcr.readData m o l = .err e) :
    e ≠ .notAvailable ∧ e ≠ .invalidSequentialId := by
  unfold Pcr.readData at h
  cases hd : m.data with
  | none => simp [hd] at h
  | some d =>
    simp only [hd] at h
    generalize Pcr.readPart m.isEvent (toLE 4 m.event) o l = x at h
    obtain ⟨b1, o1, l1, t1⟩ := x
    simp only at h
    generalize Pcr.readPart m.isVersion [m.version] o1 l1 = x at h
    obtain ⟨b2, o2, l2, t2⟩ := x
    simp only at h
    cases hs : Pcr.readSource d o2 l2 with
    | ok r => rw [hs] at h; cases h
    | oob => rw [hs] at h; cases h
    | err e' =>
      rw [hs] at h
      simp only [Res.err.injEq] at h
      subst h
      unfold Pcr.readSource at hs
      cases d with
      | value b => cases hs
      | memory b => cases hs
      | flash rd a n =>
        simp only at hs
        split at hs
        · cases hs
        · split at hs
          · cases hs
          · cases hs; decide
      | callback get h =>
        simp only at hs
        split at hs
        · cases hs
        · cases hs; decide

theorem bit_length {fail : Bool} {b : Pcr.Bank} {j : Nat} {m : Pcr.Meas} {s : Bytes} (hm : b.list[j]? = some m)
    (hr : Pcr.Raw fail m s) :
    bitStreamLength b j = (if s = [] then .err .noBitStream else .ok s.length) ∨
    (fail = true ∧ ∃ e, bitStreamLength b j = .err (.pcr e)) := by
  unfold bitStreamLength Pcr.dataLength
  rcases Pcr.data_window_partial b j m s hm hr 0 0 (by omega) with h | ⟨f, e, h⟩
  · rw [h]
    left
    by_cases hs : s = []
    · subst hs; simp
    · have hp : s.length ≠ 0 := by simpa using hs
      simp [window_zero_len, hp, hs]
  · right
    rw [h]
    have hne : e ≠ .notAvailable := by
      obtain ⟨hi, e1⟩ := List.getElem?_eq_some_iff.mp hm
      unfold Pcr.getData at h
      rw [if_neg (by omega), Pcr.at'_lt hi, e1] at h
      exact (readData_err h).1
    exact ⟨f, e, by simp [hne]⟩

theorem getData_err {b : Pcr.Bank} {j o l : Nat} {m : Pcr.Meas} (hm : b.list[j]? = some m) {e : Pcr.Err}
    (h : Pcr.getData b j o l = .err e) : e ≠ .invalidSequentialId := by
  obtain ⟨hi, e1⟩ := List.getElem?_eq_some_iff.mp hm
  unfold Pcr.getData at h
  rw [if_neg (by omega), Pcr.at'_lt hi, e1] at h
  exact (readData_err h).2

theorem hashData_err {H : Pcr.Hash} {f : Bool} {b : Pcr.Bank} {j l : Nat} {ty : Pcr.HashType} {m : Pcr.Meas}
    (hm : b.list[j]? = some m) {e : Pcr.Err} (h : Pcr.hashData H f b j ty l = .err e) : e ≠ .invalidSequentialId := by
  obtain ⟨hi, e1⟩ := List.getElem?_eq_some_iff.mp hm
  unfold Pcr.hashData at h
  rw [if_neg (by omega), Pcr.at'_lt hi, e1] at h
  simp only at h
  split at h
  · cases h; decide
  · split at h
    · cases h
    · split at h
      · cases h; decide
      · split at h
        · cases h; decide
        · rename_i d _ _
          cases hs : Pcr.feedSource d with
          | ok s => rw [hs] at h; cases h
          | oob => rw [hs] at h; cases h
          | err e' =>
            rw [hs] at h
            simp only [Res.err.injEq] at h
            subst h
            unfold Pcr.feedSource at hs
            cases d with
            | value b => cases hs
            | memory b => cases hs
            | flash rd a n =>
              simp only at hs
              split at hs
              · cases hs
              · cases hs; decide
            | callback get h =>
              rcases h with _ | _ | d
              · cases hs; decide
              · cases hs; decide
              · cases hs

theorem build_err {H : Pcr.Hash} {f : Bool} {st : List Pcr.Bank} {id : UInt8} {p j : Nat} {b : Pcr.Bank} {m : Pcr.Meas}
    (hb : st[p]? = some b) (hm : b.list[j]? = some m) {raw : Bool} {ty : Pcr.HashType} {length : Nat} :
    buildBlock H f st st id p j raw ty length ≠ .err (.pcr .invalidSequentialId) := by
  intro h
  unfold buildBlock at h
  split at h
  · cases h
  · unfold blockValue bankOf at h
    cases raw with
    | true =>
      simp only [hb, if_true, Res.bind] at h
      cases h1 : bitStreamLength b j with
      | oob => rw [h1] at h; cases h
      | err e =>
        rw [h1] at h
        simp only [Res.err.injEq] at h
        subst h
        unfold bitStreamLength Pcr.dataLength at h1
        cases h2 : Pcr.getData b j 0 0 with
        | ok r => rw [h2] at h1; by_cases c : r.2 = 0 <;> by_cases c' : r.1 = [] <;> simp [c, c'] at h1
        | oob => rw [h2] at h1; cases h1
        | err e =>
          rw [h2] at h1
          simp only at h1
          split at h1
          · cases h1
          · cases h1; exact getData_err hm h2 rfl
      | ok n =>
        rw [h1] at h
        simp only at h
        by_cases c : n > length - 7
        · simp [c] at h
        · simp only [if_neg c] at h
          cases h2 : Pcr.getData b j 0 (length - 7) with
          | ok r => rw [h2] at h; cases h
          | oob => rw [h2] at h; cases h
          | err e => rw [h2] at h; cases h; exact getData_err hm h2 rfl
    | false =>
      simp only [hb, Bool.false_eq_true, if_false, Res.bind] at h
      cases h2 : Pcr.hashData H f b j ty (length - 7) with
      | ok r => rw [h2] at h; cases h
      | oob => rw [h2] at h; cases h
      | err e =>
        rw [h2] at h
        simp only at h
        by_cases c1 : e = .smallOutput
        · simp [c1] at h
        · by_cases c2 : e = .notAvailable
          · simp [c2] at h
          · simp only [if_neg c1, if_neg c2, Res.err.injEq, Err.pcr.injEq] at h
            exact hashData_err hm h2 h

theorem valueType_eq {st : List Pcr.Bank} {p j : Nat} {b : Pcr.Bank} {m : Pcr.Meas} (hb : st[p]? = some b)
    (hm : b.list[j]? = some m) : valueType st p j = m.dmtf := by
  obtain ⟨hi, e⟩ := List.getElem?_eq_some_iff.mp hm
  unfold valueType bankOf Pcr.getDmtf
  simp only [hb, Res.bind]
  rw [if_neg (by omega), Pcr.at'_lt hi, e]
  rfl

theorem inTcb_eq {st : List Pcr.Bank} {t : Nat × Nat} {b : Pcr.Bank} {m : Pcr.Meas} (hb : st[t.1]? = some b)
    (hm : b.list[t.2]? = some m) : inTcb st t = !m.notTcb := by
  obtain ⟨hi, e⟩ := List.getElem?_eq_some_iff.mp hm
  unfold inTcb bankOf Pcr.inTcb
  simp only [hb, Res.bind]
  rw [if_neg (by omega), Pcr.at'_lt hi, e]
  rfl

theorem build_raw {fail ff : Bool} {R : Nat → Nat → Bytes} {st : List Pcr.Bank} (g : Good fail R st) {H : Pcr.Hash} {id : UInt8}
    {p j : Nat} {b : Pcr.Bank} {m : Pcr.Meas} (hb : st[p]? = some b) (hm : b.list[j]? = some m) (ty : Pcr.HashType) (length : Nat) :
    buildBlock H ff st st id p j true ty length =
      (if length < 7 then .err .tooSmall else if R p j = [] then .err .noBitStream
        else if (R p j).length > length - 7 then .err .tooSmall else .ok (Spec.Block.mk id true m.dmtf (R p j)).wire) ∨
    (fail = true ∧ ∃ e, buildBlock H ff st st id p j true ty length = .err (.pcr e)) := by
  have hr := g.raw p b j m hb hm
  have ht : m.dmtf < 128 := g.type b (List.mem_of_getElem? hb) m (List.mem_of_getElem? hm)
  unfold buildBlock
  by_cases hl : length < 7
  · rw [if_pos hl, if_pos hl]; exact .inl rfl
  rw [if_neg hl, if_neg hl]
  unfold blockValue bankOf
  simp only [hb, if_true, valueType_eq hb hm, Res.bind]
  rcases bit_length hm hr with h | ⟨f, e, h⟩
  · rw [h]
    by_cases h0 : R p j = []
    · simp [h0]
    · simp only [if_neg h0]
      by_cases h1 : (R p j).length > length - 7
      · simp [h1]
      · simp only [if_neg h1]
        rcases Pcr.data_window_partial b j m _ hm hr 0 (length - 7) (by omega) with h2 | ⟨f, e, h2⟩
        · rw [h2]
          left
          simp only [ofPcr]
          have : window (R p j) 0 (length - 7) = R p j := by
            unfold window; rw [List.drop_zero, List.take_of_length_le (by omega)]
          rw [this, header_wire ht]
        · right
          rw [h2]
          exact ⟨f, e, rfl⟩
  · right
    rw [h]
    exact ⟨f, e, rfl⟩

/-- A digest can be had for the measurement. -/
def Hashable (ty : Pcr.HashType) (b : Pcr.Bank) (m : Pcr.Meas) : Prop :=
  ty = .sha2 b.algo ∨ (m.data.isSome = true ∧ ∀ get, m.data ≠ some (.callback get none))

/-- The measurement as the specification sees it. -/
def itemOf (R : Nat → Nat → Bytes) (p j : Nat) (b : Pcr.Bank) (m : Pcr.Meas) : Spec.Item :=
  ⟨b.algo, m.dmtf, !m.notTcb, m.digest, R p j⟩

theorem build_hash {fail ff : Bool} {R : Nat → Nat → Bytes} {st : List Pcr.Bank} (g : Good fail R st) {H : Pcr.Hash} {id : UInt8}
    {p j : Nat} {b : Pcr.Bank} {m : Pcr.Meas} (hb : st[p]? = some b) (hm : b.list[j]? = some m) (ty : Pcr.HashType) (length : Nat) :
    (∀ out, buildBlock H ff st st id p j false ty length = .ok out →
      7 + ty.len ≤ length ∧ out = (Spec.Block.mk id false m.dmtf ((itemOf R p j b m).hash H ty)).wire) ∧
    (fail = false → ff = false → Hashable ty b m → buildBlock H ff st st id p j false ty length =
      if length < 7 + ty.len then .err .tooSmall else
        .ok (Spec.Block.mk id false m.dmtf ((itemOf R p j b m).hash H ty)).wire) := by
  have hr := g.raw p b j m hb hm
  have ht : m.dmtf < 128 := g.type b (List.mem_of_getElem? hb) m (List.mem_of_getElem? hm)
  obtain ⟨hi, he⟩ := List.getElem?_eq_some_iff.mp hm
  unfold buildBlock
  by_cases hl : length < 7
  · rw [if_pos hl, if_pos (by omega)]
    exact ⟨fun out h => (by cases h), fun _ _ _ => rfl⟩
  rw [if_neg hl]
  unfold blockValue bankOf
  simp only [hb, Bool.false_eq_true, if_false, valueType_eq hb hm, Res.bind]
  by_cases h1 : length - 7 < ty.len
  · have : Pcr.hashData H ff b j ty (length - 7) = .err .smallOutput := by
      unfold Pcr.hashData
      rw [if_neg (by omega), if_pos h1]
    rw [this, if_pos (by omega)]
    exact ⟨fun out h => (by cases h), fun _ _ _ => rfl⟩
  · obtain ⟨k1, k2, k3⟩ := Pcr.data_hash_partial H ff b j m _ hm hr ty (length - 7) (by omega)
    rw [if_neg (by omega)]
    by_cases ha : ty = .sha2 b.algo
    · rw [k1 ha]
      have : (itemOf R p j b m).hash H ty = m.digest := by
        unfold Spec.Item.hash itemOf; simp [ha]
      simp only [this, header_wire ht]
      exact ⟨fun out h => ⟨by omega, (by injection h with h; exact h.symm)⟩, fun _ _ _ => (by trivial)⟩
    · have hh : (itemOf R p j b m).hash H ty = H ty (R p j) := by
        unfold Spec.Item.hash itemOf; simp [ha]
      refine ⟨fun out h => ?_, fun e1 e2 e3 => ?_⟩
      · cases hv : Pcr.hashData H ff b j ty (length - 7) with
        | err e => rw [hv] at h; by_cases c1 : e = .smallOutput <;> by_cases c2 : e = .notAvailable <;> simp [c1, c2] at h
        | oob => rw [hv] at h; cases h
        | ok v =>
          rw [hv] at h
          have := k2 ha v hv
          subst this
          simp only [header_wire ht, Res.ok.injEq] at h
          exact ⟨by omega, by rw [hh]; exact h.symm⟩
      · obtain h2 | ⟨h2, h3⟩ := e3
        · exact absurd h2 ha
        · rw [k3 ha e1 e2 h3 h2, hh]
          simp only [header_wire ht]

/-- Places of measurements. -/
def Place (st : List Pcr.Bank) (t : Nat × Nat) : Prop := ∃ b m, st[t.1]? = some b ∧ b.list[t.2]? = some m

theorem order_eq (st : List Pcr.Bank) : ∀ p, order p st = Pcr.allTypes p st := by
  induction st with
  | nil => intro p; rfl
  | cons b bs ih =>
    intro p
    unfold order Pcr.allTypes Pcr.num
    rw [ih]
    cases b.explicit <;> simp

theorem order_place (st : List Pcr.Bank) : ∀ t ∈ order 0 st, Place st t := by
  have : ∀ (l pre : List Pcr.Bank), pre ++ l = st → ∀ t ∈ order pre.length l, Place st t := by
    intro l
    induction l with
    | nil => intro pre _ t ht; simp [order] at ht
    | cons b bs ih =>
      intro pre hp t ht
      unfold order at ht
      rcases List.mem_append.1 ht with h | h
      · obtain ⟨j, hj, rfl⟩ := List.mem_map.1 h
        have hj := List.mem_range.1 hj
        have hl : j < b.list.length := by
          unfold Pcr.num at hj
          split at hj <;> omega
        refine ⟨b, b.list[j], ?_, List.getElem?_eq_getElem hl⟩
        rw [← hp]; simp
      · exact ih (pre ++ [b]) (by rw [← hp]; simp) t (by simpa using h)
  exact this st [] rfl

theorem place_item {st : List Pcr.Bank} {t : Nat × Nat} {b : Pcr.Bank} {m : Pcr.Meas} (R : Nat → Nat → Bytes)
    (hb : st[t.1]? = some b) (hm : b.list[t.2]? = some m) : Spec.itemAt R st t = some (itemOf R t.1 t.2 b m) := by
  unfold Spec.itemAt
  simp [hb, hm, itemOf]

theorem either_ok {fail ff : Bool} {R : Nat → Nat → Bytes} {st : List Pcr.Bank} (g : Good fail R st) {H : Pcr.Hash} {k : Nat}
    {t : Nat × Nat} {b : Pcr.Bank} {m : Pcr.Meas} (hb : st[t.1]? = some b) (hm : b.list[t.2]? = some m) {raw : Bool}
    {ty : Pcr.HashType} {length : Nat} {out : Bytes} (h : eitherBlock H ff st (UInt8.ofNat k) t raw ty length = .ok out) :
    out = ((itemOf R t.1 t.2 b m).block H raw ty k).wire ∧ out.length ≤ length ∨
    out = ((itemOf R t.1 t.2 b m).block H raw ty k).wire ∧ 7 + ty.len ≤ length ∧
      ((itemOf R t.1 t.2 b m).block H raw ty k).value = (itemOf R t.1 t.2 b m).hash H ty := by
  unfold eitherBlock at h
  cases raw with
  | false =>
    right
    have hne : buildBlock H ff st st (UInt8.ofNat k) t.1 t.2 false ty length = .ok out := by
      split at h
      · exact h
      · exact h
    obtain ⟨h1, h2⟩ := (build_hash g hb hm ty length).1 out hne
    have e : (itemOf R t.1 t.2 b m).block H false ty k = ⟨UInt8.ofNat k, false, m.dmtf, (itemOf R t.1 t.2 b m).hash H ty⟩ := by
      unfold Spec.Item.block; simp [itemOf]
    rw [e]
    exact ⟨h2, h1, rfl⟩
  | true =>
    rcases build_raw (ff := ff) (H := H) (id := UInt8.ofNat k) g hb hm ty length with h1 | ⟨_, e, h1⟩
    · by_cases hl : length < 7
      · rw [if_pos hl] at h1; rw [h1] at h; cases h
      rw [if_neg hl] at h1
      by_cases h0 : R t.1 t.2 = []
      · rw [if_pos h0] at h1
        rw [h1] at h
        simp only at h
        right
        obtain ⟨h2, h3⟩ := (build_hash g hb hm ty length).1 out h
        have e : (itemOf R t.1 t.2 b m).block H true ty k = ⟨UInt8.ofNat k, false, m.dmtf, (itemOf R t.1 t.2 b m).hash H ty⟩ := by
          unfold Spec.Item.block; simp [itemOf, h0]
        rw [e]
        exact ⟨h3, h2, rfl⟩
      · rw [if_neg h0] at h1
        split at h1
        · rw [h1] at h; cases h
        · rename_i h4
          rw [h1] at h
          simp only [Res.ok.injEq] at h
          left
          have e : (itemOf R t.1 t.2 b m).block H true ty k = ⟨UInt8.ofNat k, true, m.dmtf, R t.1 t.2⟩ := by
            unfold Spec.Item.block; simp [itemOf, h0]
          rw [e, ← h]
          refine ⟨rfl, ?_⟩
          rw [wire_length]
          simp only; omega
    · rw [h1] at h; cases h

theorem hash_length {fail : Bool} {R : Nat → Nat → Bytes} {st : List Pcr.Bank} (g : Good fail R st) {H : Pcr.Hash}
    (hH : Pcr.GoodHash H) {p j : Nat} {b : Pcr.Bank} {m : Pcr.Meas} (hb : st[p]? = some b) (hm : b.list[j]? = some m)
    (ty : Pcr.HashType) : ((itemOf R p j b m).hash H ty).length = ty.len := by
  unfold Spec.Item.hash
  split
  · rename_i h
    rw [h]
    exact (g.wf b (List.mem_of_getElem? hb)).digest m (List.mem_of_getElem? hm)
  · exact hH _ _

theorem ofNat_succ (k : Nat) : UInt8.ofNat k + 1 = UInt8.ofNat (k + 1) := by
  apply UInt8.toNat_inj.1
  simp [UInt8.toNat_add, UInt8.toNat_ofNat']

theorem either_len {fail ff : Bool} {R : Nat → Nat → Bytes} {st : List Pcr.Bank} (g : Good fail R st) {H : Pcr.Hash}
    (hH : Pcr.GoodHash H) {k : Nat} {t : Nat × Nat} {b : Pcr.Bank} {m : Pcr.Meas} (hb : st[t.1]? = some b)
    (hm : b.list[t.2]? = some m) {raw : Bool} {ty : Pcr.HashType} {length : Nat} {out : Bytes}
    (h : eitherBlock H ff st (UInt8.ofNat k) t raw ty length = .ok out) :
    out = ((itemOf R t.1 t.2 b m).block H raw ty k).wire ∧ out.length ≤ length := by
  rcases either_ok g hb hm h with h | ⟨h1, h2, h3⟩
  · exact h
  · refine ⟨h1, ?_⟩
    rw [h1, wire_length, h3, hash_length g hH hb hm]
    exact h2

theorem all_ok {fail : Bool} {R : Nat → Nat → Bytes} {st : List Pcr.Bank} (g : Good fail R st) {H : Pcr.Hash}
    (hH : Pcr.GoodHash H) {f : Nat × Nat → Bool} {raw : Bool} {ty : Pcr.HashType} : ∀ (ts : List (Nat × Nat)) (k length : Nat) (out : Bytes),
    (∀ t ∈ ts, Place st t) → allLoop H f st raw ty ts (UInt8.ofNat k) length = .ok out →
    out = Spec.wires ((Spec.number k (ts.filterMap (Spec.itemAt R st))).map fun x => x.2.block H raw ty x.1) ∧ out.length ≤ length
  | [], k, length, out, _, h => by
    cases h
    exact ⟨rfl, Nat.zero_le _⟩
  | t :: ts, k, length, out, hp, h => by
    unfold allLoop at h
    obtain ⟨x, h1, h⟩ := Res.bind_eq_ok.1 h
    obtain ⟨r, h2, h⟩ := Res.bind_eq_ok.1 h
    cases h
    obtain ⟨b, m, hb, hm⟩ := hp t (by simp)
    obtain ⟨e1, e2⟩ := either_len g hH hb hm h1
    rw [ofNat_succ] at h2
    obtain ⟨e3, e4⟩ := all_ok g hH ts (k + 1) _ r (fun t ht => hp t (by simp [ht])) h2
    rw [List.filterMap_cons, place_item R hb hm]
    simp only [Spec.number, Spec.wires, List.map_cons, List.flatten_cons]
    refine ⟨?_, ?_⟩
    · rw [e1, e3]; rfl
    · rw [List.length_append]; omega

theorem summary_ok {fail : Bool} {R : Nat → Nat → Bytes} {st : List Pcr.Bank} (g : Good fail R st) {H : Pcr.Hash}
    {f : Nat × Nat → Bool} {ty : Pcr.HashType} {tcb : Bool} : ∀ (ts : List (Nat × Nat)) (k : Nat) (out : Bytes),
    (∀ t ∈ ts, Place st t) → summaryLoop H f st ty tcb ts (UInt8.ofNat k) = .ok out →
    out = Spec.wires (((Spec.number k (ts.filterMap (Spec.itemAt R st))).filter fun x => !tcb || x.2.tcb).map fun x => x.2.block H false ty x.1)
  | [], k, out, _, h => by cases h; rfl
  | t :: ts, k, out, hp, h => by
    obtain ⟨b, m, hb, hm⟩ := hp t (by simp)
    unfold summaryLoop at h
    rw [inTcb_eq hb hm] at h
    rw [List.filterMap_cons, place_item R hb hm]
    simp only [Spec.number]
    rw [List.filter_cons]
    by_cases hc : (!tcb || !m.notTcb) = true
    · rw [if_pos hc] at h
      rw [if_pos (show (!tcb || (k, itemOf R t.1 t.2 b m).2.tcb) = true from hc)]
      obtain ⟨x, h1, h⟩ := Res.bind_eq_ok.1 h
      obtain ⟨r, h2, h⟩ := Res.bind_eq_ok.1 h
      cases h
      obtain ⟨_, e1⟩ := (build_hash g hb hm ty 71).1 x h1
      rw [ofNat_succ] at h2
      have e3 := summary_ok g ts (k + 1) r (fun t ht => hp t (by simp [ht])) h2
      have e : (itemOf R t.1 t.2 b m).block H false ty k = ⟨UInt8.ofNat k, false, m.dmtf, (itemOf R t.1 t.2 b m).hash H ty⟩ := by
        unfold Spec.Item.block; simp [itemOf]
      simp only [Spec.wires, List.map_cons, List.flatten_cons, e]
      rw [e1, e3]
      rfl
    · rw [if_neg hc] at h
      rw [if_neg (show ¬ (!tcb || (k, itemOf R t.1 t.2 b m).2.tcb) = true from hc)]
      rw [ofNat_succ] at h
      exact summary_ok g ts (k + 1) out (fun t ht => hp t (by simp [ht])) h

end Verif.SpdmMeas
