import Verif.SpdmMeas.Lemmas
import Mathlib.Tactic.ByContra
/-! C135: SPDM measurement blocks are the measurements. -/
namespace Verif.SpdmMeas
open Verif

/-- A block whose fields fit the format. -/
def Fits (b : Spec.Block) : Prop := b.type < 128 ∧ b.value.length < 65533

theorem read1_wire {b : Spec.Block} (h : Fits b) (rest : Bytes) : Spec.read1 (b.wire ++ rest) = some (b, rest) := by
  obtain ⟨i, raw, ty, v⟩ := b
  obtain ⟨h1, h2⟩ := h
  simp only at h1 h2
  simp only [Spec.Block.wire, toLE, List.cons_append, List.nil_append, Spec.read1, UInt8.toNat_ofNat']
  have e1 : v.length % 2 ^ 8 + 256 * (v.length / 256 % 2 ^ 8) = v.length := by omega
  have e2 : (3 + v.length) % 2 ^ 8 + 256 * ((3 + v.length) / 256 % 2 ^ 8) = v.length + 3 := by omega
  rw [e1, e2]
  simp only [true_and, List.length_append, Nat.le_add_right, if_true, and_self]
  cases raw
  · simp; omega
  · simp; omega

/-- **C135, decoding.** A requester reads from a record exactly the blocks that were put into it. -/
theorem blocks_read (l : List Spec.Block) (h : ∀ b ∈ l, Fits b) : Spec.readAll l.length (Spec.wires l) = some l := by
  induction l with
  | nil => rfl
  | cons b l ih =>
    have e : Spec.wires (b :: l) = b.wire ++ Spec.wires l := rfl
    rw [e]
    simp only [List.length_cons, Spec.readAll, read1_wire (h b (by simp)), Option.bind_some,
      ih (fun x hx => h x (by simp [hx])), Option.map_some]

theorem filterMap_get {α β : Type} {f : α → Option β} : ∀ (l : List α), (∀ x ∈ l, (f x).isSome = true) →
    ∀ k : Nat, (l.filterMap f)[k]? = l[k]?.bind f
  | [], _, k => by simp
  | x :: l, h, k => by
    have hx := h x (by simp)
    obtain ⟨y, hy⟩ := Option.isSome_iff_exists.1 hx
    rw [List.filterMap_cons, hy]
    cases k with
    | zero => simp [hy]
    | succ k => simpa using filterMap_get l (fun x hx => h x (by simp [hx])) k

theorem items_get (R : Nat → Nat → Bytes) (st : List Pcr.Bank) (k : Nat) :
    (Spec.items R st)[k]? = (Pcr.allTypes 0 st)[k]?.bind (Spec.itemAt R st) := by
  refine filterMap_get _ (fun t ht => ?_) k
  rw [← order_eq] at ht
  obtain ⟨b, m, hb, hm⟩ := order_place st t ht
  rw [place_item R hb hm]
  rfl

theorem items_length (R : Nat → Nat → Bytes) (st : List Pcr.Bank) : (Spec.items R st).length = count st := by
  unfold count
  rw [← Pcr.sequential_total]
  have : ∀ k, k < (Spec.items R st).length ↔ k < (Pcr.allTypes 0 st).length := by
    intro k
    have h := items_get R st k
    constructor
    · intro hk
      rw [List.getElem?_eq_getElem hk] at h
      by_contra hc
      rw [List.getElem?_eq_none (by omega)] at h
      cases h
    · intro hk
      by_contra hc
      rw [List.getElem?_eq_none (by omega), List.getElem?_eq_getElem hk] at h
      have hm : (Pcr.allTypes 0 st)[k] ∈ order 0 st := by rw [order_eq]; exact List.getElem_mem hk
      obtain ⟨b, m, hb, hm⟩ := order_place st _ hm
      simp only [Option.bind_some, place_item R hb hm] at h
      cases h
  have h1 := this (Spec.items R st).length
  have h2 := this (Pcr.allTypes 0 st).length
  omega

theorem number_get {α : Type} : ∀ (l : List α) (k i : Nat), (Spec.number k l)[i]? = l[i]?.map fun x => (k + i, x)
  | [], k, i => by simp [Spec.number]
  | x :: l, k, 0 => by simp [Spec.number]
  | x :: l, k, i + 1 => by
    simp only [Spec.number, List.getElem?_cons_succ, number_get l (k + 1) i]
    congr 1; funext y; rw [show k + 1 + i = k + (i + 1) by omega]

theorem number_length {α : Type} (l : List α) : ∀ k, (Spec.number k l).length = l.length := by
  induction l with
  | nil => intro k; rfl
  | cons x l ih => intro k; simp [Spec.number, ih]

theorem number_mem {α : Type} : ∀ (l : List α) (k : Nat) (x : Nat × α), x ∈ Spec.number k l → x.2 ∈ l
  | [], _, _, h => by simp [Spec.number] at h
  | y :: l, k, x, h => by
    simp only [Spec.number, List.mem_cons] at h
    rcases h with rfl | h
    · simp
    · exact List.mem_cons_of_mem _ (number_mem l _ x h)

/-- **C135, numbering.** The block of the `k`-th measurement, counted from 1, has index `k`; with at most
254 measurements no reserved index is used. -/
theorem blocks_index (H : Pcr.Hash) (raw : Bool) (ty : Pcr.HashType) (l : List Spec.Item) (hl : l.length ≤ 254) (k : Nat)
    (b : Spec.Block) (h : (Spec.blocks H raw ty l)[k]? = some b) :
    b.index.toNat = k + 1 ∧ b.index ≠ 0 ∧ b.index ≠ 0xff ∧ ∃ x, l[k]? = some x ∧ b = x.block H raw ty (k + 1) := by
  unfold Spec.blocks at h
  rw [List.getElem?_map, number_get, Option.map_map] at h
  cases hx : l[k]? with
  | none => rw [hx] at h; cases h
  | some x =>
    rw [hx] at h
    have hk : k < l.length := (List.getElem?_eq_some_iff.1 hx).1
    simp only [Option.map_some, Function.comp, Option.some.injEq] at h
    rw [show 1 + k = k + 1 by omega] at h
    subst h
    have hi : (x.block H raw ty (k + 1)).index = UInt8.ofNat (k + 1) := by
      unfold Spec.Item.block; split <;> rfl
    have hn : (UInt8.ofNat (k + 1)).toNat = k + 1 := by rw [UInt8.toNat_ofNat']; omega
    rw [hi]
    refine ⟨hn, ?_, ?_, x, rfl, rfl⟩
    · intro h0; rw [h0] at hn; simp at hn
    · intro h0; rw [h0] at hn
      have : (255 : UInt8).toNat = 255 := rfl
      omega

theorem items_fit {fail : Bool} {R : Nat → Nat → Bytes} {st : List Pcr.Bank} (g : Good fail R st) {H : Pcr.Hash}
    (hH : Pcr.GoodHash H) (raw : Bool) (ty : Pcr.HashType) (k : Nat) (x : Spec.Item) (h : x ∈ Spec.items R st) :
    Fits (x.block H raw ty k) := by
  unfold Spec.items at h
  obtain ⟨t, ht, hx⟩ := List.mem_filterMap.1 h
  rw [← order_eq] at ht
  obtain ⟨b, m, hb, hm⟩ := order_place st t ht
  rw [place_item R hb hm] at hx
  cases hx
  have h1 := g.type b (List.mem_of_getElem? hb) m (List.mem_of_getElem? hm)
  have h2 := hash_length g hH hb hm ty
  have h3 := g.size t.1 t.2
  have h4 : ty.len ≤ 64 := by
    cases ty with
    | sha1 => decide
    | sha2 a => cases a <;> decide
  unfold Spec.Item.block Fits
  split
  · exact ⟨h1, h3⟩
  · exact ⟨h1, by simp only; omega⟩

/-- **C135, all blocks.** A record that is returned holds one block for each measurement of the device, in
order, with its type and its data or digest; it fits the buffer, and a requester that reads as many
blocks as are announced gets exactly these. -/
theorem all_exact_partial {fail : Bool} {R : Nat → Nat → Bytes} {st : List Pcr.Bank} (g : Good fail R st) {H : Pcr.Hash}
    (hH : Pcr.GoodHash H) (f : Nat × Nat → Bool) (raw : Bool) (ty : Pcr.HashType) (length : Nat) (out : Bytes)
    (h : allBlocks H f st raw ty length = .ok out) :
    out = Spec.wires (Spec.blocks H raw ty (Spec.items R st)) ∧ out.length ≤ length ∧
    Spec.readAll (count st) out = some (Spec.blocks H raw ty (Spec.items R st)) := by
  unfold allBlocks at h
  obtain ⟨h1, h2⟩ := all_ok g hH (order 0 st) 1 length out (order_place st) h
  rw [order_eq] at h1
  refine ⟨h1, h2, ?_⟩
  have hl : (Spec.blocks H raw ty (Spec.items R st)).length = count st := by
    unfold Spec.blocks
    rw [List.length_map, number_length, items_length]
  rw [← hl, h1]
  refine blocks_read _ fun b hb => ?_
  obtain ⟨x, hx, rfl⟩ := List.mem_map.1 hb
  exact items_fit g hH raw ty _ _ (number_mem _ _ _ hx)

/-- A block can be made for the measurement. -/
def PossibleAt (R : Nat → Nat → Bytes) (st : List Pcr.Bank) (raw : Bool) (ty : Pcr.HashType) (t : Nat × Nat) : Prop :=
  ∀ b m, st[t.1]? = some b → b.list[t.2]? = some m → (raw = true ∧ R t.1 t.2 ≠ []) ∨ Hashable ty b m

/-- A block can be made for every measurement. -/
def Possible (R : Nat → Nat → Bytes) (st : List Pcr.Bank) (raw : Bool) (ty : Pcr.HashType) : Prop :=
  ∀ t ∈ Pcr.allTypes 0 st, PossibleAt R st raw ty t

theorem either_complete {R : Nat → Nat → Bytes} {st : List Pcr.Bank} (g : Good false R st) {H : Pcr.Hash}
    (hH : Pcr.GoodHash H) {raw : Bool} {ty : Pcr.HashType} {t : Nat × Nat} (hp : PossibleAt R st raw ty t) {b : Pcr.Bank}
    {m : Pcr.Meas} (hb : st[t.1]? = some b) (hm : b.list[t.2]? = some m) (k length : Nat) :
    eitherBlock H false st (UInt8.ofNat k) t raw ty length =
      if length < ((itemOf R t.1 t.2 b m).block H raw ty k).wire.length then .err .tooSmall
      else .ok ((itemOf R t.1 t.2 b m).block H raw ty k).wire := by
  have hl := hash_length g hH hb hm ty
  rw [wire_length]
  unfold eitherBlock
  by_cases hr : raw = true ∧ R t.1 t.2 ≠ []
  · obtain ⟨rfl, h0⟩ := hr
    have e : (itemOf R t.1 t.2 b m).block H true ty k = ⟨UInt8.ofNat k, true, m.dmtf, R t.1 t.2⟩ := by
      unfold Spec.Item.block; simp [itemOf, h0]
    rw [e]
    rcases build_raw (ff := false) (H := H) (id := UInt8.ofNat k) g hb hm ty length with h1 | ⟨h1, _⟩
    · rw [h1]
      by_cases c1 : length < 7
      · rw [if_pos c1, if_pos (by omega)]
      · rw [if_neg c1, if_neg h0]
        simp only
        by_cases c2 : (R t.1 t.2).length > length - 7
        · rw [if_pos c2, if_pos (by omega)]
        · rw [if_neg c2, if_neg (by omega)]
    · cases h1
  · have hh : Hashable ty b m := by
      rcases hp b m hb hm with h | h
      · exact absurd h hr
      · exact h
    have e : (itemOf R t.1 t.2 b m).block H raw ty k = ⟨UInt8.ofNat k, false, m.dmtf, (itemOf R t.1 t.2 b m).hash H ty⟩ := by
      unfold Spec.Item.block
      rw [if_neg (by simpa [itemOf] using hr)]
      rfl
    rw [e]
    simp only [hl]
    have hb2 := (build_hash (ff := false) (H := H) (id := UInt8.ofNat k) g hb hm ty length).2 rfl rfl hh
    cases raw with
    | false =>
      rw [hb2]
      by_cases c : length < 7 + ty.len
      · rw [if_pos c]
      · rw [if_neg c]
    | true =>
      have h0 : R t.1 t.2 = [] := by
        by_contra h0; exact hr ⟨rfl, h0⟩
      rcases build_raw (ff := false) (H := H) (id := UInt8.ofNat k) g hb hm ty length with h1 | ⟨h1, _⟩
      · rw [h1]
        by_cases c1 : length < 7
        · rw [if_pos c1, if_pos (by omega)]
        · rw [if_neg c1, if_pos h0]
          exact hb2
      · cases h1

theorem all_complete {R : Nat → Nat → Bytes} {st : List Pcr.Bank} (g : Good false R st) {H : Pcr.Hash}
    (hH : Pcr.GoodHash H) {raw : Bool} {ty : Pcr.HashType} : ∀ (ts : List (Nat × Nat)) (k length : Nat),
    (∀ t ∈ ts, Place st t) → (∀ t ∈ ts, PossibleAt R st raw ty t) → allLoop H (fun _ => false) st raw ty ts (UInt8.ofNat k) length =
      (let r := Spec.wires ((Spec.number k (ts.filterMap (Spec.itemAt R st))).map fun x => x.2.block H raw ty x.1)
       if length < r.length then .err .tooSmall else .ok r)
  | [], k, length, _, _ => by
    simp [allLoop, Spec.wires, Spec.number]
  | t :: ts, k, length, hpl, hp => by
    obtain ⟨b, m, hb, hm⟩ := hpl t (by simp)
    unfold allLoop
    rw [List.filterMap_cons, place_item R hb hm, either_complete g hH (hp t (by simp)) hb hm]
    simp only [Spec.number, Spec.wires, List.map_cons, List.flatten_cons, List.length_append]
    by_cases c : length < ((itemOf R t.1 t.2 b m).block H raw ty k).wire.length
    · rw [if_pos c, if_pos (by omega)]; rfl
    · rw [if_neg c]
      simp only [Res.bind]
      rw [ofNat_succ, all_complete g hH ts (k + 1) _ (fun t ht => hpl t (by simp [ht])) (fun t ht => hp t (by simp [ht]))]
      generalize hr : Spec.wires ((Spec.number (k + 1) (ts.filterMap (Spec.itemAt R st))).map fun x => x.2.block H raw ty x.1) = r
      unfold Spec.wires at hr
      rw [hr]
      dsimp only
      by_cases c2 : length - ((itemOf R t.1 t.2 b m).block H raw ty k).wire.length < r.length
      · rw [if_pos c2, if_pos (by omega)]
      · rw [if_neg c2, if_neg (by omega)]

theorem length_eq {R : Nat → Nat → Bytes} {st : List Pcr.Bank} (g : Good false R st) {H : Pcr.Hash}
    (hH : Pcr.GoodHash H) {raw : Bool} {ty : Pcr.HashType} : ∀ (ts : List (Nat × Nat)) (k : Nat),
    (∀ t ∈ ts, Place st t) → allLength.go st raw ty ts =
      .ok (Spec.wires ((Spec.number k (ts.filterMap (Spec.itemAt R st))).map fun x => x.2.block H raw ty x.1)).length
  | [], k, _ => rfl
  | t :: ts, k, hpl => by
    obtain ⟨b, m, hb, hm⟩ := hpl t (by simp)
    unfold allLength.go
    rw [length_eq g hH ts (k + 1) (fun t ht => hpl t (by simp [ht])), List.filterMap_cons, place_item R hb hm]
    simp only [Spec.number, Spec.wires, List.map_cons, List.flatten_cons, List.length_append]
    have h1 : sizeOf1 st raw ty t = .ok ((itemOf R t.1 t.2 b m).block H raw ty k).wire.length := by
      rw [wire_length]
      have hl := hash_length g hH hb hm ty
      unfold sizeOf1 Spec.Item.block
      cases raw with
      | false => simp [hl]
      | true =>
        simp only [if_true, bankOf, hb, Res.bind]
        rcases bit_length hm (g.raw _ _ _ _ hb hm) with h | ⟨h, _⟩
        · rw [h]
          by_cases h0 : R t.1 t.2 = []
          · have hc : (itemOf R t.1 t.2 b m).data = [] := h0
            simp [h0, hc, hl]
          · have hc : (itemOf R t.1 t.2 b m).data = R t.1 t.2 := rfl
            simp [h0, hc]
        · cases h
    rw [h1]
    rfl

/-- **C135, length.** The length announced for all blocks is the length of the record, and the record is
returned exactly if the buffer has that length; provided that nothing fails and every measurement has
data or a digest of the algorithm. -/
theorem all_length_partial {R : Nat → Nat → Bytes} {st : List Pcr.Bank} (g : Good false R st) {H : Pcr.Hash}
    (hH : Pcr.GoodHash H) (raw : Bool) (ty : Pcr.HashType) :
    ∃ n, allLength st raw ty = .ok n ∧ n = (Spec.wires (Spec.blocks H raw ty (Spec.items R st))).length ∧
    (Possible R st raw ty → ∀ length, allBlocks H (fun _ => false) st raw ty length =
      if length < n then .err .tooSmall else .ok (Spec.wires (Spec.blocks H raw ty (Spec.items R st)))) := by
  have h1 := length_eq (raw := raw) (ty := ty) g hH (order 0 st) 1 (order_place st)
  refine ⟨_, h1, by rw [order_eq]; rfl, fun hp length => ?_⟩
  have h2 := all_complete g hH (order 0 st) 1 length (order_place st) (by rw [order_eq]; exact hp)
  unfold allBlocks
  rw [show (1 : UInt8) = UInt8.ofNat 1 from rfl, h2, order_eq]
  rfl

theorem typeOf_ok {st : List Pcr.Bank} (hw : ∀ b ∈ st, Pcr.WF b) {id : UInt8} {t : Nat × Nat} (h : typeOf st id = .ok t) :
    id ≠ 0 ∧ id ≠ 0xff ∧ (Pcr.allTypes 0 st)[id.toNat - 1]? = some t := by
  unfold typeOf at h
  split at h
  · cases h
  · rename_i hn
    rw [Pcr.sequential_ids st hw] at h
    refine ⟨fun h0 => hn (.inl h0), fun h0 => hn (.inr h0), ?_⟩
    cases ha : (Pcr.allTypes 0 st)[id.toNat - 1]? with
    | none => rw [ha] at h; cases h
    | some t' => rw [ha] at h; cases h; rfl

theorem place_of {st : List Pcr.Bank} {k : Nat} {t : Nat × Nat} (h : (Pcr.allTypes 0 st)[k]? = some t) : Place st t :=
  order_place st t (by rw [order_eq]; exact List.mem_of_getElem? h)

/-- **C135, one block.** A block that is returned is the one of the measurement with this number. Raw data
are never replaced by a digest. -/
theorem block_exact_partial {fail : Bool} {R : Nat → Nat → Bytes} {st : List Pcr.Bank} (g : Good fail R st) {H : Pcr.Hash}
    (hH : Pcr.GoodHash H) (f : Bool) (id : UInt8) (raw : Bool) (ty : Pcr.HashType) (length : Nat) (out : Bytes)
    (h : getBlock H f st st id raw ty length = .ok out) :
    id ≠ 0 ∧ id ≠ 0xff ∧ ∃ x, (Spec.items R st)[id.toNat - 1]? = some x ∧ (raw = true → x.data ≠ []) ∧
      out = (x.block H raw ty id.toNat).wire ∧ out.length ≤ length ∧
      Spec.read1 out = some (x.block H raw ty id.toNat, []) := by
  unfold getBlock at h
  obtain ⟨t, h1, h⟩ := Res.bind_eq_ok.1 h
  obtain ⟨i1, i2, h1⟩ := typeOf_ok g.wf h1
  obtain ⟨b, m, hb, hm⟩ := place_of h1
  have hx : (Spec.items R st)[id.toNat - 1]? = some (itemOf R t.1 t.2 b m) := by
    rw [items_get, h1]
    exact place_item R hb hm
  have hf := items_fit g hH raw ty id.toNat _ (List.mem_of_getElem? hx)
  have hid : UInt8.ofNat id.toNat = id := UInt8.ofNat_toNat
  have key : (raw = true → (itemOf R t.1 t.2 b m).data ≠ []) ∧ out = ((itemOf R t.1 t.2 b m).block H raw ty id.toNat).wire ∧
      out.length ≤ length := by
    cases raw with
    | false =>
      obtain ⟨h2, h3⟩ := (build_hash g hb hm ty length).1 out h
      have e : (itemOf R t.1 t.2 b m).block H false ty id.toNat = ⟨id, false, m.dmtf, (itemOf R t.1 t.2 b m).hash H ty⟩ := by
        unfold Spec.Item.block; simp [itemOf]
      rw [e]
      refine ⟨nofun, h3, ?_⟩
      rw [h3, wire_length]
      simp only [hash_length g hH hb hm ty]; omega
    | true =>
      rcases build_raw (ff := f) (H := H) (id := id) g hb hm ty length with h2 | ⟨_, e, h2⟩
      · rw [h2] at h
        split at h
        · cases h
        · split at h
          · cases h
          · rename_i c1 h0
            split at h
            · cases h
            · cases h
              have e : (itemOf R t.1 t.2 b m).block H true ty id.toNat = ⟨id, true, m.dmtf, R t.1 t.2⟩ := by
                unfold Spec.Item.block; simp [itemOf, h0]
              rw [e]
              refine ⟨fun _ => h0, rfl, ?_⟩
              rw [wire_length]
              simp only; omega
      · rw [h2] at h; cases h
  obtain ⟨k1, k2, k3⟩ := key
  refine ⟨i1, i2, _, hx, k1, k2, k3, ?_⟩
  have := read1_wire hf []
  rw [List.append_nil] at this
  rw [k2]
  exact this

/-- **C135, other numbers.** Reserved numbers and numbers beyond the count are refused. -/
theorem block_refused {st : List Pcr.Bank} (hw : ∀ b ∈ st, Pcr.WF b) (H : Pcr.Hash) (f : Bool) (id : UInt8) (raw : Bool)
    (ty : Pcr.HashType) (length : Nat) (h : id = 0 ∨ id = 0xff ∨ count st < id.toNat) :
    ∃ e, getBlock H f st st id raw ty length = .err e ∧ blockLength st id = .err e := by
  have ht : ∃ e, typeOf st id = .err e := by
    unfold typeOf
    by_cases hr : id = 0 ∨ id = 0xff
    · exact ⟨_, if_pos hr⟩
    · rw [if_neg hr, Pcr.sequential_ids st hw]
      have : count st < id.toNat := by
        rcases h with h | h | h
        · exact absurd (.inl h) hr
        · exact absurd (.inr h) hr
        · exact h
      unfold count at this
      rw [← Pcr.sequential_total] at this
      rw [List.getElem?_eq_none (by omega)]
      exact ⟨_, rfl⟩
  obtain ⟨e, he⟩ := ht
  unfold getBlock blockLength
  rw [he]
  exact ⟨e, rfl, rfl⟩

/-- **C135, length of a block.** A buffer of the announced length is enough for the raw block, and it is
its length. -/
theorem block_length_partial {R : Nat → Nat → Bytes} {st : List Pcr.Bank} (g : Good false R st) (H : Pcr.Hash)
    (f : Bool) (id : UInt8) (ty : Pcr.HashType) (n : Nat) (h : blockLength st id = .ok n) :
    ∃ out, out.length = n ∧ ∀ length, getBlock H f st st id true ty length = if length < n then .err .tooSmall else .ok out := by
  unfold blockLength at h
  obtain ⟨t, h1, h⟩ := Res.bind_eq_ok.1 h
  obtain ⟨_, _, h2⟩ := typeOf_ok g.wf h1
  obtain ⟨b, m, hb, hm⟩ := place_of h2
  unfold bankOf at h
  rw [hb] at h
  obtain ⟨b', hb', h⟩ := Res.bind_eq_ok.1 h
  cases hb'
  obtain ⟨l, h3, h⟩ := Res.bind_eq_ok.1 h
  cases h
  rcases bit_length hm (g.raw _ _ _ _ hb hm) with h4 | ⟨h4, _⟩
  · rw [h4] at h3
    split at h3
    · cases h3
    · rename_i h0
      cases h3
      refine ⟨(Spec.Block.mk id true m.dmtf (R t.1 t.2)).wire, wire_length _, fun length => ?_⟩
      unfold getBlock
      rw [h1]
      rcases build_raw (ff := f) (H := H) (id := id) g hb hm ty length with h5 | ⟨h5, _⟩
      · simp only [Res.bind]
        rw [h5]
        by_cases c1 : length < 7
        · rw [if_pos c1, if_pos (by omega)]
        · rw [if_neg c1, if_neg h0]
          by_cases c2 : (R t.1 t.2).length > length - 7
          · rw [if_pos c2, if_pos (by omega)]
          · rw [if_neg c2, if_neg (by omega)]
      · cases h5
  · cases h4

/-- **C135, summary.** The summary hash is the hash of the digest blocks of the measurements, or of those
in the TCB. -/
theorem summary_exact_partial {fail : Bool} {R : Nat → Nat → Bytes} {st : List Pcr.Bank} (g : Good fail R st) (H : Pcr.Hash)
    (f : Nat × Nat → Bool) (same e1 e2 : Bool) (sty ty : Pcr.HashType) (onlyTcb : Bool) (length : Nat) (out : Bytes)
    (h : summary H f same e1 e2 st sty ty onlyTcb length = .ok out) :
    same = false ∧ sty.len ≤ length ∧ out = H sty (Spec.wires (Spec.summaryBlocks H ty onlyTcb (Spec.items R st))) := by
  unfold summary at h
  obtain ⟨_, h1, h⟩ := Res.bind_eq_ok.1 h
  obtain ⟨r, h2, h⟩ := Res.bind_eq_ok.1 h
  have h3 := summary_ok g (order 0 st) 1 r (order_place st) h2
  rw [order_eq] at h3
  split at h
  · cases h
  · cases h
    unfold startSummary at h1
    split at h1
    · cases h1
    · split at h1
      · cases h1
      · split at h1
        · cases h1
        · rename_i hs _ hl
          exact ⟨by simpa using hs, by omega, by rw [h3]; rfl⟩

/-! ### Discovery -/

/-- **C135, device ID.** The device ID lists the four PCI identifiers. -/
theorem device_id_exact (vendor device subVendor subsystem : UInt16) :
    deviceIdInit vendor device subVendor subsystem =
      Spec.deviceId [(0, toLE 2 vendor.toNat), (0x100, toLE 2 device.toNat), (0x101, toLE 2 subVendor.toNat),
        (0x102, toLE 2 subsystem.toNat)] := by
  simp [deviceIdInit, Spec.deviceId, toLE]

theorem device_ok {H : Pcr.Hash} (hH : Pcr.GoodHash H) {f : Bool} {d : Bytes} {raw : Bool} {ty : Pcr.HashType} {length : Nat} {out : Bytes}
    (h : buildDevice H f d raw ty length = .ok out) : out = (Spec.deviceBlock H raw ty d).wire ∧ out.length ≤ length := by
  unfold buildDevice at h
  split at h
  · cases h
  · cases raw with
    | true =>
      simp only [if_true] at h
      split at h
      · cases h
      · simp only [header_wire (show 2 < 128 by omega), Res.ok.injEq] at h
        subst h
        refine ⟨rfl, ?_⟩
        rw [wire_length]; simp only; omega
    | false =>
      simp only [Bool.false_eq_true, if_false] at h
      split at h
      · cases h
      · split at h
        · cases h
        · simp only [header_wire (show 2 < 128 by omega), Res.ok.injEq] at h
          subst h
          refine ⟨rfl, ?_⟩
          rw [wire_length]
          have := hH ty d
          simp only; omega

/-- **C135, discovery, all blocks.** The record is the one of the measurements followed by the block with the
device ID, and the announced number of blocks can be read from it. -/
theorem discovery_all_partial {fail : Bool} {R : Nat → Nat → Bytes} {st : List Pcr.Bank} (g : Good fail R st) {H : Pcr.Hash}
    (hH : Pcr.GoodHash H) (f : Nat × Nat → Bool) (fd : Bool) (d : Bytes) (hd : d.length < 65533) (raw : Bool) (ty : Pcr.HashType)
    (length : Nat) (out : Bytes) (h : dAllBlocks H f fd d st raw ty length = .ok out) :
    out = Spec.wires (Spec.blocks H raw ty (Spec.items R st) ++ [Spec.deviceBlock H raw ty d]) ∧ out.length ≤ length ∧
    Spec.readAll (dCount st) out = some (Spec.blocks H raw ty (Spec.items R st) ++ [Spec.deviceBlock H raw ty d]) := by
  unfold dAllBlocks at h
  obtain ⟨r, h1, h⟩ := Res.bind_eq_ok.1 h
  obtain ⟨x, h2, h⟩ := Res.bind_eq_ok.1 h
  cases h
  obtain ⟨a1, a2, _⟩ := all_exact_partial g hH f raw ty length r h1
  obtain ⟨b1, b2⟩ := device_ok hH h2
  have e : r ++ x = Spec.wires (Spec.blocks H raw ty (Spec.items R st) ++ [Spec.deviceBlock H raw ty d]) := by
    rw [b1]
    have : Spec.wires (Spec.blocks H raw ty (Spec.items R st) ++ [Spec.deviceBlock H raw ty d]) =
        Spec.wires (Spec.blocks H raw ty (Spec.items R st)) ++ (Spec.deviceBlock H raw ty d).wire := by
      simp [Spec.wires]
    rw [this, ← a1]
  refine ⟨e, by rw [List.length_append]; omega, ?_⟩
  have hl : (Spec.blocks H raw ty (Spec.items R st) ++ [Spec.deviceBlock H raw ty d]).length = dCount st := by
    unfold Spec.blocks dCount
    rw [List.length_append, List.length_map, number_length, items_length]
    rfl
  rw [← hl, e]
  refine blocks_read _ fun b hb => ?_
  rcases List.mem_append.1 hb with hb | hb
  · obtain ⟨x, hx, rfl⟩ := List.mem_map.1 hb
    exact items_fit g hH raw ty _ _ (number_mem _ _ _ hx)
  · rw [List.mem_singleton.1 hb]
    refine ⟨by show 2 < 128; omega, ?_⟩
    unfold Spec.deviceBlock
    cases raw with
    | true => exact hd
    | false =>
      have h4 : ty.len ≤ 64 := by
        cases ty with
        | sha1 => decide
        | sha2 a => cases a <;> decide
      have := hH ty d
      simp only [Bool.false_eq_true, if_false]; omega

/-- **C135, discovery, numbering.** With fewer than 239 measurements no two blocks have the same index. -/
theorem discovery_index (H : Pcr.Hash) (raw : Bool) (ty : Pcr.HashType) (l : List Spec.Item) (hl : l.length < 239) (d : Bytes)
    (b : Spec.Block) (h : b ∈ Spec.blocks H raw ty l) : b.index ≠ (Spec.deviceBlock H raw ty d).index := by
  obtain ⟨k, hk, e⟩ := List.mem_iff_getElem.1 h
  have h1 := blocks_index H raw ty l (by omega) k b (by rw [List.getElem?_eq_getElem hk, e])
  intro hc
  rw [hc] at h1
  have h2 : (239 : UInt8).toNat = 239 := rfl
  have h3 : (Spec.deviceBlock H raw ty d).index = 239 := rfl
  have : k < l.length := by
    unfold Spec.blocks at hk
    rwa [List.length_map, number_length] at hk
  rw [h3] at h1
  omega

/-- **C135, discovery, one block.** A block that is returned is the one of a measurement, or the one with the
device ID for index 0xef, if no measurement has it. -/
theorem discovery_block_partial {fail : Bool} {R : Nat → Nat → Bytes} {st : List Pcr.Bank} (g : Good fail R st) {H : Pcr.Hash}
    (hH : Pcr.GoodHash H) (f : Bool) (d : Bytes) (id : UInt8) (raw : Bool) (ty : Pcr.HashType) (length : Nat) (out : Bytes)
    (h : dGetBlock H f d st st id raw ty length = .ok out) :
    (id ≠ 0 ∧ id ≠ 0xff ∧ ∃ x, (Spec.items R st)[id.toNat - 1]? = some x ∧ (raw = true → x.data ≠ []) ∧
      out = (x.block H raw ty id.toNat).wire) ∨
    (id = 0xef ∧ count st < 0xef ∧ out = (Spec.deviceBlock H raw ty d).wire) := by
  unfold dGetBlock at h
  split at h
  · rename_i heq
    split at h
    · rename_i hid
      right
      refine ⟨hid, ?_, (device_ok hH h).1⟩
      by_contra hc
      have hne : ∃ t, typeOf st id = .ok t := by
        unfold typeOf
        rw [if_neg (by rw [hid]; decide), Pcr.sequential_ids st g.wf]
        have hl : id.toNat - 1 < (Pcr.allTypes 0 st).length := by
          rw [Pcr.sequential_total, hid]
          unfold count at hc
          have : (239 : UInt8).toNat = 239 := rfl
          omega
        rw [List.getElem?_eq_getElem hl]
        exact ⟨_, rfl⟩
      obtain ⟨t, ht⟩ := hne
      unfold getBlock at heq
      rw [ht] at heq
      obtain ⟨_, _, h2⟩ := typeOf_ok g.wf ht
      obtain ⟨b, m, hb, hm⟩ := place_of h2
      exact build_err hb hm heq
    · cases h
  · left
    obtain ⟨h1, h2, x, h3, h4, h5, _⟩ := block_exact_partial g hH f id raw ty length out h
    exact ⟨h1, h2, x, h3, h4, h5⟩

/-- **C135, discovery, summary.** The device ID block is part of the summary of all measurements and not of the
one of the TCB. -/
theorem discovery_summary_partial {fail : Bool} {R : Nat → Nat → Bytes} {st : List Pcr.Bank} (g : Good fail R st) {H : Pcr.Hash}
    (hH : Pcr.GoodHash H) (f : Nat × Nat → Bool) (fd same e1 e2 : Bool) (d : Bytes) (sty ty : Pcr.HashType) (onlyTcb : Bool)
    (length : Nat) (out : Bytes) (h : dSummary H f fd same e1 e2 d st sty ty onlyTcb length = .ok out) :
    out = H sty (Spec.wires (Spec.summaryBlocks H ty onlyTcb (Spec.items R st) ++
      if onlyTcb then [] else [Spec.deviceBlock H false ty d])) := by
  unfold dSummary at h
  obtain ⟨_, _, h⟩ := Res.bind_eq_ok.1 h
  obtain ⟨r, h2, h⟩ := Res.bind_eq_ok.1 h
  obtain ⟨x, h3, h⟩ := Res.bind_eq_ok.1 h
  have h4 := summary_ok g (order 0 st) 1 r (order_place st) h2
  rw [order_eq] at h4
  split at h
  · cases h
  · cases h
    have e : Spec.wires (Spec.summaryBlocks H ty onlyTcb (Spec.items R st) ++
        if onlyTcb then [] else [Spec.deviceBlock H false ty d]) = r ++ x := by
      rw [h4]
      cases onlyTcb with
      | true =>
        simp only [if_true] at h3 ⊢
        cases h3
        rw [List.append_nil, List.append_nil]
        rfl
      | false =>
        simp only [Bool.false_eq_true, if_false] at h3 ⊢
        rw [(device_ok hH h3).1]
        simp [Spec.wires, Spec.summaryBlocks, Spec.items]
    rw [e]

/-- **C135, discovery, length.** The announced length is the length of the record with the device ID block,
and a buffer of that length is enough. -/
theorem discovery_length_partial {R : Nat → Nat → Bytes} {st : List Pcr.Bank} (g : Good false R st) {H : Pcr.Hash}
    (hH : Pcr.GoodHash H) (d : Bytes) (raw : Bool) (ty : Pcr.HashType) :
    ∃ n, dAllLength d st raw ty = .ok n ∧
    n = (Spec.wires (Spec.blocks H raw ty (Spec.items R st) ++ [Spec.deviceBlock H raw ty d])).length ∧
    (Possible R st raw ty → ∀ length, dAllBlocks H (fun _ => false) false d st raw ty length =
      if length < n then .err .tooSmall
      else .ok (Spec.wires (Spec.blocks H raw ty (Spec.items R st) ++ [Spec.deviceBlock H raw ty d]))) := by
  obtain ⟨n, h1, h2, h3⟩ := all_length_partial g hH raw ty
  have e : Spec.wires (Spec.blocks H raw ty (Spec.items R st) ++ [Spec.deviceBlock H raw ty d]) =
      Spec.wires (Spec.blocks H raw ty (Spec.items R st)) ++ (Spec.deviceBlock H raw ty d).wire := by
    simp [Spec.wires]
  have hl : (Spec.deviceBlock H raw ty d).value.length = if raw then d.length else ty.len := by
    unfold Spec.deviceBlock
    have := hH ty d
    cases raw <;> simp [this]
  have hn : n + (7 + if raw then d.length else ty.len) =
      (Spec.wires (Spec.blocks H raw ty (Spec.items R st) ++ [Spec.deviceBlock H raw ty d])).length := by
    rw [e, List.length_append, wire_length, hl, h2]
  refine ⟨_, ?_, hn, fun hp length => ?_⟩
  · unfold dAllLength; rw [h1]; rfl
  · unfold dAllBlocks
    rw [h3 hp length]
    by_cases c : length < n
    · rw [if_pos c, if_pos (by omega)]; rfl
    · rw [if_neg c]
      simp only [Res.bind]
      rw [← h2]
      have hb : buildDevice H false d raw ty (length - n) =
          if length - n < 7 + (if raw then d.length else ty.len) then .err .tooSmall else .ok (Spec.deviceBlock H raw ty d).wire := by
        unfold buildDevice
        by_cases c1 : length - n < 7
        · rw [if_pos c1, if_pos (by omega)]
        · rw [if_neg c1]
          cases raw with
          | true =>
            simp only [if_true]
            by_cases c2 : length - n - 7 < d.length
            · rw [if_pos c2, if_pos (by omega)]
            · rw [if_neg c2, if_neg (by omega), header_wire (show 2 < 128 by omega)]; rfl
          | false =>
            simp only [Bool.false_eq_true, if_false]
            by_cases c2 : length - n - 7 < ty.len
            · rw [if_pos c2, if_pos (by omega)]
            · rw [if_neg c2, if_neg (by omega), header_wire (show 2 < 128 by omega)]; rfl
      rw [hb]
      by_cases c2 : length - n < 7 + (if raw then d.length else ty.len)
      · rw [if_pos c2, if_pos (by omega)]
      · rw [if_neg c2, if_neg (by omega), e]

/-! ### The hypotheses are met -/

/-- Measured data of `Pcr.exStore`. -/
def exR : Nat → Nat → Bytes
  | 1, 0 => [4, 3, 2, 1, 0x55, 7, 6, 5]
  | _, _ => []

theorem exGood : Good false exR Pcr.exStore where
  wf := Pcr.exStore_ok.2
  raw := fun p b j m hb hm => by
    rcases p with _ | _ | p
    · simp only [Pcr.exStore, List.getElem?_cons_zero, Option.some.injEq] at hb
      subst hb
      rcases j with _ | j
      · simp only [Pcr.init] at hm
        have : m = Pcr.zeroMeas .sha384 := by simpa using hm.symm
        subst this
        exact ⟨by decide, rfl⟩
      · simp [Pcr.init] at hm
    · simp only [Pcr.exStore, List.getElem?_cons_succ, List.getElem?_cons_zero, Option.some.injEq] at hb
      subst hb
      rcases j with _ | _ | j
      · simp only [List.getElem?_cons_zero, Option.some.injEq] at hm
        subst hm
        exact Pcr.exMeas_raw
      · simp only [List.getElem?_cons_succ, List.getElem?_cons_zero, Option.some.injEq] at hm
        subst hm
        exact ⟨by decide, rfl⟩
      · simp at hm
    · simp [Pcr.exStore] at hb
  type := by
    intro b hb m hm
    have h : Pcr.exStore.all fun b => b.list.all fun m => decide (m.dmtf < 128) := by decide
    have := List.all_eq_true.1 h b hb
    simpa using List.all_eq_true.1 this m hm
  size := fun p j => by
    unfold exR; split <;> decide

example : allBlocks Pcr.exHash (fun _ => false) Pcr.exStore true (.sha2 .sha256) 54 =
    .ok (Spec.wires (Spec.blocks Pcr.exHash true (.sha2 .sha256) (Spec.items exR Pcr.exStore))) ∧
    allLength Pcr.exStore true (.sha2 .sha256) = .ok 54 ∧ count Pcr.exStore = 2 ∧
    (Spec.blocks Pcr.exHash true (.sha2 .sha256) (Spec.items exR Pcr.exStore)).map (fun b => (b.index, b.raw)) =
      [(1, true), (2, false)] := by
  decide +kernel

example : getBlock Pcr.exHash false Pcr.exStore Pcr.exStore 1 true .sha1 15 =
    .ok [1, 1, 11, 0, 0x80, 8, 0, 4, 3, 2, 1, 0x55, 7, 6, 5] ∧ blockLength Pcr.exStore 1 = .ok 15 := by decide +kernel

example : summary Pcr.exHash (fun _ => false) false false false Pcr.exStore .sha1 (.sha2 .sha256) false 20 =
    .ok (Pcr.exHash .sha1 (Spec.wires (Spec.summaryBlocks Pcr.exHash (.sha2 .sha256) false (Spec.items exR Pcr.exStore)))) := by
  decide +kernel

example : Possible exR Pcr.exStore true (.sha2 .sha256) := by
  intro t ht b m hb hm
  rw [show Pcr.allTypes 0 Pcr.exStore = [(1, 0), (1, 1)] by decide] at ht
  have h1 : t.1 = 1 := by
    simp only [List.mem_cons, List.not_mem_nil, or_false] at ht
    rcases ht with rfl | rfl <;> rfl
  rw [h1] at hb
  simp only [Pcr.exStore, List.getElem?_cons_succ, List.getElem?_cons_zero, Option.some.injEq] at hb
  subst hb
  exact .inr (.inl rfl)

/-! ### Where it fails -/

/-- A measurement with the data `l`. -/
def memStore (l : Bytes) : List Pcr.Bank :=
  [⟨[{ Pcr.zeroMeas .sha256 with data := some (.memory l) }], false, .sha256⟩]

/-- Data that grow between the two reads make a block that looks complete and holds neither the old nor the new data. -/
theorem grown_data_truncated : ∃ out b, getBlock Pcr.exHash false (memStore [1, 2]) (memStore [5, 6, 7, 8, 9]) 1 true .sha1 10 = .ok out ∧
    Spec.read1 out = some (b, []) ∧ b.value = [5, 6, 7] :=
  ⟨[1, 1, 6, 0, 0x80, 3, 0, 5, 6, 7], ⟨1, true, 0, [5, 6, 7]⟩, by decide +kernel, by decide +kernel, rfl⟩

/-- A measurement without data has no digest of another algorithm: the length of the record is announced, but there is no record. -/
theorem no_record : allLength Pcr.exStore true .sha1 = .ok 42 ∧
    allBlocks Pcr.exHash (fun _ => false) Pcr.exStore true .sha1 42 = .err .noHash ∧
    allBlocks Pcr.exHash (fun _ => false) Pcr.exStore true .sha1 4096 = .err .noHash := by
  decide +kernel

/-- A device with `n` measurements that are only digests. -/
def manyStore (n : Nat) : List Pcr.Bank := [⟨List.replicate n (Pcr.zeroMeas .sha256), false, .sha256⟩]

theorem many_good {n : Nat} (hn : 0 < n) : Good false (fun _ _ => []) (manyStore n) where
  wf := by
    intro b hb
    simp only [manyStore, List.mem_singleton] at hb
    subst hb
    refine ⟨by simpa using hn, nofun, fun m hm => ?_⟩
    rw [List.eq_of_mem_replicate hm]; rfl
  raw := fun p b j m hb hm => by
    have hb := List.mem_of_getElem? hb
    simp only [manyStore, List.mem_singleton] at hb
    subst hb
    rw [List.eq_of_mem_replicate (List.mem_of_getElem? hm)]
    exact ⟨by decide, rfl⟩
  type := by
    intro b hb m hm
    simp only [manyStore, List.mem_singleton] at hb
    subst hb
    rw [List.eq_of_mem_replicate hm]; decide
  size := fun _ _ => by decide

theorem many_types (n : Nat) : Pcr.allTypes 0 (manyStore n) = (List.range n).map fun j => (0, j) := by
  simp [manyStore, Pcr.allTypes]

theorem many_items {n k : Nat} (hk : k < n) : (Spec.items (fun _ _ => []) (manyStore n))[k]? =
    some ⟨.sha256, 0, true, List.replicate 32 0, []⟩ := by
  rw [items_get, many_types, List.getElem?_map, List.getElem?_range hk]
  simp only [Option.map_some, Option.bind_some, Spec.itemAt, manyStore, List.getElem?_cons_zero, List.getElem?_replicate, if_pos hk]
  rfl

/-- With 239 measurements the device ID cannot be had: its index is the one of a measurement, which is returned although the length
of the device ID is announced. -/
theorem index_clash (d : Bytes) : ∃ x, (Spec.items (fun _ _ => []) (manyStore 239))[238]? = some x ∧
    (x.block Pcr.exHash false (.sha2 .sha256) 239).index = (Spec.deviceBlock Pcr.exHash false (.sha2 .sha256) d).index ∧
    dBlockLength d (manyStore 239) 0xef = .ok (7 + d.length) ∧
    (∀ length, 7 ≤ length → dGetBlock Pcr.exHash false d (manyStore 239) (manyStore 239) 0xef true (.sha2 .sha256) length = .err .noBitStream) ∧
    dGetBlock Pcr.exHash false d (manyStore 239) (manyStore 239) 0xef false (.sha2 .sha256) 39 =
      .ok (x.block Pcr.exHash false (.sha2 .sha256) 239).wire := by
  have g := many_good (n := 239) (by omega)
  have ht : typeOf (manyStore 239) 0xef = .ok (0, 238) := by
    unfold typeOf
    rw [if_neg (by decide), Pcr.sequential_ids _ g.wf, many_types, List.getElem?_map,
      List.getElem?_range (show (239 : UInt8).toNat - 1 < 239 by decide)]
    rfl
  have hb : (manyStore 239)[0]? = some ⟨List.replicate 239 (Pcr.zeroMeas .sha256), false, .sha256⟩ := rfl
  have hm : (List.replicate 239 (Pcr.zeroMeas .sha256))[238]? = some (Pcr.zeroMeas .sha256) := by
    rw [List.getElem?_replicate, if_pos (by omega)]
  refine ⟨_, many_items (by omega), rfl, rfl, fun length hl => ?_, ?_⟩
  · unfold dGetBlock getBlock
    rw [ht]
    simp only [Res.bind]
    rcases build_raw (ff := false) (H := Pcr.exHash) (id := 0xef) g hb hm (.sha2 .sha256) length with h | ⟨h, _⟩
    · rw [h, if_neg (by omega), if_pos rfl]
    · cases h
  · unfold dGetBlock getBlock
    rw [ht]
    simp only [Res.bind]
    rw [(build_hash (ff := false) (H := Pcr.exHash) (id := 0xef) g hb hm (.sha2 .sha256) 39).2 rfl rfl (.inl rfl), if_neg (by decide)]
    rfl

/-- With 255 measurements the record holds a block with the reserved index 0xff, that cannot be asked for. -/
theorem reserved_index : ∃ b, (Spec.blocks Pcr.exHash false (.sha2 .sha256) (Spec.items (fun _ _ => []) (manyStore 255)))[254]? = some b ∧
    b.index = 0xff ∧ (∃ length, allBlocks Pcr.exHash (fun _ => false) (manyStore 255) false (.sha2 .sha256) length =
      .ok (Spec.wires (Spec.blocks Pcr.exHash false (.sha2 .sha256) (Spec.items (fun _ _ => []) (manyStore 255))))) ∧
    ∀ raw ty length, getBlock Pcr.exHash false (manyStore 255) (manyStore 255) 0xff raw ty length = .err .reservedId := by
  have g := many_good (n := 255) (by omega)
  obtain ⟨n, _, _, h⟩ := all_length_partial g Pcr.exHash_good false (.sha2 .sha256)
  refine ⟨⟨255, false, 0, List.replicate 32 0⟩, ?_, ?_, ⟨n, ?_⟩, fun raw ty length => rfl⟩
  · unfold Spec.blocks
    rw [List.getElem?_map, number_get, many_items (by omega)]
    rfl
  · rfl
  · rw [h ?_ n, if_neg (by omega)]
    intro t ht b m hb hm
    have hb := List.mem_of_getElem? hb
    simp only [manyStore, List.mem_singleton] at hb
    subst hb
    exact .inr (.inl rfl)

end Verif.SpdmMeas
