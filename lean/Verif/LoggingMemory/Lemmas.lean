import Verif.LoggingMemory.Spec
import Verif.BufferUtil.Props
namespace Verif.LoggingMemory
open Res

theorem encode_length (id : Nat) (d : Bytes) : (encode id d).length = d.length + 7 := by simp [encode]; omega

theorem encodeAll_append (xs : List Bytes) : ∀ (id : Nat) (ys : List Bytes),
    encodeAll id (xs ++ ys) = encodeAll id xs ++ encodeAll (id + xs.length) ys := by
  induction xs with
  | nil => intro id ys; simp [encodeAll]
  | cons x xs ih => intro id ys; simp only [List.cons_append, encodeAll, ih, List.length_cons]; congr 3; omega

theorem encodeAll_length (id : Nat) (ds : List Bytes) : (encodeAll id ds).length = ds.length := by
  induction ds generalizing id with
  | nil => rfl
  | cons d ds ih => simp [encodeAll, ih]

theorem encodeAll_flatten_length (len : Nat) (ds : List Bytes) : ∀ (id : Nat), (∀ d ∈ ds, d.length = len) →
    (encodeAll id ds).flatten.length = ds.length * (len + 7) := by
  induction ds with
  | nil => intro id _; simp [encodeAll]
  | cons d ds ih =>
    intro id h
    simp only [encodeAll, List.flatten_cons, List.length_append, encode_length, List.length_cons, Nat.succ_mul]
    rw [ih (id + 1) fun x hx => h x (List.mem_cons_of_mem _ hx), h d (List.mem_cons_self ..)]
    omega

theorem newest_encodeAll (id n : Nat) (ds0 ds1 : List Bytes) (h : ds1.length = n) :
    newest n (encodeAll id (ds0 ++ ds1)) = encodeAll (id + ds0.length) ds1 := by
  unfold newest
  rw [encodeAll_append, List.length_append, encodeAll_length, encodeAll_length, h, Nat.add_sub_cancel,
    List.drop_left' (encodeAll_length _ _)]

theorem newest_all {α : Type} (n : Nat) (l : List α) (h : l.length ≤ n) : newest n l = l := by
  unfold newest; rw [Nat.sub_eq_zero_of_le h]; rfl

/-- The log `l` holds the entries `ds`, the first one numbered `id`. -/
structure Inv (cfg : Cfg) (len N : Nat) (l : Log) (id : Nat) (ds : List Bytes) : Prop where
  size : cfg.size = N * (len + 7)
  es : cfg.entrySize = len + 7
  pos : 0 < N
  lenPos : 0 < len
  blen : cfg.size ≤ l.buf.length
  next : l.next = (id + ds.length) % 2 ^ 32
  lens : ∀ d ∈ ds, d.length = len
  shape : (ds.length < N ∧ l.full = false ∧ l.start = 0 ∧ l.end_ = ds.length * (len + 7) ∧
      ∃ rest, l.buf = (encodeAll id ds).flatten ++ rest ∧ Blank (len + 7) rest) ∨
    (l.full = true ∧ l.start = l.end_ ∧ ∃ ds0 ds1 ds2 rest, ds = ds0 ++ (ds1 ++ ds2) ∧ ds1.length + ds2.length = N ∧ ds1 ≠ [] ∧
      l.end_ = ds2.length * (len + 7) ∧
      l.buf = (encodeAll (id + ds0.length + ds1.length) ds2).flatten ++ ((encodeAll (id + ds0.length) ds1).flatten ++ rest) ∧
      Blank (len + 7) rest)

theorem Blank.drop {es k : Nat} {buf : Bytes} (h : Blank es buf) : Blank es (buf.drop (k * es)) := by
  intro j b hb
  rw [List.getElem?_drop, ← Nat.add_mul] at hb
  exact h _ _ hb

theorem toLE_mod (n : Nat) : toLE 4 (n % 2 ^ 32) = toLE 4 n := by
  have h1 := leNat_toLE 4 (n % 2 ^ 32)
  have h2 := leNat_toLE 4 n
  have : leNat (toLE 4 (n % 2 ^ 32)) = leNat (toLE 4 n) := by rw [h1, h2]; omega
  rw [← toLE_leNat (toLE 4 (n % 2 ^ 32)), ← toLE_leNat (toLE 4 n), this]
  simp

theorem header_encode (d : Bytes) (n : Nat) : header d.length (n % 2 ^ 32) ++ d = encode n d := by
  unfold header encode hdrLen; rw [toLE_mod]

theorem header_length (a b : Nat) : (header a b).length = 7 := by simp [header]

/-- Writing header and data writes the entry. -/
theorem write_entry (pre old post d : Bytes) (n : Nat) (h : old.length = d.length + 7) :
    ((wrN (pre ++ old ++ post) pre.length (header d.length (n % 2 ^ 32)) : R Bytes) >>= fun b => wrN b (pre.length + hdrLen) d) =
      .ok (pre ++ encode n d ++ post) := by
  have hh := header_length d.length (n % 2 ^ 32)
  rw [wrN_ok (by simp [hh]; omega), ok_bind]
  have e1 : (pre ++ old ++ post).take pre.length = pre := by rw [List.append_assoc, List.take_left' rfl]
  have e2 : (pre ++ old ++ post).drop (pre.length + (header d.length (n % 2 ^ 32)).length) = old.drop 7 ++ post := by
    rw [List.append_assoc, ← List.drop_drop, List.drop_left' rfl, hh, List.drop_append_of_le_length (by omega)]
  rw [e1, e2, hdrLen, wrN_ok (by simp [hh]; omega)]
  have e3 : (pre ++ header d.length (n % 2 ^ 32) ++ (old.drop 7 ++ post)).take (pre.length + 7) = pre ++ header d.length (n % 2 ^ 32) := by
    rw [List.take_left' (by simp [hh])]
  have e4 : (pre ++ header d.length (n % 2 ^ 32) ++ (old.drop 7 ++ post)).drop (pre.length + 7 + d.length) = post := by
    rw [← List.drop_drop, List.drop_left' (by simp [hh]), List.drop_append, List.drop_of_length_le (by simp; omega)]
    simp [h]
  rw [e3, e4, ← header_encode]
  simp

theorem create_step (cfg : Cfg) (len N : Nat) (l : Log) (id : Nat) (ds : List Bytes) (d : Bytes) (i : Inv cfg len N l id ds)
    (hd : d.length = len) : ∃ l', create cfg l d = .ok l' ∧ Inv cfg len N l' id (ds ++ [d]) := by
  have hcond : ¬ d.length ≠ cfg.entrySize - hdrLen := by rw [i.es, hdrLen]; omega
  have hlens : ∀ x ∈ ds ++ [d], x.length = len := by
    intro x hx
    rcases List.mem_append.mp hx with h | h
    · exact i.lens x h
    · rw [List.mem_singleton.mp h]; exact hd
  have hnext : (l.next + 1) % 2 ^ 32 = (id + (ds ++ [d]).length) % 2 ^ 32 := by
    rw [i.next, List.length_append, List.length_singleton]; omega
  have hw : ∀ pre old post : Bytes, l.buf = pre ++ old ++ post → pre.length = l.end_ → old.length = d.length + 7 →
      create cfg l d = .ok
        ⟨pre ++ encode (id + ds.length) d ++ post,
          if (if l.end_ + 7 + len = cfg.size then true else l.full) then
            (if l.end_ + 7 + len = cfg.size then 0 else l.end_ + 7 + len) else l.start,
          if l.end_ + 7 + len = cfg.size then 0 else l.end_ + 7 + len, (l.next + 1) % 2 ^ 32,
          if l.end_ + 7 + len = cfg.size then true else l.full⟩ := by
    intro pre old post hb hp ho
    have := write_entry pre old post d (id + ds.length) ho
    rw [← hb, hp, ← i.next] at this
    unfold create
    rw [if_neg hcond]
    cases h1 : (wrN l.buf l.end_ (header d.length l.next) : R Bytes) with
    | oob => rw [h1] at this; cases this
    | err e => rw [h1] at this; cases this
    | ok b1 =>
      rw [h1, ok_bind] at this
      rw [ok_bind, this, ok_bind, hd, hdrLen]
      by_cases h : l.end_ + 7 + len = cfg.size <;> simp [h]
  rcases i.shape with ⟨hlt, hfull, hstart, hend, rest, hbuf, hblank⟩ | ⟨hfull, hse, ds0, ds1, ds2, rest, hds, hn, hne, hend, hbuf, hblank⟩
  · have hfl := encodeAll_flatten_length len ds id i.lens
    have hmul : (ds.length + 1) * (len + 7) ≤ N * (len + 7) := Nat.mul_le_mul_right _ hlt
    rw [Nat.succ_mul] at hmul
    have hrl : len + 7 ≤ rest.length := by
      have := i.blen; rw [hbuf, List.length_append, hfl, i.size] at this; omega
    have := hw (encodeAll id ds).flatten (rest.take (len + 7)) (rest.drop (len + 7))
      (by rw [hbuf, List.append_assoc, List.take_append_drop]) (by rw [hfl, hend]) (by simp; omega)
    refine ⟨_, this, ?_⟩
    have hflat : (encodeAll id ds).flatten ++ encode (id + ds.length) d = (encodeAll id (ds ++ [d])).flatten := by
      rw [encodeAll_append]; simp [encodeAll]
    have hb : Blank (len + 7) (rest.drop (len + 7)) := by simpa using hblank.drop (k := 1)
    have hbl : cfg.size ≤ ((encodeAll id ds).flatten ++ encode (id + ds.length) d ++ rest.drop (len + 7)).length := by
      have := i.blen
      rw [hbuf] at this
      simp only [List.length_append, encode_length, List.length_drop] at this ⊢
      omega
    refine ⟨i.size, i.es, i.pos, i.lenPos, hbl, hnext, hlens, ?_⟩
    simp only [hfull, hstart]
    by_cases hc : l.end_ + 7 + len = cfg.size
    · right
      simp only [hc, if_true]
      refine ⟨trivial, trivial, [], ds ++ [d], [], rest.drop (len + 7), by simp, ?_, by simp, by simp, ?_, hb⟩
      · have h1 : (ds.length + 1) * (len + 7) = N * (len + 7) := by rw [Nat.succ_mul]; rw [hend, i.size] at hc; omega
        have := Nat.eq_of_mul_eq_mul_right (by omega) h1
        simp [this]
      · rw [hflat]; simp [encodeAll]
    · left
      simp only [hc, if_false]
      refine ⟨?_, trivial, by simp, ?_, rest.drop (len + 7), by rw [hflat], hb⟩
      · rw [List.length_append, List.length_singleton]
        rcases Nat.lt_or_ge (ds.length + 1) N with h | h
        · exact h
        · exfalso; apply hc
          have : ds.length + 1 = N := by omega
          rw [hend, i.size, ← this, Nat.succ_mul]; omega
      · rw [List.length_append, List.length_singleton, Nat.succ_mul, hend]; omega
  · obtain ⟨o, os, rfl⟩ := List.exists_cons_of_ne_nil hne
    have hl2 : ∀ x ∈ ds2, x.length = len := fun x hx => i.lens x (by rw [hds]; simp [hx])
    have hlo : o.length = len := i.lens o (by rw [hds]; simp)
    have hfl := encodeAll_flatten_length len ds2 (id + ds0.length + (o :: os).length) hl2
    have := hw (encodeAll (id + ds0.length + (o :: os).length) ds2).flatten (encode (id + ds0.length) o)
      ((encodeAll (id + ds0.length + 1) os).flatten ++ rest)
      (by rw [hbuf]; simp [encodeAll]) (by rw [hfl, hend]) (by rw [encode_length]; omega)
    refine ⟨_, this, ?_⟩
    have hidx : id + ds.length = id + ds0.length + (o :: os).length + ds2.length := by rw [hds]; simp; omega
    have hflat : (encodeAll (id + ds0.length + (o :: os).length) ds2).flatten ++ encode (id + ds.length) d =
        (encodeAll (id + ds0.length + (o :: os).length) (ds2 ++ [d])).flatten := by
      rw [encodeAll_append, hidx]; simp [encodeAll]
    have hbl : cfg.size ≤ ((encodeAll (id + ds0.length + (o :: os).length) ds2).flatten ++ encode (id + ds.length) d ++
        ((encodeAll (id + ds0.length + 1) os).flatten ++ rest)).length := by
      have := i.blen
      rw [hbuf] at this
      simp only [encodeAll, List.flatten_cons, List.length_append, encode_length] at this ⊢
      omega
    refine ⟨i.size, i.es, i.pos, i.lenPos, hbl, hnext, hlens, ?_⟩
    right
    simp only [hfull]
    rw [List.length_cons] at hn
    by_cases hc : l.end_ + 7 + len = cfg.size
    · simp only [hc, if_true]
      have h1 : (ds2.length + 1) * (len + 7) = N * (len + 7) := by rw [Nat.succ_mul]; rw [hend, i.size] at hc; omega
      have h2 := Nat.eq_of_mul_eq_mul_right (by omega) h1
      have hos : os = [] := List.eq_nil_of_length_eq_zero (by omega)
      subst hos
      refine ⟨trivial, trivial, ds0 ++ [o], ds2 ++ [d], [], rest, by rw [hds]; simp, by simp; omega, by simp, by simp, ?_, hblank⟩
      rw [hflat]; simp [encodeAll, Nat.add_assoc]
    · simp only [hc, if_false, ite_self]
      refine ⟨trivial, by simp, ds0 ++ [o], os, ds2 ++ [d], rest, by rw [hds]; simp, by simp; omega, ?_, ?_, ?_, hblank⟩
      · intro he
        subst he
        apply hc
        rw [hend, i.size, ← hn]
        simp only [List.length_nil, Nat.zero_add, Nat.add_mul, Nat.one_mul]
        omega
      · rw [List.length_append, List.length_singleton, Nat.succ_mul, hend]; omega
      · rw [hflat]
        simp only [List.length_append, List.length_cons, List.length_nil, Nat.zero_add]
        rw [show id + ds0.length + (os.length + 1) = id + (ds0.length + 1) + os.length by omega,
          show id + ds0.length + 1 = id + (ds0.length + 1) by omega]

theorem create_refused (cfg : Cfg) (len N : Nat) (l : Log) (id : Nat) (ds : List Bytes) (d : Bytes) (i : Inv cfg len N l id ds)
    (hd : d.length ≠ len) : create cfg l d = .err .badEntryLength := by
  unfold create; rw [if_pos (by rw [i.es, hdrLen]; omega)]

theorem blank_zero (es : Nat) (n : Nat) (rest : Bytes) (k : Nat) (hn : n = k * es) (h : Blank es rest) :
    Blank es (List.replicate n 0 ++ rest) := by
  intro j b hb
  by_cases hj : j * es < n
  · rw [List.getElem?_append_left (by simp; exact hj), List.getElem?_replicate, if_pos hj] at hb
    cases hb; rfl
  · rw [List.getElem?_append_right (by simp; omega), List.length_replicate] at hb
    subst hn
    rw [← Nat.sub_mul] at hb
    exact h _ _ hb

theorem clear_step (cfg : Cfg) (len N : Nat) (l : Log) (id : Nat) (ds : List Bytes) (i : Inv cfg len N l id ds) :
    ∃ l', clear cfg l = .ok l' ∧ Inv cfg len N l' (id + ds.length) [] := by
  unfold clear
  rw [wrN_ok (by simp; exact i.blen), ok_bind]
  refine ⟨_, rfl, ?_⟩
  have hbl := i.blen
  have hrest : Blank (len + 7) (l.buf.drop cfg.size) := by
    rcases i.shape with ⟨hlt, _, _, _, rest, hbuf, hblank⟩ | ⟨_, _, ds0, ds1, ds2, rest, hds, hn, _, _, hbuf, hblank⟩
    · have hfl := encodeAll_flatten_length len ds id i.lens
      have : cfg.size = ds.length * (len + 7) + (N - ds.length) * (len + 7) := by
        rw [← Nat.add_mul, i.size]; congr 1; omega
      rw [hbuf, this, ← List.drop_drop, List.drop_left' hfl]
      exact hblank.drop
    · have h1 := encodeAll_flatten_length len ds1 (id + ds0.length) fun x hx => i.lens x (by rw [hds]; simp [hx])
      have h2 := encodeAll_flatten_length len ds2 (id + ds0.length + ds1.length) fun x hx => i.lens x (by rw [hds]; simp [hx])
      have : cfg.size = ds2.length * (len + 7) + ds1.length * (len + 7) := by
        rw [← Nat.add_mul, i.size]; congr 1; omega
      rw [hbuf, this, ← List.drop_drop, List.drop_left' h2, List.drop_left' h1]
      exact hblank
  refine ⟨i.size, i.es, i.pos, i.lenPos, by simp, by simp only [List.length_nil, Nat.add_zero]; exact i.next, by simp, .inl ?_⟩
  refine ⟨i.pos, rfl, rfl, by simp, _, by simp [encodeAll]; rfl, ?_⟩
  exact blank_zero _ _ _ N i.size hrest

/-- The bytes of the log, oldest entry first. -/
theorem contents (cfg : Cfg) (len N : Nat) (l : Log) (id : Nat) (ds : List Bytes) (i : Inv cfg len N l id ds) :
    (∀ offset length, readContents cfg l offset length =
      .ok (window (newest N (encodeAll id ds)).flatten offset length)) ∧
    getSize cfg l = (newest N (encodeAll id ds)).flatten.length := by
  have hbl := i.blen
  rcases i.shape with ⟨hlt, hfull, hstart, hend, rest, hbuf, hblank⟩ | ⟨hfull, hse, ds0, ds1, ds2, rest, hds, hn, hne, hend, hbuf, hblank⟩
  · have hfl := encodeAll_flatten_length len ds id i.lens
    rw [newest_all N _ (by rw [encodeAll_length]; omega), hfl]
    unfold readContents getSize
    rw [hfull, hstart]
    by_cases hz : ds = []
    · subst hz
      simp [hend, encodeAll, window_nil]
    · have hpos : 0 < ds.length := List.length_pos_iff.mpr hz
      have hpos' : 0 < ds.length * (len + 7) := Nat.mul_pos hpos (by omega)
      have hc : l.end_ ≠ 0 := by omega
      refine ⟨?_, by rw [if_pos (.inl hc), if_neg hc, hend]⟩
      intro offset length
      rw [if_pos (.inl hc), rdN_ok (by rw [hbuf, List.length_append, hfl, hend]; omega), ok_bind, if_neg hc]
      rw [List.drop_zero, hbuf, List.take_left' (by rw [hfl, hend]), pure_eq, BufferUtil.copyAll_window]
      simp
  · have h1 := encodeAll_flatten_length len ds1 (id + ds0.length) fun x hx => i.lens x (by rw [hds]; simp [hx])
    have h2 := encodeAll_flatten_length len ds2 (id + ds0.length + ds1.length) fun x hx => i.lens x (by rw [hds]; simp [hx])
    have hsz : cfg.size = ds2.length * (len + 7) + ds1.length * (len + 7) := by
      rw [← Nat.add_mul, i.size]; congr 1; omega
    have hcont : (newest N (encodeAll id ds)).flatten = (encodeAll (id + ds0.length) ds1).flatten ++
        (encodeAll (id + ds0.length + ds1.length) ds2).flatten := by
      rw [hds, newest_encodeAll id N ds0 (ds1 ++ ds2) (by simp; omega), encodeAll_append]; simp
    rw [hcont]
    unfold readContents getSize
    refine ⟨?_, by rw [if_pos (.inr hfull), if_pos hse.symm, List.length_append, h1, h2, hsz]; omega⟩
    intro offset length
    rw [if_pos (.inr hfull), rdN_ok (by omega), ok_bind, if_pos hse.symm, rdN_ok (by omega), ok_bind]
    rw [hse, List.drop_zero, hbuf, List.take_left' (by rw [h2, hend]), hend, List.drop_left' h2, List.take_left' (by rw [h1]; omega),
      pure_eq, BufferUtil.copyAll_window]
    simp

end Verif.LoggingMemory
