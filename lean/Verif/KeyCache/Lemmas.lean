import Verif.KeyCache.Model
/-! The queue in the key cache. -/
namespace Verif.KeyCache

theorem get_set {α : Type} [Inhabited α] (l : List α) (i j : Nat) (v : α) : (l.set i v)[j]! = if i = j ∧ i < l.length then v else l[j]! := by
  simp only [List.getElem!_eq_getElem?_getD, List.getElem?_set]
  by_cases h : i = j
  · subst h
    by_cases h2 : i < l.length
    · simp [h2]
    · simp [h2]
  · simp [h]

theorem get_mem {α : Type} [Inhabited α] {l : List α} {i : Nat} (h : i < l.length) : l[i]! ∈ l := by
  rw [getElem!_pos l i h]; exact List.getElem_mem h

theorem incr_eq {i n : Nat} (h : i < n) : incr i n = if i + 1 < n then i + 1 else 0 := by
  unfold incr
  rw [if_pos h]
  split
  · exact Nat.mod_eq_of_lt ‹_›
  · rw [show i + 1 = n by omega, Nat.mod_self]

/-- The slot of the `j`-th key in the queue. -/
def slot (n rem j : Nat) : Nat := if rem + j < n then rem + j else rem + j - n

theorem slot_lt {n rem j : Nat} (h1 : rem < n) (h2 : j < n) : slot n rem j < n := by unfold slot; split <;> omega
theorem slot_inj {n rem j k : Nat} (h1 : rem < n) (h2 : j < n) (h3 : k < n) (h : slot n rem j = slot n rem k) : j = k := by
  unfold slot at h; split at h <;> split at h <;> omega

/-- The slots of the queue hold `Q`; the slots a new key can go to name a requestor; no two slots share a sector. -/
structure Inv (c : Cfg) (s : State) (f : Store) (Q : List Bytes) : Prop where
  len : s.info.length = c.sectors
  clen : s.credit.length = c.requestors
  room : c.keys ≤ c.sectors
  req_pos : 0 < c.requestors
  rem : s.rem < c.keys
  bound : Q.length < c.keys
  add : s.add = slot c.keys s.rem Q.length
  occ : ∀ j, j < Q.length → (s.info[slot c.keys s.rem j]!).valid = .valid ∧ f (s.info[slot c.keys s.rem j]!).phys = some Q[j]!
  req : ∀ j, Q.length ≤ j → j + 1 < c.keys → (s.info[slot c.keys s.rem j]!).req < c.requestors
  phys : (s.info.map (·.phys)).Nodup
  physLt : ∀ x ∈ s.info, x.phys < c.sectors
  free : s.free < c.sectors
  inited : s.inited = true
  err : s.err = false

theorem phys_inj {l : List Info} (h : (l.map (·.phys)).Nodup) {i j : Nat} (hi : i < l.length) (hj : j < l.length)
    (he : (l[i]!).phys = (l[j]!).phys) : i = j := by
  rw [getElem!_pos l i hi, getElem!_pos l j hj] at he
  unfold List.Nodup at h
  rw [List.pairwise_map] at h
  have hp := List.pairwise_iff_getElem.mp h
  rcases Nat.lt_trichotomy i j with hlt | hlt | hlt
  · exact (hp i j hi hj hlt he).elim
  · exact hlt
  · exact (hp j i hj hi hlt he.symm).elim

theorem isFull_iff {c : Cfg} {s : State} {f : Store} {Q : List Bytes} (h : Inv c s f Q) : isFull c s = true ↔ Q.length + 1 = c.keys := by
  have h1 := h.rem
  have h2 := h.bound
  have h3 := h.add
  unfold slot at h3
  unfold isFull
  rw [incr_eq (by split at h3 <;> omega)]
  simp only [decide_eq_true_eq]
  split at h3 <;> split <;> omega

theorem isEmpty_iff {c : Cfg} {s : State} {f : Store} {Q : List Bytes} (h : Inv c s f Q) : isEmpty s = true ↔ Q = [] := by
  have h1 := h.rem
  have h2 := h.bound
  have h3 := h.add
  unfold slot at h3
  unfold isEmpty
  rw [← List.length_eq_zero_iff]
  simp only [decide_eq_true_eq]
  split at h3 <;> omega

theorem writeRetry_spec (key : Bytes) (i : Nat) (n : Nat) : ∀ (outs : List Out) (f : Store),
    (∀ j, j ≠ i → (writeRetry f i key outs n).1 j = f j) ∧ ((writeRetry f i key outs n).2 = true → (writeRetry f i key outs n).1 i = some key) := by
  induction n with
  | zero => intro outs f; cases outs <;> exact ⟨fun _ _ => rfl, fun h => by cases h⟩
  | succ n ih =>
    intro outs f
    cases outs with
    | nil => exact ⟨fun _ _ => rfl, fun h => by cases h⟩
    | cons o l =>
      cases o with
      | ok => exact ⟨fun j hj => by simp [writeRetry, setAt, hj], fun _ => by simp [writeRetry, setAt]⟩
      | fail v =>
        obtain ⟨h1, h2⟩ := ih l (setAt f i v)
        refine ⟨fun j hj => ?_, fun h => h2 h⟩
        have := h1 j hj
        unfold writeRetry
        rw [this]
        simp [setAt, hj]

theorem tryErase_off (f : Store) (i : Nat) (o : Out) : ∀ j, j ≠ i → (tryErase f i o).1 j = f j := by
  intro j hj
  cases o <;> simp [tryErase, setAt, hj]

/-- The swap of a sector that went bad with a spare one. -/
theorem flashError_spec {c : Cfg} {s : State} {i : Nat} (hl : s.info.length = c.sectors) (hi : i < c.keys) (hr : c.keys ≤ c.sectors) (hf : s.free < c.sectors)
    (hp : (s.info.map (·.phys)).Nodup) (hp2 : ∀ x ∈ s.info, x.phys < c.sectors) :
    (flashError c s i).info.length = c.sectors ∧ (flashError c s i).free < c.sectors ∧ ((flashError c s i).info.map (·.phys)).Nodup ∧
    (∀ x ∈ (flashError c s i).info, x.phys < c.sectors) ∧
    (∀ j, j < c.keys → j ≠ i → (flashError c s i).info[j]! = s.info[j]!) ∧
    (∀ j : Nat, ((flashError c s i).info[j]!).valid = (s.info[j]!).valid ∧ ((flashError c s i).info[j]!).req = (s.info[j]!).req) ∧
    (flashError c s i).rem = s.rem ∧ (flashError c s i).add = s.add ∧ (flashError c s i).credit = s.credit ∧ (flashError c s i).err = s.err ∧
    ((flashError c s i).inited = false ∨ (flashError c s i).inited = s.inited) := by
  unfold flashError
  split
  · exact ⟨hl, hf, hp, hp2, fun _ _ _ => rfl, fun _ => ⟨rfl, rfl⟩, rfl, rfl, rfl, rfl, .inl rfl⟩
  · rename_i hc
    simp only
    have hne : i ≠ s.free := by omega
    generalize hnew : (s.info[s.free]!).phys = new
    generalize hbad : (s.info[i]!).phys = bad
    have e1 : (s.info.set i { s.info[i]! with phys := new })[s.free]! = s.info[s.free]! := by
      rw [get_set, if_neg (fun h => hne h.1)]
    rw [e1]
    have hg : ∀ j, ((s.info.set i { s.info[i]! with phys := new }).set s.free { s.info[s.free]! with phys := bad })[j]! =
        if s.free = j then { s.info[s.free]! with phys := bad } else if i = j then { s.info[i]! with phys := new } else s.info[j]! := by
      intro j
      rw [get_set, get_set]
      simp only [List.length_set, hl, hf, and_true]
      have : i < c.sectors := by omega
      simp only [this, and_true]
    have hperm : ((((s.info.set i { s.info[i]! with phys := new }).set s.free { s.info[s.free]! with phys := bad }).map (·.phys))).Perm (s.info.map (·.phys)) := by
      have h1 : i < (s.info.map (·.phys)).length := by simp; omega
      have h2 : s.free < (s.info.map (·.phys)).length := by simp; omega
      have := List.set_set_perm (as := s.info.map (·.phys)) h1 h2
      rw [List.map_set, List.map_set]
      simp only
      have e2 : new = (s.info.map (·.phys))[s.free] := by rw [← hnew, getElem!_pos s.info s.free (by omega)]; simp
      have e3 : bad = (s.info.map (·.phys))[i] := by rw [← hbad, getElem!_pos s.info i (by omega)]; simp
      rw [e2, e3]
      exact this
    refine ⟨by simp [hl], by omega, hperm.nodup_iff.mpr hp, ?_, ?_, ?_, trivial, trivial, trivial, trivial, .inr trivial⟩
    · intro x hx
      have hx' : x.phys ∈ s.info.map (·.phys) := hperm.mem_iff.mp (List.mem_map.mpr ⟨x, hx, rfl⟩)
      obtain ⟨y, y1, y2⟩ := List.mem_map.mp hx'
      rw [← y2]; exact hp2 y y1
    · intro j hj hji
      rw [hg, if_neg (by omega), if_neg (by omega)]
    · intro j
      rw [hg]
      split
      · rename_i h; subst h; exact ⟨rfl, rfl⟩
      · split
        · rename_i h; subst h; exact ⟨rfl, rfl⟩
        · exact ⟨rfl, rfl⟩

/-- Adding a key. -/
theorem add_spec {c : Cfg} {s : State} {f : Store} {Q : List Bytes} (h : Inv c s f Q) (key : Bytes) (hk : key ≠ []) (outs : List Out) :
    (Q.length + 1 = c.keys ∧ (add c s f key outs = (s, f, some .queueFull) ∨
      c.requestors ≤ (s.info[s.add]!).req ∧ add c s f key outs = ({ s with inited := false }, f, some .memoryCorrupted))) ∨
    (Q.length + 1 < c.keys ∧ (add c s f key outs).2.2 = none ∧ Inv c (add c s f key outs).1 (add c s f key outs).2.1 (Q ++ [key])) ∨
    (Q.length + 1 < c.keys ∧ (add c s f key outs).2.2 = some .store ∧
      ((add c s f key outs).1.inited = false ∨ Inv c (add c s f key outs).1 (add c s f key outs).2.1 Q)) := by
  have hkl : key.length ≠ 0 := by simpa using hk
  have hb := h.bound
  have hrm := h.rem
  have hroom := h.room
  have haLt : s.add < c.keys := by rw [h.add]; exact slot_lt h.rem h.bound
  have hp := h.physLt _ (get_mem (l := s.info) (i := s.add) (by rw [h.len]; omega))
  have hfi := isFull_iff h
  unfold add
  rw [if_neg hkl, h.inited, if_neg (by simp), h.err, if_neg (by simp), if_neg (by omega)]
  simp only
  by_cases hfull : Q.length + 1 = c.keys
  · left
    refine ⟨hfull, ?_⟩
    by_cases hreq : (s.info[s.add]!).req ≥ c.requestors
    · right
      rw [if_pos hreq]
      exact ⟨hreq, rfl⟩
    · left
      rw [if_neg hreq, if_neg (by omega), if_pos (hfi.mpr hfull)]
  · right
    have hreq := h.req Q.length (Nat.le_refl _) (by omega)
    rw [← h.add] at hreq
    rw [if_neg (by omega), if_neg (by omega), if_neg (fun h => hfull (hfi.mp h))]
    obtain ⟨w1, w2⟩ := writeRetry_spec key (s.info[s.add]!).phys 3 outs f
    have hne : ∀ j, j < Q.length → s.add ≠ slot c.keys s.rem j := fun j hj he => by
      have := slot_inj hrm (by omega) (by omega) (h.add ▸ he)
      omega
    have hphne : ∀ j, j < Q.length → (s.info[slot c.keys s.rem j]!).phys ≠ (s.info[s.add]!).phys := fun j hj he =>
      hne j hj (phys_inj h.phys (by rw [h.len]; have := slot_lt hrm (show j < c.keys by omega); omega) (by rw [h.len]; omega) he).symm
    generalize hw : writeRetry f (s.info[s.add]!).phys key outs 3 = w at w1 w2
    obtain ⟨f', b⟩ := w
    cases b with
    | true =>
      left
      refine ⟨by omega, rfl, ?_⟩
      simp only at w1 w2 ⊢
      have hg : ∀ j, (s.info.set s.add { s.info[s.add]! with req := unassigned, valid := .valid })[j]! =
          if s.add = j then { s.info[s.add]! with req := unassigned, valid := .valid } else s.info[j]! := fun j => by
        rw [get_set]
        have : s.add < s.info.length := by rw [h.len]; omega
        simp only [this, and_true]
      have hmap : (s.info.set s.add { s.info[s.add]! with req := unassigned, valid := .valid }).map (·.phys) = s.info.map (·.phys) := by
        rw [List.map_set]
        simp only
        rw [getElem!_pos s.info s.add (by rw [h.len]; omega)]
        refine List.ext_getElem (by simp) (fun n h1 h2 => ?_)
        rw [List.getElem_set]
        split
        · rename_i e; subst e; simp
        · rfl
      refine ⟨by simp [h.len], ?_, h.room, h.req_pos, h.rem, by simp; omega, ?_, ?_, ?_, hmap ▸ h.phys, ?_, h.free, rfl, rfl⟩
      · simp only
        split <;> simp [h.clen]
      · simp only [List.length_append, List.length_singleton]
        have := h.add
        rw [incr_eq haLt]
        unfold slot at this ⊢
        split at this <;> split <;> split <;> omega
      · intro j hj
        simp only [List.length_append, List.length_singleton] at hj ⊢
        rw [hg]
        by_cases hjq : j < Q.length
        · rw [if_neg (hne j hjq), w1 _ (hphne j hjq)]
          have := h.occ j hjq
          refine ⟨this.1, this.2.trans ?_⟩
          congr 1
          simp [List.getElem!_eq_getElem?_getD, List.getElem?_append_left hjq]
        · have : j = Q.length := by omega
          subst this
          rw [if_pos h.add]
          simp only
          refine ⟨trivial, (w2 trivial).trans ?_⟩
          simp [List.getElem!_eq_getElem?_getD]
      · intro j hj1 hj2
        simp only [List.length_append, List.length_singleton] at hj1 ⊢
        rw [hg, if_neg]
        · exact h.req j (by omega) hj2
        · intro he
          have := slot_inj hrm (by omega) (by omega) (h.add ▸ he)
          omega
      · intro x hx
        have : x.phys ∈ s.info.map (·.phys) := hmap ▸ List.mem_map.mpr ⟨x, hx, rfl⟩
        obtain ⟨y, y1, y2⟩ := List.mem_map.mp this
        rw [← y2]; exact h.physLt y y1
    | false =>
      right
      refine ⟨by omega, rfl, ?_⟩
      simp only at w1 ⊢
      obtain ⟨e1, e2, e3, e4, e5, e6, e7, e8, e9, e10, e11⟩ := flashError_spec (i := s.add) h.len haLt hroom h.free h.phys h.physLt
      rcases e11 with e11 | e11
      · exact .inl e11
      · right
        refine ⟨e1, by rw [e9]; exact h.clen, hroom, h.req_pos, by rw [e7]; exact hrm, hb, by rw [e8, e7]; exact h.add, ?_, ?_, e3, e4, e2, by rw [e11]; exact h.inited,
          by rw [e10]; exact h.err⟩
        · intro j hj
          rw [e7, e5 _ (slot_lt hrm (by omega)) (fun e => hne j hj e.symm), w1 _ (hphne j hj)]
          exact h.occ j hj
        · intro j hj1 hj2
          rw [e7, (e6 _).2]
          exact h.req j hj1 hj2

/-- Removing a key. -/
theorem remove_spec {c : Cfg} {s : State} {f : Store} {Q : List Bytes} (h : Inv c s f Q) (r : Nat) (hr : r < c.requestors) (readable : Bool) (er : Out) :
    (Q = [] ∧ remove c s f r readable er = (s, f, .error .queueEmpty)) ∨
    (Q ≠ [] ∧ s.credit[r]! = 0 ∧ remove c s f r readable er = (s, f, .error .noCredit)) ∨
    ∃ k Q', Q = k :: Q' ∧ s.credit[r]! ≠ 0 ∧ (remove c s f r readable er).2.2 = (if readable then .ok k else .error .store) ∧
      ((remove c s f r readable er).1.inited = false ∨ Inv c (remove c s f r readable er).1 (remove c s f r readable er).2.1 Q') := by
  have hb := h.bound
  have hrm := h.rem
  have hroom := h.room
  have hei := isEmpty_iff h
  unfold remove
  rw [h.inited, if_neg (by simp), h.err, if_neg (by simp), if_neg (by omega), if_neg (by omega)]
  cases Q with
  | nil => left; rw [if_pos (hei.mpr rfl)]; exact ⟨rfl, rfl⟩
  | cons k Q' =>
    right
    simp only [List.length_cons] at hb
    rw [if_neg (by rw [hei]; simp)]
    have e0 : slot c.keys s.rem 0 = s.rem := by unfold slot; rw [if_pos (by omega)]; rfl
    have hocc := h.occ 0 (by simp)
    rw [e0] at hocc
    have hp := h.physLt _ (get_mem (l := s.info) (i := s.rem) (by rw [h.len]; omega))
    rw [if_neg (by rw [hocc.1]; simp)]
    simp only
    rw [if_neg (by omega)]
    by_cases hc : s.credit[r]! = 0
    · left; rw [if_pos hc]; exact ⟨by simp, hc, rfl⟩
    · right
      rw [if_neg hc, hocc.2]
      have hres : (match some ((k :: Q')[0]!) with
        | some k => if readable = true then Except.ok k else Except.error Err.store
        | none => Except.error Err.store) = if readable = true then Except.ok k else Except.error Err.store := rfl
      refine ⟨k, Q', rfl, hc, hres, ?_⟩
      simp only
      have hoff := tryErase_off f (s.info[s.rem]!).phys er
      generalize tryErase f (s.info[s.rem]!).phys er = e at hoff
      -- the state after the sector was dealt with
      have key : ∃ s1, (if e.2 ≠ .invalid then flashError c s s.rem else s) = s1 ∧ s1.info.length = c.sectors ∧ s1.free < c.sectors ∧
          (s1.info.map (·.phys)).Nodup ∧ (∀ x ∈ s1.info, x.phys < c.sectors) ∧ (∀ j, j < c.keys → j ≠ s.rem → s1.info[j]! = s.info[j]!) ∧
          s1.rem = s.rem ∧ s1.add = s.add ∧ s1.credit = s.credit ∧ s1.err = s.err ∧ (s1.inited = false ∨ s1.inited = s.inited) := by
        refine ⟨_, rfl, ?_⟩
        split
        · obtain ⟨e1, e2, e3, e4, e5, e6, e7, e8, e9, e10, e11⟩ := flashError_spec (i := s.rem) h.len hrm hroom h.free h.phys h.physLt
          exact ⟨e1, e2, e3, e4, e5, e7, e8, e9, e10, e11⟩
        · exact ⟨h.len, h.free, h.phys, h.physLt, fun _ _ _ => rfl, rfl, rfl, rfl, rfl, .inr rfl⟩
      obtain ⟨s1, hs1, k1, k2, k3, k4, k5, k6, k7, k8, k9, k10⟩ := key
      rw [hs1]
      unfold updateIndex
      simp only
      rcases k10 with k10 | k10
      · left; exact k10
      · right
        rw [k6]
        have hpl : decr s.rem c.keys < c.keys ∧ decr s.rem c.keys = slot c.keys s.rem (c.keys - 1) := by
          unfold decr slot
          split <;> split <;> first | omega | (split <;> omega) | skip
        obtain ⟨hpl, hps⟩ := hpl
        have hN : 1 < c.keys := by omega
        have hpr : decr s.rem c.keys ≠ s.rem := fun e => by
          rw [hps] at e
          have := slot_inj hrm (show c.keys - 1 < c.keys by omega) (show 0 < c.keys by omega) (e.trans e0.symm)
          omega
        generalize decr s.rem c.keys = prev at hpl hps hpr
        have hg1 : (s1.info.set prev { s1.info[prev]! with req := r })[s.rem]! = s1.info[s.rem]! := by
          rw [get_set, if_neg (fun e => hpr e.1)]
        rw [hg1]
        have hg : ∀ j, ((s1.info.set prev { s1.info[prev]! with req := r }).set s.rem { s1.info[s.rem]! with req := unassigned, valid := .invalid })[j]! =
            if s.rem = j then { s1.info[s.rem]! with req := unassigned, valid := .invalid } else
            if prev = j then { s1.info[prev]! with req := r } else s1.info[j]! := fun j => by
          rw [get_set, get_set]
          have h1 : s.rem < s1.info.length := by rw [k1]; omega
          have h2 : prev < s1.info.length := by rw [k1]; omega
          simp only [List.length_set, h1, h2, and_true]
        have hmapset : ∀ (l : List Info) (i : Nat) (v : Info), i < l.length → v.phys = (l[i]!).phys → (l.set i v).map (·.phys) = l.map (·.phys) := by
          intro l i v hi hv
          rw [List.map_set, hv]
          rw [getElem!_pos l i hi]
          refine List.ext_getElem (by simp) (fun n h1 h2 => ?_)
          rw [List.getElem_set]
          split
          · rename_i e; subst e; simp
          · rfl
        have hmap : ((s1.info.set prev { s1.info[prev]! with req := r }).set s.rem { s1.info[s.rem]! with req := unassigned, valid := .invalid }).map (·.phys)
            = s1.info.map (·.phys) := by
          rw [hmapset _ _ _ (by simp [k1]; omega) (by rw [hg1])]
          exact hmapset _ _ _ (by rw [k1]; omega) rfl
        have hinc : incr s.rem c.keys = slot c.keys s.rem 1 := by
          rw [incr_eq hrm]; unfold slot; (repeat' split) <;> omega
        have hslot : ∀ j, j + 1 < c.keys → slot c.keys (incr s.rem c.keys) j = slot c.keys s.rem (j + 1) := fun j hj => by
          rw [hinc]; unfold slot
          split <;> split <;> split <;> omega
        have hincLt : incr s.rem c.keys < c.keys := by rw [hinc]; exact slot_lt hrm hN
        refine ⟨by simp [k1], ?_, hroom, h.req_pos, hincLt, by omega, ?_, ?_, ?_, by rw [hmap]; exact k3, ?_, k2, by rw [k10]; exact h.inited, by rw [k9]; exact h.err⟩
        · simp only
          split <;> simp [k8, h.clen]
        · rw [k7, h.add, hslot _ (by omega)]; rfl
        · intro j hj
          have hne : s.rem ≠ slot c.keys s.rem (j + 1) := fun e => by
            have := slot_inj hrm (show 0 < c.keys by omega) (show j + 1 < c.keys by omega) (e0.trans e)
            omega
          have hne2 : prev ≠ slot c.keys s.rem (j + 1) := fun e => by
            have := slot_inj hrm (show c.keys - 1 < c.keys by omega) (show j + 1 < c.keys by omega) (hps ▸ e)
            omega
          have hl := slot_lt hrm (show j + 1 < c.keys by omega)
          simp only
          rw [hslot j (by omega), hg, if_neg hne, if_neg hne2, k5 _ hl (fun e => hne e.symm)]
          have ho := h.occ (j + 1) (by simp; omega)
          refine ⟨ho.1, ?_⟩
          rw [hoff _ (fun he => hne (phys_inj h.phys (by rw [h.len]; omega) (by rw [h.len]; omega) he).symm)]
          exact ho.2
        · intro j hj1 hj2
          simp only
          rw [hslot j (by omega), hg, if_neg (fun e => by
            have := slot_inj hrm (show 0 < c.keys by omega) (show j + 1 < c.keys by omega) (e0.trans e)
            omega)]
          by_cases hj3 : j + 2 < c.keys
          · rw [if_neg (fun e => by
              have := slot_inj hrm (show c.keys - 1 < c.keys by omega) (show j + 1 < c.keys by omega) (hps ▸ e)
              omega)]
            have hl := slot_lt hrm (show j + 1 < c.keys by omega)
            rw [k5 _ hl (fun e => by
              have := slot_inj hrm (show j + 1 < c.keys by omega) (show 0 < c.keys by omega) (e.trans e0.symm)
              omega)]
            exact h.req (j + 1) (by simp; omega) (by omega)
          · have : j + 1 = c.keys - 1 := by omega
            rw [this, ← hps, if_pos rfl]
            exact hr
        · intro x hx
          have : x.phys ∈ s1.info.map (·.phys) := hmap ▸ List.mem_map.mpr ⟨x, hx, rfl⟩
          obtain ⟨y, y1, y2⟩ := List.mem_map.mp this
          rw [← y2]; exact k4 y y1

end Verif.KeyCache
