import Verif.Protocol.Spec
/-! Rules for the request handlers. -/
namespace Verif.Protocol
open Spec

/-- Bytes at the indices `D` are known. -/
def Known (s : St) (D : Nat → Prop) : Prop := ∀ j, D j → (s.mem j).isSome

/-- From states of length `l` with known bytes `D` (among them the header), a computation does not
fault, keeps the header known, and normal results satisfy `Q` with what is known then. -/
def J (D : Nat → Prop) (l : Nat) (m : M α) (Q : α → (Nat → Prop) → Nat → Prop) : Prop :=
  ∀ s, Known s D → s.len = l → match m s with
    | (.ok a, t) => ∃ D', Known t D' ∧ Q a D' t.len
    | (.error (.err _), t) => (t.mem 4).isSome
    | _ => False

/-- Index predicate of the request: everything below its length. -/
theorem J.pure {D : Nat → Prop} {l : Nat} {a : α} {Q} (h : Q a D l) : J D l (Pure.pure a) Q := by
  intro s hk hl; exact ⟨D, hk, hl ▸ h⟩

theorem J.fail {D : Nat → Prop} {l : Nat} {e : Err} {Q} (h : D 4) : J D l (Protocol.fail e : M α) Q := by
  intro s hk hl; exact hk 4 h

theorem J.rcErr {D : Nat → Prop} {l : Nat} {e : Rc} {Q} (h : D 4) : J D l (Protocol.rcErr e : M α) Q := J.fail h

theorem J.bind {D : Nat → Prop} {l : Nat} {m : M α} {f : α → M β} {R Q}
    (hm : J D l m R) (hf : ∀ a D' l', R a D' l' → J D' l' (f a) Q) : J D l (m >>= f) Q := by
  intro s hk hl
  have h := hm s hk hl
  show match (match m s with | (.ok a, s) => f a s | (.error e, s) => (.error e, s)) with | (.ok a, t) => _ | (.error (.err _), t) => _ | _ => _
  revert h
  rcases m s with ⟨r | r, t⟩
  · cases r <;> exact id
  · rintro ⟨D', hk', hr⟩
    exact hf _ D' _ hr t hk' rfl

theorem J.assoc {D : Nat → Prop} {l : Nat} {m : M α} {f : α → M β} {g : β → M γ} {Q}
    (h : J D l (m >>= fun a => f a >>= g) Q) : J D l ((m >>= f) >>= g) Q := by
  have : ((m >>= f) >>= g) = (m >>= fun a => f a >>= g) := by
    funext s
    show (match (match m s with | (.ok a, s) => f a s | (.error e, s) => (.error e, s)) with | (.ok a, s) => g a s | (.error e, s) => (.error e, s))
      = (match m s with | (.ok a, s) => (match f a s with | (.ok a, s) => g a s | (.error e, s) => (.error e, s)) | (.error e, s) => (.error e, s))
    rcases m s with ⟨r | r, t⟩ <;> rfl
  rw [this]; exact h

theorem J.pureB {D : Nat → Prop} {l : Nat} {a : α} {f : α → M β} {Q} (h : J D l (f a) Q) :
    J D l (Pure.pure a >>= f) Q := h

theorem J.failB {D : Nat → Prop} {l : Nat} {e : Err} {f : α → M β} {Q} (h : D 4) :
    J D l (Protocol.fail e >>= f) Q := by
  intro s hk hl; exact hk 4 h

theorem J.rcErrB {D : Nat → Prop} {l : Nat} {e : Rc} {f : α → M β} {Q} (h : D 4) :
    J D l (Protocol.rcErr e >>= f) Q := J.failB h

theorem J.conseq {D : Nat → Prop} {l : Nat} {m : M α} {R Q} (hm : J D l m R)
    (h : ∀ a D' l', R a D' l' → Q a D' l') : J D l m Q := by
  intro s hk hl
  have := hm s hk hl
  revert this
  rcases m s with ⟨r | r, t⟩
  · cases r <;> exact id
  · rintro ⟨D', hk', hr⟩; exact ⟨D', hk', h _ _ _ hr⟩

theorem J.weak {D D' : Nat → Prop} {l : Nat} {m : M α} {Q} (h : ∀ j, D' j → D j) (hm : J D' l m Q) : J D l m Q :=
  fun s hk hl => hm s (fun j hj => hk j (h j hj)) hl

theorem J.u8 {env : Env} {D : Nat → Prop} {l i : Nat} {Q} (hc : i < env.cap) (hd : D i)
    (h : ∀ v, v < 256 → Q v D l) : J D l (Protocol.u8 env i) Q := by
  intro s hk hl
  unfold Protocol.u8
  rw [if_neg (by omega)]
  have := hk i hd
  rcases hm : s.mem i with _ | b
  · rw [hm] at this; cases this
  · exact ⟨D, hk, hl ▸ h _ b.toNat_lt⟩

theorem J.u16 {env : Env} {D : Nat → Prop} {l i : Nat} {Q} (hc : i + 1 < env.cap) (hd : D i) (hd1 : D (i + 1))
    (h : ∀ v, v < 65536 → Q v D l) : J D l (Protocol.u16 env i) Q := by
  unfold Protocol.u16
  refine J.bind (R := fun v D' l' => v < 256 ∧ D = D' ∧ l = l') (J.u8 (by omega) hd fun v hv => ⟨hv, rfl, rfl⟩) ?_
  rintro a _ _ ⟨ha, rfl, rfl⟩
  refine J.bind (R := fun v D' l' => v < 256 ∧ D = D' ∧ l = l') (J.u8 (by omega) hd1 fun v hv => ⟨hv, rfl, rfl⟩) ?_
  rintro b _ _ ⟨hb, rfl, rfl⟩
  exact J.pure (h _ (by omega))

theorem J.u32 {env : Env} {D : Nat → Prop} {l i : Nat} {Q} (hc : i + 3 < env.cap) (hd : D i) (hd1 : D (i + 1))
    (hd2 : D (i + 2)) (hd3 : D (i + 3))
    (h : ∀ v, v < 2 ^ 32 → Q v D l) : J D l (Protocol.u32 env i) Q := by
  unfold Protocol.u32
  refine J.bind (R := fun v D' l' => v < 65536 ∧ D = D' ∧ l = l') (J.u16 (by omega) hd hd1 fun v hv => ⟨hv, rfl, rfl⟩) ?_
  rintro a _ _ ⟨ha, rfl, rfl⟩
  refine J.bind (R := fun v D' l' => v < 65536 ∧ D = D' ∧ l = l') (J.u16 (by omega) hd2 hd3 fun v hv => ⟨hv, rfl, rfl⟩) ?_
  rintro b _ _ ⟨hb, rfl, rfl⟩
  exact J.pure (h _ (by omega))

theorem J.bytes {env : Env} {D : Nat → Prop} {l : Nat} {Q} : ∀ {n i : Nat}, (n ≠ 0 → i + n ≤ env.cap) → (∀ j, i ≤ j → j < i + n → D j) →
    (∀ b : Bytes, b.length = n → Q b D l) → J D l (Protocol.bytes env i n) Q
  | 0, i, _, _, h => J.pure (h [] rfl)
  | n + 1, i, hc, hd, h => by
    unfold Protocol.bytes
    refine J.bind (R := fun v D' l' => v < 256 ∧ D = D' ∧ l = l') (J.u8 (by have := hc (by omega); omega) (hd i (by omega) (by omega)) fun v hv => ⟨hv, rfl, rfl⟩) ?_
    rintro a _ _ ⟨-, rfl, rfl⟩
    refine J.bind (R := fun v D' l' => v.length = n ∧ D = D' ∧ l = l') (J.bytes (by intro; have := hc (by omega); omega) (fun j h1 h2 => hd j (by omega) (by omega)) fun b hb => ⟨hb, rfl, rfl⟩) ?_
    rintro b _ _ ⟨hb, rfl, rfl⟩
    exact J.pure (h _ (by simp [hb]))

theorem J.len {D : Nat → Prop} {l : Nat} {Q} (h : Q l D l) : J D l Protocol.len Q := by
  intro s hk hl; exact ⟨D, hk, by rw [hl]; exact h⟩

theorem J.setLen {D : Nat → Prop} {l n : Nat} {Q} (h : Q () D n) : J D l (Protocol.setLen n) Q := by
  intro s hk hl; exact ⟨D, hk, h⟩

theorem J.put {env : Env} {D : Nat → Prop} {l i : Nat} {data : Bytes} {Q} (hc : i + data.length ≤ env.cap)
    (h : Q () (fun j => D j ∨ (i ≤ j ∧ j < i + data.length)) l) : J D l (Protocol.put env i data) Q := by
  intro s hk hl
  unfold Protocol.put
  rw [if_neg (by rintro ⟨h1, -⟩; omega)]
  refine ⟨_, ?_, hl ▸ h⟩
  intro j hj
  show ((upd s.mem i data) j).isSome
  unfold upd
  by_cases hi : i ≤ j ∧ j < i + data.length
  · rw [if_pos hi, List.getElem?_eq_getElem (by omega)]; rfl
  · rw [if_neg hi]; exact hk j (hj.resolve_right hi)

theorem le_length (k v : Nat) : (le k v).length = k := by
  induction k generalizing v with
  | zero => rfl
  | succ k ih => simp [le, ih]

theorem J.put8 {env : Env} {D : Nat → Prop} {l i v : Nat} {Q} (hc : i + 1 ≤ env.cap)
    (h : Q () (fun j => D j ∨ (i ≤ j ∧ j < i + 1)) l) : J D l (Protocol.put8 env i v) Q :=
  J.put (by rw [le_length]; exact hc) (by rw [le_length]; exact h)
theorem J.put16 {env : Env} {D : Nat → Prop} {l i v : Nat} {Q} (hc : i + 2 ≤ env.cap)
    (h : Q () (fun j => D j ∨ (i ≤ j ∧ j < i + 2)) l) : J D l (Protocol.put16 env i v) Q :=
  J.put (by rw [le_length]; exact hc) (by rw [le_length]; exact h)
theorem J.put32 {env : Env} {D : Nat → Prop} {l i v : Nat} {Q} (hc : i + 4 ≤ env.cap)
    (h : Q () (fun j => D j ∨ (i ≤ j ∧ j < i + 4)) l) : J D l (Protocol.put32 env i v) Q :=
  J.put (by rw [le_length]; exact hc) (by rw [le_length]; exact h)

theorem J.call {env : Env} {D : Nat → Prop} {l : Nat} {c : Call} {Q} (he : Faithful env)
    (h : ∀ r, Answer c r → Q r D l) : J D l (Protocol.call env c) Q := by
  intro s hk hl; exact ⟨D, hk, hl ▸ h _ (he.answer _ _)⟩

theorem J.callAt {env : Env} {D : Nat → Prop} {l i : Nat} {c : Call} {Q} (he : Faithful env)
    (hc : ∀ r, Answer c r → i + r.data.length ≤ env.cap)
    (h : ∀ r, Answer c r → Q r (fun j => D j ∨ (i ≤ j ∧ j < i + r.data.length)) l) :
    J D l (Protocol.callAt env i c) Q := by
  unfold Protocol.callAt
  refine J.bind (R := fun r D' l' => Answer c r ∧ D = D' ∧ l = l') (J.call he fun r hr => ⟨hr, rfl, rfl⟩) ?_
  rintro r _ _ ⟨hr, rfl, rfl⟩
  refine J.bind (R := fun _ D' l' => (fun j => D j ∨ (i ≤ j ∧ j < i + r.data.length)) = D' ∧ l = l') (J.put (hc r hr) ⟨rfl, rfl⟩) ?_
  rintro _ _ _ ⟨rfl, rfl⟩
  exact J.pure (h r hr)

theorem J.unlessErr {D : Nat → Prop} {l : Nat} {c : Bool} {e : Err} {Q} (h4 : D 4)
    (h : c = false → Q () D l) : J D l (Protocol.unlessErr c e) Q := by
  unfold Protocol.unlessErr
  cases c
  · exact J.pure (h rfl)
  · exact J.fail h4

theorem J.done {D : Nat → Prop} {l : Nat} {r : Reply} {Q} (h4 : D 4)
    (h : r.rc = .ok 0 → Q () D l) : J D l (Protocol.done r) Q := by
  unfold Protocol.done
  split
  · rename_i hr; exact J.pure (h hr)
  · exact J.rcErr h4

theorem J.value {D : Nat → Prop} {l : Nat} {r : Reply} {Q} (h4 : D 4)
    (h : ∀ v, r.rc = .ok v → Q v D l) : J D l (Protocol.value r) Q := by
  unfold Protocol.value
  split
  · rename_i hr; exact J.pure (h _ hr)
  · exact J.rcErr h4

theorem J.strLen {D : Nat → Prop} {l : Nat} {data : Bytes} {Q} (h0 : (0 : UInt8) ∈ data)
    (h : ∀ n, n ≤ data.length → Q n D l) : J D l (Protocol.strLen data) Q := by
  intro s hk hl
  unfold Protocol.strLen
  rw [if_pos h0]
  refine ⟨D, hk, hl ▸ h _ ?_⟩
  clear hk hl s h
  induction data with
  | nil => cases h0
  | cons a t ih =>
    by_cases ha : a = 0
    · simp [ha]
    · have : (0 : UInt8) ∈ t := by
        rcases List.mem_cons.1 h0 with h | h
        · exact absurd h.symm ha
        · exact h
      simp only [List.takeWhile_cons, ha, ne_eq, not_false_eq_true, decide_true, if_true, List.length_cons]
      have := ih this
      simp only [ne_eq, decide_not] at this ⊢
      omega

theorem J.ite {D : Nat → Prop} {l : Nat} {c : Prop} [Decidable c] {m n : M α} {Q}
    (h1 : c → J D l m Q) (h2 : ¬ c → J D l n Q) : J D l (if c then m else n) Q := by
  by_cases h : c
  · rw [if_pos h]; exact h1 h
  · rw [if_neg h]; exact h2 h

theorem J.releasing {env : Env} {D : Nat → Prop} {l : Nat} {k : Kind} {b : Bool} {m : M Unit} {Q}
    (h : J D l m Q) : J D l (Protocol.releasing env k b m) Q := by
  intro s hk hl
  have := h s hk hl
  unfold Protocol.releasing
  revert this
  rcases m s with ⟨r | r, t⟩
  · cases r <;> cases b <;> simp
  · cases b
    · simp
    · simp only [if_true]
      rintro ⟨D', hk', hq⟩
      exact ⟨D', hk', hq⟩

end Verif.Protocol
