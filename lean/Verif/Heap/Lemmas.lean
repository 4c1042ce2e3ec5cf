import Verif.Heap.Model
/-! Linked lists in memory, and the invariant of the allocator. -/
namespace Verif.Heap

theorem upd_same (m : Mem) (a v : Nat) : upd m a v a = v := by simp [upd]
theorem upd_ne (m : Mem) {a i : Nat} (v : Nat) (h : i ≠ a) : upd m a v i = m i := by simp [upd, h]
theorem u32_id {n : Nat} (h : n < 2 ^ 32) : u32 n = n := Nat.mod_eq_of_lt h

/-! ### Doubly linked lists -/

def first (l : List Nat) (n : Nat) : Nat := match l with | [] => n | a :: _ => a
def last (p : Nat) (l : List Nat) : Nat := match l with | [] => p | a :: l => last a l

/-- The nodes of `l` are linked in both directions, from predecessor `p` to successor `n`. -/
def Seg (m : Mem) (p : Nat) (l : List Nat) (n : Nat) : Prop :=
  match l with
  | [] => True
  | a :: l => m (a + 12) = p ∧ m (a + 8) = first l n ∧ Seg m a l n

theorem first_append (l1 l2 : List Nat) (n : Nat) : first (l1 ++ l2) n = first l1 (first l2 n) := by cases l1 <;> rfl
theorem last_append (l1 : List Nat) : ∀ (p : Nat) (l2 : List Nat), last p (l1 ++ l2) = last (last p l1) l2 := by
  induction l1 with
  | nil => intro p l2; rfl
  | cons a l ih => intro p l2; exact ih a l2

theorem seg_append (m : Mem) (l1 : List Nat) : ∀ (p n : Nat) (l2 : List Nat),
    Seg m p (l1 ++ l2) n ↔ Seg m p l1 (first l2 n) ∧ Seg m (last p l1) l2 n := by
  induction l1 with
  | nil => intro p n l2; simp [Seg, last]
  | cons a l ih => intro p n l2; simp only [List.cons_append, Seg, last, ih, first_append, and_assoc]

theorem Seg.congr {m m' : Mem} {l : List Nat} : ∀ {p n : Nat}, Seg m p l n → (∀ a ∈ l, m' (a + 8) = m (a + 8) ∧ m' (a + 12) = m (a + 12)) →
    Seg m' p l n := by
  induction l with
  | nil => intro p n _ _; trivial
  | cons a l ih =>
    intro p n h hm
    obtain ⟨h1, h2, h3⟩ := h
    obtain ⟨g1, g2⟩ := hm a (by simp)
    exact ⟨by rw [g2, h1], by rw [g1, h2], ih h3 (fun b hb => hm b (List.mem_cons_of_mem _ hb))⟩

theorem last_mem (l : List Nat) : ∀ (p : Nat), l ≠ [] → last p l ∈ l := by
  induction l with
  | nil => intro p h; exact (h rfl).elim
  | cons a l ih =>
    intro p _
    cases l with
    | nil => simp [last]
    | cons b l => exact List.mem_cons_of_mem _ (ih a (by simp))

theorem last_irrel (l : List Nat) (p q : Nat) (h : l ≠ []) : last p l = last q l := by cases l with | nil => exact (h rfl).elim | cons => rfl

/-- A segment whose last node gets another successor. -/
theorem Seg.relast {m m' : Mem} (l : List Nat) : ∀ {p n n' : Nat}, Seg m p l n → l.Nodup →
    (∀ a ∈ l, m' (a + 12) = m (a + 12) ∧ (a ≠ last p l → m' (a + 8) = m (a + 8))) → (l ≠ [] → m' (last p l + 8) = n') → Seg m' p l n' := by
  induction l with
  | nil => intro p n n' _ _ _ _; trivial
  | cons a l ih =>
    intro p n n' h hn hm he
    obtain ⟨h1, h2, h3⟩ := h
    have ha := hm a (by simp)
    rw [List.nodup_cons] at hn
    refine ⟨by rw [ha.1, h1], ?_, ih h3 hn.2 (fun b hb => hm b (List.mem_cons_of_mem _ hb)) (fun _ => he (by simp))⟩
    cases l with
    | nil => exact he (by simp)
    | cons b l =>
      rw [ha.2 (fun e => hn.1 (by rw [e]; exact last_mem (b :: l) a (by simp))), h2]
      rfl

/-- A segment whose first node gets another predecessor. -/
theorem Seg.refirst {m m' : Mem} (l : List Nat) {p p' n : Nat} (h : Seg m p l n)
    (hn : l.Nodup) (hm : ∀ a ∈ l, m' (a + 8) = m (a + 8) ∧ (a ≠ first l 0 → m' (a + 12) = m (a + 12)))
    (hf : l ≠ [] → m' (first l 0 + 12) = p') : Seg m' p' l n := by
  cases l with
  | nil => trivial
  | cons a l =>
    obtain ⟨h1, h2, h3⟩ := h
    rw [List.nodup_cons] at hn
    refine ⟨hf (by simp), by rw [(hm a (by simp)).1, h2], h3.congr (fun b hb => ?_)⟩
    have := hm b (List.mem_cons_of_mem _ hb)
    refine ⟨this.1, this.2 (fun e => ?_)⟩
    have : b = a := e
    subst this
    exact hn.1 hb

/-- Replace the middle of a list. -/
theorem Seg.splice {m m' : Mem} {l1 mid l2 mid' : List Nat} (h : Seg m 0 (l1 ++ mid ++ l2) 0) (hn : (l1 ++ mid ++ l2).Nodup)
    (h1 : ∀ a ∈ l1, m' (a + 12) = m (a + 12) ∧ (a ≠ last 0 l1 → m' (a + 8) = m (a + 8)))
    (h1' : l1 ≠ [] → m' (last 0 l1 + 8) = first (mid' ++ l2) 0)
    (h2 : ∀ a ∈ l2, m' (a + 8) = m (a + 8) ∧ (a ≠ first l2 0 → m' (a + 12) = m (a + 12)))
    (h2' : l2 ≠ [] → m' (first l2 0 + 12) = last 0 (l1 ++ mid'))
    (hmid : Seg m' (last 0 l1) mid' (first l2 0)) : Seg m' 0 (l1 ++ mid' ++ l2) 0 := by
  rw [seg_append, seg_append] at h ⊢
  obtain ⟨⟨g1, g2⟩, g3⟩ := h
  rw [List.nodup_append, List.nodup_append] at hn
  refine ⟨⟨g1.relast l1 hn.1.1 h1 (fun hne => ?_), hmid⟩, g3.refirst l2 hn.2.1 h2 h2'⟩
  rw [h1' hne, first_append]

theorem Seg.head {m : Mem} {l1 l2 : List Nat} {a : Nat} (h : Seg m 0 (l1 ++ a :: l2) 0) :
    m (a + 12) = last 0 l1 ∧ m (a + 8) = first l2 0 := by
  rw [seg_append] at h
  exact ⟨h.2.1, h.2.2.1⟩

/-! ### Blocks -/

/-- A block: address of its control block, size of its content, whether it is free. -/
structure Blk where
  addr : Nat
  size : Nat
  free : Bool
deriving DecidableEq, Repr

def Blk.stop (b : Blk) : Nat := b.addr + 16 + b.size

/-- The blocks fill `[a, e)` without gaps. -/
def Tiles (a e : Nat) : List Blk → Prop
  | [] => a = e
  | b :: bs => b.addr = a ∧ Tiles b.stop e bs

theorem tiles_append (l1 : List Blk) : ∀ (a e : Nat) (l2 : List Blk), Tiles a e (l1 ++ l2) ↔ ∃ x, Tiles a x l1 ∧ Tiles x e l2 := by
  induction l1 with
  | nil => intro a e l2; simp [Tiles]
  | cons b l ih => intro a e l2; simp only [List.cons_append, Tiles, ih]; exact ⟨fun ⟨h, x, y⟩ => ⟨x, ⟨h, y.1⟩, y.2⟩, fun ⟨x, ⟨h, y⟩, z⟩ => ⟨h, x, y, z⟩⟩

theorem Tiles.bounds {l : List Blk} : ∀ {a e : Nat}, Tiles a e l → a ≤ e ∧ ∀ b ∈ l, a ≤ b.addr ∧ b.stop ≤ e := by
  induction l with
  | nil => intro a e h; exact ⟨by unfold Tiles at h; omega, fun b hb => by cases hb⟩
  | cons b l ih =>
    intro a e h
    obtain ⟨h1, h2⟩ := h
    obtain ⟨i1, i2⟩ := ih h2
    have : b.stop = b.addr + 16 + b.size := rfl
    refine ⟨by omega, fun c hc => ?_⟩
    rcases List.mem_cons.mp hc with rfl | hc
    · exact ⟨by omega, i1⟩
    · have := i2 c hc; omega

theorem Tiles.pairwise {l : List Blk} : ∀ {a e : Nat}, Tiles a e l → l.Pairwise (fun b c => b.stop ≤ c.addr) := by
  induction l with
  | nil => intro a e _; exact .nil
  | cons b l ih =>
    intro a e h
    obtain ⟨h1, h2⟩ := h
    exact .cons (fun c hc => (h2.bounds.2 c hc).1) (ih h2)

theorem Tiles.length {l : List Blk} : ∀ {a e : Nat}, Tiles a e l → a + 16 * l.length ≤ e := by
  induction l with
  | nil => intro a e h; unfold Tiles at h; simp; omega
  | cons b l ih =>
    intro a e h
    have := ih h.2
    have := h.1
    have : b.stop = b.addr + 16 + b.size := rfl
    simp only [List.length_cons]
    omega

def addrs (f : Bool) (B : List Blk) : List Nat := (B.filter (fun b => b.free == f)).map (·.addr)

theorem addrs_append (f : Bool) (B C : List Blk) : addrs f (B ++ C) = addrs f B ++ addrs f C := by simp [addrs]
theorem addrs_cons (f : Bool) (b : Blk) (B : List Blk) : addrs f (b :: B) = if b.free = f then b.addr :: addrs f B else addrs f B := by
  unfold addrs
  by_cases h : b.free = f <;> simp [h]
theorem addrs_nil (f : Bool) : addrs f [] = [] := rfl

theorem mem_addrs {f : Bool} {B : List Blk} {a : Nat} : a ∈ addrs f B ↔ ∃ b ∈ B, b.free = f ∧ b.addr = a := by
  simp [addrs, and_assoc]

theorem tiles_addrs_nodup {a e : Nat} {B : List Blk} (h : Tiles a e B) (f : Bool) : (addrs f B).Nodup := by
  have := (h.pairwise.filter (fun b => b.free == f))
  unfold addrs
  rw [List.Nodup, List.pairwise_map]
  exact this.imp (fun {x y} hxy => by
    have : x.stop = x.addr + 16 + x.size := rfl
    omega)

/-- Two different blocks are apart. -/
theorem Tiles.apart {a e : Nat} {B : List Blk} (h : Tiles a e B) {b c : Blk} (hb : b ∈ B) (hc : c ∈ B) (hne : b.addr ≠ c.addr) :
    b.stop ≤ c.addr ∨ c.stop ≤ b.addr := by
  have hp := h.pairwise
  clear h
  induction B with
  | nil => cases hb
  | cons x B ih =>
    rw [List.pairwise_cons] at hp
    rcases List.mem_cons.mp hb with h1 | h1 <;> rcases List.mem_cons.mp hc with h2 | h2
    · subst h1; subst h2; exact (hne rfl).elim
    · subst h1; exact .inl (hp.1 c h2)
    · subst h2; exact .inr (hp.1 b h1)
    · exact ih h1 h2 hp.2

def headFree : List Blk → Bool
  | [] => false
  | b :: _ => b.free

def lastFree : List Blk → Bool
  | [] => false
  | [b] => b.free
  | _ :: b :: l => lastFree (b :: l)

/-- No two free blocks next to each other. -/
def NoAdj : List Blk → Prop
  | [] => True
  | b :: bs => (b.free = true → headFree bs = false) ∧ NoAdj bs

theorem headFree_append (l1 l2 : List Blk) : headFree (l1 ++ l2) = if l1 = [] then headFree l2 else headFree l1 := by
  cases l1 <;> simp [headFree]

theorem noAdj_append (l1 l2 : List Blk) : NoAdj (l1 ++ l2) ↔ NoAdj l1 ∧ NoAdj l2 ∧ (lastFree l1 = true → headFree l2 = false) := by
  induction l1 with
  | nil => simp [NoAdj, lastFree]
  | cons b l ih =>
    simp only [List.cons_append, NoAdj, ih, headFree_append]
    cases l with
    | nil => simp [NoAdj, lastFree, headFree]; exact ⟨fun h => ⟨h.2, h.1⟩, fun h => ⟨h.2, h.1⟩⟩
    | cons c l => simp [lastFree, and_assoc]

/-- The blocks are as the memory says. -/
structure Inv (s : Heap) (base len : Nat) (B : List Blk) (A : List Nat) : Prop where
  pos : 0 < base
  fits : base + len < 2 ^ 32
  align : base % 4 = 0
  tiles : Tiles base (base + len) B
  hdr : ∀ b ∈ B, s.mem b.addr = magic ∧ s.mem (b.addr + 4) = b.size ∧ b.size % 4 = 0
  freeSeg : Seg s.mem 0 (addrs true B) 0
  freeHead : s.free = first (addrs true B) 0
  allocSeg : Seg s.mem 0 A 0
  allocHead : s.alloc = first A 0
  perm : A.Perm (addrs false B)
  noAdj : NoAdj B
  fuel : s.fuel = len
  room : 16 < len

theorem Inv.fuel_lt {s : Heap} {base len : Nat} {B : List Blk} {A : List Nat} (h : Inv s base len B A) : B.length < s.fuel := by
  have := h.tiles.length
  have := h.room
  rw [h.fuel]; omega

theorem addrs_length (f : Bool) (B : List Blk) : (addrs f B).length ≤ B.length := by
  simp [addrs]; exact List.length_filter_le _ _

/-! ### Memory operations -/

/-- `y` lies outside the control blocks of `l`. -/
def Off (l : List Nat) (y : Nat) : Prop := ∀ z ∈ l, y < z ∨ z + 16 ≤ y

/-- The control blocks of `l` do not overlap the one at `a`. -/
def Apart (l : List Nat) (a : Nat) : Prop := ∀ z ∈ l, z + 16 ≤ a ∨ a + 16 ≤ z

theorem Apart.off {l : List Nat} {a k : Nat} (h : Apart l a) (hk : k < 16) : Off l (a + k) := fun z hz => by
  have := h z hz; omega

theorem first_mem {l : List Nat} {n : Nat} (h : l ≠ []) : first l n ∈ l := by cases l with | nil => exact (h rfl).elim | cons a l => simp [first]

theorem first_irrel {l : List Nat} (n k : Nat) (h : l ≠ []) : first l n = first l k := by cases l with | nil => exact (h rfl).elim | cons => rfl

/-- The memory after a node between `l1` and `l2` was taken out. -/
def unlinked (m : Mem) (l1 l2 : List Nat) : Mem := fun x =>
  if l1 ≠ [] ∧ x = last 0 l1 + 8 then first l2 0 else if l2 ≠ [] ∧ x = first l2 0 + 12 then last 0 l1 else m x

theorem unlink_spec {m : Mem} {l1 l2 : List Nat} {a : Nat} (h : Seg m 0 (l1 ++ [a] ++ l2) 0) (hp : ∀ z ∈ l1 ++ l2, z ≠ 0)
    (ha : Apart (l1 ++ l2) a) (hx : ∀ x ∈ l1, ∀ y ∈ l2, x + 16 ≤ y ∨ y + 16 ≤ x) :
    unlink m (first (l1 ++ [a] ++ l2) 0) a = (unlinked m l1 l2, first (l1 ++ l2) 0) := by
  rw [List.append_assoc] at h
  obtain ⟨e1, e2⟩ : m (a + 12) = last 0 l1 ∧ m (a + 8) = first l2 0 := h.head
  unfold unlink
  rw [e1, e2]
  have hl2 : first l2 0 ≠ 0 ↔ l2 ≠ [] := by
    cases l2 with
    | nil => simp [first]
    | cons b l => simp [first]; exact hp b (by simp)
  by_cases hl1 : l1 = []
  · subst hl1
    rw [if_pos (by rfl)]
    refine Prod.ext ?_ rfl
    simp only [List.nil_append]
    funext x
    unfold unlinked
    by_cases h2 : l2 = []
    · subst h2; simp [first]
    · rw [if_pos (hl2.mpr h2)]
      simp [upd, h2, last]
  · have hm := last_mem l1 0 hl1
    have hne : last 0 l1 ≠ 0 := hp _ (by simp [hm])
    have hapart := ha (last 0 l1) (by simp [hm])
    rw [if_neg hne]
    simp only
    rw [upd_ne _ _ (show a + 8 ≠ last 0 l1 + 8 by omega), upd_ne _ _ (show a + 12 ≠ last 0 l1 + 8 by omega), e1, e2]
    refine Prod.ext ?_ ?_
    · funext x
      unfold unlinked
      by_cases h2 : l2 = []
      · subst h2
        simp [first, upd, hl1]
      · have hxx := hx _ hm _ (first_mem (n := 0) h2)
        rw [if_pos (hl2.mpr h2)]
        simp only [upd, hl1, h2, ne_eq, not_false_eq_true, true_and]
        by_cases c1 : x = first l2 0 + 12
        · rw [if_pos c1, if_neg (by omega), if_pos c1]
        · rw [if_neg c1, if_neg c1]
    · simp only
      cases l1 with
      | nil => exact (hl1 rfl).elim
      | cons b l => rfl

theorem unlinked_off {m : Mem} {l1 l2 : List Nat} {y : Nat} (h : Off (l1 ++ l2) y) : unlinked m l1 l2 y = m y := by
  unfold unlinked
  split
  · rename_i h1
    have := h (last 0 l1) (by simp [last_mem l1 0 h1.1])
    omega
  · split
    · rename_i h1
      have := h (first l2 0) (by simp [first_mem h1.1])
      omega
    · rfl

/-- Magic and size of any control block are left alone. -/
theorem unlinked_low {m : Mem} {l1 l2 : List Nat} {z k : Nat} (hk : k < 8) (hz : ∀ y ∈ l1 ++ l2, y = z ∨ y + 16 ≤ z ∨ z + 16 ≤ y) :
    unlinked m l1 l2 (z + k) = m (z + k) := by
  unfold unlinked
  split
  · rename_i h1
    have := hz (last 0 l1) (by simp [last_mem l1 0 h1.1])
    omega
  · split
    · rename_i h1
      have := hz (first l2 0) (by simp [first_mem h1.1])
      omega
    · rfl

/-- All control blocks of the list are apart from each other. -/
def Sep (l : List Nat) : Prop := l.Pairwise (fun x y => x + 16 ≤ y ∨ y + 16 ≤ x)

theorem Sep.nodup {l : List Nat} (h : Sep l) : l.Nodup := h.imp (fun h e => by omega)

theorem Sep.of {l : List Nat} (h : Sep l) {x y : Nat} (hx : x ∈ l) (hy : y ∈ l) : x = y ∨ x + 16 ≤ y ∨ y + 16 ≤ x := by
  induction l with
  | nil => cases hx
  | cons a l ih =>
    have h' := List.pairwise_cons.mp h
    rcases List.mem_cons.mp hx with e1 | e1 <;> rcases List.mem_cons.mp hy with e2 | e2
    · left; omega
    · subst e1; have := h'.1 _ e2; omega
    · subst e2; have := h'.1 _ e1; omega
    · exact ih h'.2 e1 e2

theorem unlinked_seg {m : Mem} {l1 l2 : List Nat} {a : Nat} (h : Seg m 0 (l1 ++ [a] ++ l2) 0) (hs : Sep (l1 ++ [a] ++ l2)) :
    Seg (unlinked m l1 l2) 0 (l1 ++ l2) 0 := by
  have hof := fun {x y} => hs.of (x := x) (y := y)
  have hcross : ∀ x ∈ l1, ∀ y ∈ l2, x + 16 ≤ y ∨ y + 16 ≤ x := fun x hx y hy =>
    (List.pairwise_append.mp hs).2.2 x (by simp [hx]) y hy
  have key := h.splice (m' := unlinked m l1 l2) (mid' := []) hs.nodup (fun x hx => ?_) (fun hne => ?_) (fun x hx => ?_) (fun hne => ?_) trivial
  · simpa using key
  · unfold unlinked
    refine ⟨?_, fun hne => ?_⟩
    · rw [if_neg, if_neg]
      · rintro ⟨h1, h2⟩
        have := hcross x hx _ (first_mem (n := 0) h1)
        omega
      · rintro ⟨h1, h2⟩
        have := hof (x := x) (y := last 0 l1) (by simp [hx]) (by simp [last_mem l1 0 h1])
        omega
    · rw [if_neg, if_neg]
      · rintro ⟨h1, h2⟩
        have := hcross x hx _ (first_mem (n := 0) h1)
        omega
      · rintro ⟨h1, h2⟩
        omega
  · unfold unlinked
    rw [if_pos ⟨hne, rfl⟩]; rfl
  · unfold unlinked
    refine ⟨?_, fun hne => ?_⟩
    · rw [if_neg, if_neg]
      · rintro ⟨h1, h2⟩
        have := hof (x := x) (y := first l2 0) (by simp [hx]) (by simp [first_mem h1])
        omega
      · rintro ⟨h1, h2⟩
        have := hcross _ (last_mem l1 0 h1) x hx
        omega
    · rw [if_neg, if_neg]
      · rintro ⟨h1, h2⟩
        omega
      · rintro ⟨h1, h2⟩
        have := hcross _ (last_mem l1 0 h1) x hx
        omega
  · unfold unlinked
    rw [if_neg, if_pos ⟨hne, rfl⟩]
    · simp
    · rintro ⟨h1, h2⟩
      have := hcross _ (last_mem l1 0 h1) _ (first_mem (n := 0) hne)
      omega

theorem setHdr_eq (m : Mem) (a mg size next prev x : Nat) : setHdr m a mg size next prev x =
    if x = a + 12 then prev else if x = a + 8 then next else if x = a + 4 then size else if x = a then mg else m x := rfl

theorem setHdr_off {m : Mem} {a mg size next prev x : Nat} (h : x < a ∨ a + 16 ≤ x) : setHdr m a mg size next prev x = m x := by
  rw [setHdr_eq, if_neg (by omega), if_neg (by omega), if_neg (by omega), if_neg (by omega)]

theorem finish_spec {s : Heap} {A : List Nat} {r size : Nat} (hA : Seg s.mem 0 A 0) (hh : s.alloc = first A 0) (hs : Sep (r :: A))
    (hp : ∀ z ∈ A, z ≠ 0) (hr : r + 16 < 2 ^ 32) :
    (finish s r size).2 = r + 16 ∧ (finish s r size).1.alloc = r ∧ (finish s r size).1.free = s.free ∧ (finish s r size).1.fuel = s.fuel ∧
    (finish s r size).1.mem r = magic ∧ (finish s r size).1.mem (r + 4) = size ∧ Seg (finish s r size).1.mem 0 (r :: A) 0 ∧
    (∀ y, Off (r :: A) y → (finish s r size).1.mem y = s.mem y) ∧
    (∀ z k, k < 8 → z ≠ r → (∀ y ∈ r :: A, y = z ∨ y + 16 ≤ z ∨ z + 16 ≤ y) → (finish s r size).1.mem (z + k) = s.mem (z + k)) := by
  have hof := fun {x y} => hs.of (x := x) (y := y)
  unfold finish
  simp only
  have hAr : ∀ z ∈ A, z + 16 ≤ r ∨ r + 16 ≤ z := fun z hz => by have := (List.pairwise_cons.mp hs).1 z hz; omega
  cases A with
  | nil =>
    simp only [hh, first, ne_eq, not_true, if_false]
    refine ⟨u32_id hr, trivial, trivial, trivial, ?_, ?_, ⟨?_, ?_, trivial⟩, fun y hy => setHdr_off (by have := hy r (by simp); omega),
      fun z k hk hzr hz => setHdr_off (by have := hz r (by simp); omega)⟩
    · rw [setHdr_eq, if_neg (by omega), if_neg (by omega), if_neg (by omega), if_pos rfl]
    · rw [setHdr_eq, if_neg (by omega), if_neg (by omega), if_pos rfl]
    · rw [setHdr_eq, if_pos rfl]
    · rw [setHdr_eq, if_neg (by omega), if_pos rfl]; rfl
  | cons b A =>
    have hb0 : first (b :: A) 0 = b := rfl
    have hbne := hp b (by simp)
    have hbr := hAr b (by simp)
    rw [hh, hb0, if_pos hbne]
    obtain ⟨g1, g2, g3⟩ := hA
    refine ⟨u32_id hr, trivial, trivial, trivial, ?_, ?_, ⟨?_, ?_, ?_, ?_, ?_⟩, fun y hy => ?_, fun z k hk hzr hz => ?_⟩
    · rw [upd_ne _ _ (by omega), setHdr_eq, if_neg (by omega), if_neg (by omega), if_neg (by omega), if_pos rfl]
    · rw [upd_ne _ _ (by omega), setHdr_eq, if_neg (by omega), if_neg (by omega), if_pos rfl]
    · rw [upd_ne _ _ (by omega), setHdr_eq, if_pos rfl]
    · rw [upd_ne _ _ (by omega), setHdr_eq, if_neg (by omega), if_pos rfl]; rfl
    · rw [upd_same]
    · rw [upd_ne _ _ (by omega), setHdr_off (by omega), g2]
    · refine g3.congr (fun z hz => ?_)
      have h1 := hAr z (by simp [hz])
      have h2 := (List.pairwise_cons.mp (List.pairwise_cons.mp hs).2).1 z hz
      exact ⟨by rw [upd_ne _ _ (by omega), setHdr_off (by omega)], by rw [upd_ne _ _ (by omega), setHdr_off (by omega)]⟩
    · have h1 := hy r (by simp)
      have h2 := hy b (by simp)
      rw [upd_ne _ _ (by omega), setHdr_off (by omega)]
    · have h1 := hz r (by simp)
      have h2 := hz b (by simp)
      rw [upd_ne _ _ (by omega), setHdr_off (by omega)]

/-! ### Allocation -/

theorem findFit_spec (m : Mem) (size asz : Nat) (l : List Nat) : ∀ (fuel p : Nat), l.length < fuel → Seg m p l 0 → (∀ a ∈ l, a ≠ 0) →
    (findFit m size asz fuel (first l 0) = some .none ∧ ∀ a ∈ l, m (a + 4) ≠ size ∧ m (a + 4) < asz) ∨
    (∃ r ∈ l, findFit m size asz fuel (first l 0) = some (.exact r) ∧ m (r + 4) = size) ∨
    (∃ r ∈ l, findFit m size asz fuel (first l 0) = some (.carve r) ∧ m (r + 4) ≥ asz) := by
  induction l with
  | nil =>
    intro fuel p hf _ _
    obtain ⟨k, rfl⟩ : ∃ k, fuel = k + 1 := ⟨fuel - 1, by simp at hf; omega⟩
    left
    exact ⟨by simp [findFit, first], fun a h => by cases h⟩
  | cons a l ih =>
    intro fuel p hf hs hp
    obtain ⟨k, rfl⟩ : ∃ k, fuel = k + 1 := ⟨fuel - 1, by simp at hf; omega⟩
    have ha := hp a (by simp)
    have key : findFit m size asz (k + 1) (first (a :: l) 0) = if a = 0 then some .none else if m (a + 4) = size then some (.exact a)
      else if m (a + 4) ≥ asz then some (.carve a) else findFit m size asz k (m (a + 8)) := rfl
    rw [key, if_neg ha]
    by_cases c1 : m (a + 4) = size
    · rw [if_pos c1]; exact .inr (.inl ⟨a, by simp, rfl, c1⟩)
    · rw [if_neg c1]
      by_cases c2 : m (a + 4) ≥ asz
      · rw [if_pos c2]; exact .inr (.inr ⟨a, by simp, rfl, c2⟩)
      · rw [if_neg c2, hs.2.1]
        rcases ih k a (by simp at hf; omega) hs.2.2 (fun b hb => hp b (by simp [hb])) with h | h | h
        · left
          refine ⟨h.1, fun b hb => ?_⟩
          rcases List.mem_cons.mp hb with rfl | hb
          · exact ⟨c1, by omega⟩
          · exact h.2 b hb
        · right; left
          obtain ⟨r, h1, h2⟩ := h
          exact ⟨r, by simp [h1], h2⟩
        · right; right
          obtain ⟨r, h1, h2⟩ := h
          exact ⟨r, by simp [h1], h2⟩

theorem Inv.sep {s : Heap} {base len : Nat} {B : List Blk} {A : List Nat} (h : Inv s base len B A) : Sep (B.map (·.addr)) := by
  unfold Sep
  rw [List.pairwise_map]
  exact h.tiles.pairwise.imp (fun {x y} hxy => by
    have : x.stop = x.addr + 16 + x.size := rfl
    omega)

theorem addrs_sub (f : Bool) (B : List Blk) : ∀ a ∈ addrs f B, a ∈ B.map (·.addr) := fun a ha => by
  obtain ⟨b, h1, _, h3⟩ := mem_addrs.mp ha
  exact List.mem_map.mpr ⟨b, h1, h3⟩

theorem addrs_sublist (f : Bool) (B : List Blk) : (addrs f B).Sublist (B.map (·.addr)) := by
  unfold addrs
  exact (List.filter_sublist).map _

/-- A block is either free or allocated. -/
theorem Inv.split {s : Heap} {base len : Nat} {B : List Blk} {A : List Nat} (h : Inv s base len B A) {x y : Nat} (hx : x ∈ addrs true B)
    (hy : y ∈ addrs false B) : x + 16 ≤ y ∨ y + 16 ≤ x := by
  obtain ⟨b, h1, h2, h3⟩ := mem_addrs.mp hx
  obtain ⟨c, g1, g2, g3⟩ := mem_addrs.mp hy
  have hb : b.stop = b.addr + 16 + b.size := rfl
  have hc : c.stop = c.addr + 16 + c.size := rfl
  rcases h.sep.of (List.mem_map.mpr ⟨b, h1, rfl⟩) (List.mem_map.mpr ⟨c, g1, rfl⟩) with e | e
  · exfalso
    obtain ⟨i, hi, rfl⟩ := List.getElem_of_mem h1
    obtain ⟨j, hj, rfl⟩ := List.getElem_of_mem g1
    have hp := List.pairwise_iff_getElem.mp h.tiles.pairwise
    rcases Nat.lt_trichotomy i j with hlt | rfl | hlt
    · have := hp i j hi hj hlt; omega
    · rw [h2] at g2; cases g2
    · have := hp j i hj hi hlt; omega
  · omega

theorem Inv.bounds {s : Heap} {base len : Nat} {B : List Blk} {A : List Nat} (h : Inv s base len B A) {b : Blk} (hb : b ∈ B) :
    0 < b.addr ∧ b.addr + 16 + b.size ≤ base + len ∧ base ≤ b.addr ∧ base + len < 2 ^ 32 := by
  have := h.tiles.bounds.2 b hb
  have := h.pos
  have := h.fits
  have : b.stop = b.addr + 16 + b.size := rfl
  omega

/-- The content of a block does not overlap any control block. -/
theorem Inv.payload {s : Heap} {base len : Nat} {B : List Blk} {A : List Nat} (h : Inv s base len B A) {b : Blk} (hb : b ∈ B) {y : Nat}
    (h1 : b.addr + 16 ≤ y) (h2 : y < b.stop) : Off (B.map (·.addr)) y := by
  intro z hz
  obtain ⟨c, hc, rfl⟩ := List.mem_map.mp hz
  by_cases e : b.addr = c.addr
  · omega
  · have hcs : c.stop = c.addr + 16 + c.size := rfl
    have := h.tiles.apart hb hc e
    omega

theorem Off.sub {l l' : List Nat} {y : Nat} (h : Off l y) (hs : ∀ z ∈ l', z ∈ l) : Off l' y := fun z hz => h z (hs z hz)

end Verif.Heap
