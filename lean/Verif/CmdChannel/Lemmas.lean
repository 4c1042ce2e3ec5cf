import Verif.CmdChannel.Spec
/-! Lemmas about command channels. -/
namespace Verif.CmdChannel

theorem receiveAll_append (a b : List Rx) : ∀ o, receiveAll o (a ++ b) = ((receiveAll (receiveAll o a).1 b).1, (receiveAll o a).2 ++ (receiveAll (receiveAll o a).1 b).2) := by
  induction a with
  | nil => intro o; rfl
  | cons e a ih => intro o; simp only [List.cons_append, receiveAll, ih]

theorem received_append (a b : List Rx) : received (a ++ b) = received a ++ received b := List.filterMap_append
theorem processed_append (a b : List Fate) : processed (a ++ b) = processed a ++ processed b := List.filterMap_append

/-- Failed calls change nothing. -/
theorem receiveAll_received (l : List Rx) : ∀ o, (receiveAll o l).1 = (receiveAll o ((received l).map .packet)).1 ∧
    processed (receiveAll o l).2 = processed (receiveAll o ((received l).map .packet)).2 := by
  induction l with
  | nil => intro o; exact ⟨rfl, rfl⟩
  | cons e l ih =>
    intro o
    cases e with
    | failed c =>
      show (receiveAll o l).1 = _ ∧ processed (Fate.failed c :: (receiveAll o l).2) = _
      exact ih o
    | packet p =>
      show (receiveAll (receive o (.packet p)).1 l).1 = (receiveAll (receive o (.packet p)).1 ((received l).map .packet)).1 ∧
        processed ([(receive o (.packet p)).2] ++ (receiveAll (receive o (.packet p)).1 l).2) =
        processed ([(receive o (.packet p)).2] ++ (receiveAll (receive o (.packet p)).1 ((received l).map .packet)).2)
      rw [processed_append, processed_append, (ih _).1, (ih _).2]
      exact ⟨rfl, rfl⟩

theorem overflow_run (l : List Packet) (h : ∀ p ∈ l, p.state = .overflow) : ∀ o, (receiveAll o (l.map .packet)).1 = (if l = [] then o else true) ∧
    processed (receiveAll o (l.map .packet)).2 = [] := by
  induction l with
  | nil => intro o; exact ⟨rfl, rfl⟩
  | cons p l ih =>
    intro o
    have hp := h p (List.mem_cons_self)
    have e : receive o (.packet p) = (true, .overflowed) := by simp [receive, hp]
    simp only [List.map_cons, receiveAll, e]
    obtain ⟨h1, h2⟩ := ih (fun q hq => h q (List.mem_cons_of_mem _ hq)) true
    refine ⟨?_, h2⟩
    rw [h1]
    split <;> rfl

/-- One transaction, starting without overflow. -/
theorem transaction_run (t : Transaction) (h : t.Ok) : (receiveAll false (t.packets.map .packet)).1 = false ∧
    processed (receiveAll false (t.packets.map .packet)).2 = t.wanted := by
  cases t with
  | fits p =>
    have h' : p.state ≠ .overflow := h
    simp [Transaction.packets, Transaction.wanted, receiveAll, receive, h', processed]
  | tooLong over rest =>
    obtain ⟨h1, h2, h3⟩ := h
    obtain ⟨h4, h5⟩ := overflow_run over h2 false
    rw [if_neg h1] at h4
    simp only [Transaction.packets, Transaction.wanted, List.map_append, receiveAll_append, processed_append, h4, h5]
    simp [receiveAll, receive, h3, processed]

theorem transactions_run (ts : List Transaction) (h : ∀ t ∈ ts, t.Ok) : (receiveAll false ((ts.flatMap Transaction.packets).map .packet)).1 = false ∧
    processed (receiveAll false ((ts.flatMap Transaction.packets).map .packet)).2 = ts.flatMap Transaction.wanted := by
  induction ts with
  | nil => exact ⟨rfl, rfl⟩
  | cons t ts ih =>
    obtain ⟨h1, h2⟩ := transaction_run t (h t (List.mem_cons_self))
    obtain ⟨h3, h4⟩ := ih (fun q hq => h q (List.mem_cons_of_mem _ hq))
    simp only [List.flatMap_cons, List.map_append, receiveAll_append, processed_append, h1, h2, h3, h4]
    exact ⟨trivial, trivial⟩

/-- What is on the wire of a message whose remaining bytes are `rest`. -/
def Good (m : Message) (pk : List Bytes) (rest : Bytes) : Prop :=
  pk.flatten ++ rest = m.data ∧ (∀ p ∈ pk, p.length ≤ m.pktSize) ∧ (rest ≠ [] → ∀ p ∈ pk, p.length = m.pktSize) ∧
  (∀ p ∈ pk.dropLast, p.length = m.pktSize) ∧ (0 < m.pktSize → ∀ p ∈ pk, p ≠ [])

/-- The invariant of one call. -/
def CallOk : Phase → List Bytes → Prop
  | .idle, pk => pk = []
  | .wantFirst _, pk => pk = []
  | .want m r, pk => Good m pk r
  | .hold m r, pk => Good m pk r
  | .done m s, pk => (∃ r, Good m pk r ∧ (s = .success → r = [])) ∧ (s = .expired → pk = [])
  | .overrun m, pk => maxPacket < m.pktSize ∧ maxPacket < m.data.length ∧ ∃ r, Good m pk r

theorem good_nil (m : Message) : Good m [] m.data := by simp [Good]

theorem good_next {m : Message} {pk : List Bytes} {rest : Bytes} (hr : rest ≠ []) (h : Good m pk rest) :
    Good m (pk ++ [rest.take (pktLen m rest)]) (rest.drop (pktLen m rest)) := by
  obtain ⟨h1, h2, h3, h4, h5⟩ := h
  have hlen : 0 < rest.length := List.length_pos_iff.2 hr
  refine ⟨?_, ?_, ?_, ?_, ?_⟩
  · simp [List.flatten_append, List.append_assoc, List.take_append_drop, h1]
  · intro p hp
    rcases List.mem_append.1 hp with hp | hp
    · exact h2 p hp
    · rw [List.mem_singleton.1 hp, List.length_take, pktLen]; omega
  · intro hd p hp
    have hd' : pktLen m rest < rest.length := by
      rcases Nat.lt_or_ge (pktLen m rest) rest.length with h | h
      · exact h
      · exact absurd (List.drop_eq_nil_of_le h) hd
    rcases List.mem_append.1 hp with hp | hp
    · exact h3 hr p hp
    · rw [List.mem_singleton.1 hp, List.length_take]; unfold pktLen at *; omega
  · rw [List.dropLast_concat]
    exact h3 hr
  · intro h0 p hp
    rcases List.mem_append.1 hp with hp | hp
    · exact h5 h0 p hp
    · rw [List.mem_singleton.1 hp]
      intro he
      have := congrArg List.length he
      rw [List.length_take, List.length_nil] at this
      unfold pktLen at this
      omega

theorem sentBy_append (w : List (Nat × Bytes)) (j : Nat) (d : Bytes) (i : Nat) :
    sentBy (w ++ [(j, d)]) i = if j = i then sentBy w i ++ [d] else sentBy w i := by
  unfold sentBy
  rw [List.filter_append, List.map_append]
  by_cases h : j = i
  · simp [h]
  · simp [h]

theorem put_phase (s : St) (i : Nat) (p : Phase) (j : Nat) : (s.put i p).phase j = if j = i then p else s.phase j := rfl
theorem put_lock (s : St) (i : Nat) (p : Phase) : (s.put i p).lock = s.lock := rfl
theorem put_wire (s : St) (i : Nat) (p : Phase) : (s.put i p).wire = s.wire := rfl

/-- The holder of the lock is the only call in the loop. -/
def LockOk (s : St) : Prop :=
  (∀ i m r, s.phase i = .hold m r → s.lock = some i) ∧ ∀ i m, s.phase i = .overrun m → s.lock = some i

theorem callsOk_step {s s' : St} {e : Ev} (h : ∀ i, CallOk (s.phase i) (sentBy s.wire i)) (hs : step s e = some s') :
    ∀ i, CallOk (s'.phase i) (sentBy s'.wire i) := by
  intro k
  have hk := h k
  -- the cases in which a packet is built
  have over : ∀ (i : Nat) (m : Message) (r : Bytes) (t : St), s.phase i = .hold m r → (¬ maxPacket < pktLen m r → CallOk (t.phase k) (sentBy t.wire k)) →
      CallOk ((sendStep s i m r t).phase k) (sentBy (sendStep s i m r t).wire k) := by
    intro i m r t hp ht
    unfold sendStep
    split
    · rename_i hlt
      rw [put_phase, put_wire]
      split
      · rename_i hki
        have hi := h i
        rw [hp] at hi
        rw [hki]
        refine ⟨?_, ?_, r, hi⟩
        · unfold pktLen at hlt; omega
        · have := congrArg List.length hi.1
          rw [List.length_append] at this
          unfold pktLen at hlt
          omega
      · exact hk
    · rename_i hlt; exact ht hlt
  cases e with
  | call i m =>
    simp only [step] at hs
    split at hs
    · rename_i hp
      cases hs
      rw [put_phase, put_wire]
      split
      · rename_i hki
        have hi := h i
        rw [hp] at hi
        rw [hki]; exact hi
      · exact hk
    · cases hs
  | acquire i =>
    simp only [step] at hs
    split at hs
    · have hi := h i
      split at hs
      · rename_i m hp
        cases hs
        rw [hp] at hi
        dsimp only
        rw [put_phase, put_wire]
        split
        · rename_i hki
          rw [hki, show sentBy s.wire i = [] from hi]
          exact good_nil m
        · exact hk
      · rename_i m r hp
        cases hs
        rw [hp] at hi
        dsimp only
        rw [put_phase, put_wire]
        split
        · rename_i hki
          rw [hki]; exact hi
        · exact hk
      · cases hs
    · cases hs
  | acquireExpired i =>
    simp only [step] at hs
    split at hs
    · have hi := h i
      split at hs
      · rename_i m hp
        cases hs
        rw [hp] at hi
        rw [put_phase, put_wire]
        split
        · rename_i hki
          rw [hki, show sentBy s.wire i = [] from hi]
          exact ⟨⟨m.data, good_nil m, by intro h; cases h⟩, fun _ => rfl⟩
        · exact hk
      · cases hs
    · cases hs
  | sent i =>
    simp only [step] at hs
    split at hs
    · rename_i m b rest hp
      cases hs
      apply over i m _ _ hp
      intro _
      dsimp only
      rw [put_phase, sentBy_append]
      by_cases hki : k = i
      · rw [if_pos hki, if_pos hki.symm]
        have hi := h i
        rw [hp] at hi
        rw [hki]
        exact good_next (by simp) hi
      · rw [if_neg hki, if_neg (fun e => hki e.symm)]
        exact hk
    · cases hs
  | busy i =>
    simp only [step] at hs
    split at hs
    · rename_i m b rest hp
      cases hs
      apply over i m _ _ hp
      intro _
      dsimp only
      rw [put_phase, put_wire]
      split
      · rename_i hki
        have hi := h i
        rw [hp] at hi
        rw [hki]; exact hi
      · exact hk
    · cases hs
  | busyTimeout i =>
    simp only [step] at hs
    split at hs
    · rename_i m b rest hp
      cases hs
      apply over i m _ _ hp
      intro _
      dsimp only
      rw [put_phase, put_wire]
      split
      · rename_i hki
        have hi := h i
        rw [hp] at hi
        rw [hki]
        exact ⟨⟨_, hi, by intro h; cases h⟩, by intro h; cases h⟩
      · exact hk
    · cases hs
  | sendFailed i =>
    simp only [step] at hs
    split at hs
    · rename_i m b rest hp
      cases hs
      apply over i m _ _ hp
      intro _
      dsimp only
      rw [put_phase, put_wire]
      split
      · rename_i hki
        have hi := h i
        rw [hp] at hi
        rw [hki]
        exact ⟨⟨_, hi, by intro h; cases h⟩, by intro h; cases h⟩
      · exact hk
    · cases hs
  | finish i =>
    simp only [step] at hs
    split at hs
    · rename_i m hp
      cases hs
      dsimp only
      rw [put_phase, put_wire]
      split
      · rename_i hki
        have hi := h i
        rw [hp] at hi
        rw [hki]
        exact ⟨⟨_, hi, fun _ => rfl⟩, by intro h; cases h⟩
      · exact hk
    · cases hs

theorem callsOk {evs : List Ev} {s : St} (h : Reach evs s) : ∀ i, CallOk (s.phase i) (sentBy s.wire i) := by
  induction h with
  | start => intro i; rfl
  | next _ hs ih => exact callsOk_step ih hs

/-- The invariant without busy bus. -/
structure Alone (s : St) : Prop where
  mixed : NotMixed s.wire
  noWant : ∀ i m r, s.phase i ≠ .want m r
  holder : ∀ i m r, s.phase i = .hold m r → s.lock = some i
  over : ∀ i m, s.phase i = .overrun m → s.lock = some i
  last : ∀ i m r, s.phase i = .hold m r → sentBy s.wire i = [] ∨ ∃ d, s.wire.getLast? = some (i, d)

theorem notMixed_append {w : List (Nat × Bytes)} (h : NotMixed w) (i : Nat) (d : Bytes) (hl : sentBy w i = [] ∨ ∃ d, w.getLast? = some (i, d)) :
    NotMixed (w ++ [(i, d)]) := by
  intro a b c x y z hab hbc hx hy hz hxz
  have hc : c ≤ w.length := by
    have := (List.getElem?_eq_some_iff.1 hz).1
    rw [List.length_append] at this
    simp at this; omega
  rw [List.getElem?_append_left (by omega)] at hx hy
  rcases Nat.lt_or_ge c w.length with hlt | hge
  · rw [List.getElem?_append_left hlt] at hz
    exact h a b c x y z hab hbc hx hy hz hxz
  · have hcw : c = w.length := by omega
    subst hcw
    rw [List.getElem?_append_right (Nat.le_refl _)] at hz
    simp at hz
    subst hz
    rcases hl with hl | ⟨d', hl⟩
    · exfalso
      have hm : x ∈ w := List.mem_of_getElem? hx
      have : x.2 ∈ sentBy w i := List.mem_map.2 ⟨x, List.mem_filter.2 ⟨hm, by simpa using hxz⟩, rfl⟩
      rw [hl] at this
      cases this
    · rw [List.getLast?_eq_getElem?] at hl
      by_cases hb : b = w.length - 1
      · subst hb
        rw [hl] at hy
        cases hy
        exact hxz.symm
      · exact h a b (w.length - 1) x y (i, d') hab (by omega) hx hy hl hxz


theorem alone_other {s : St} (h : Alone s) (i : Nat) (p : Phase) (l : Option Nat) (h1 : ∀ m r, p ≠ .want m r) (h2 : ∀ m r, p ≠ .hold m r)
    (h3 : ∀ m, p ≠ .overrun m) (h4 : l = s.lock ∨ s.lock = some i) : Alone { s.put i p with lock := l } := by
  refine ⟨h.mixed, ?_, ?_, ?_, ?_⟩
  · intro k m r
    rw [put_phase]; split
    · exact h1 m r
    · exact h.noWant k m r
  · intro k m r
    rw [put_phase]; split
    · intro e; exact absurd e (h2 m r)
    · rename_i hk
      intro e
      have := h.holder k m r e
      rcases h4 with h4 | h4
      · exact h4.trans this
      · rw [this] at h4; cases h4; exact absurd rfl hk
  · intro k m
    rw [put_phase]; split
    · intro e; exact absurd e (h3 m)
    · rename_i hk
      intro e
      have := h.over k m e
      rcases h4 with h4 | h4
      · exact h4.trans this
      · rw [this] at h4; cases h4; exact absurd rfl hk
  · intro k m r
    rw [put_phase]; split
    · intro e; exact absurd e (h2 m r)
    · exact h.last k m r

theorem alone_sendStep {s : St} (h : Alone s) {i : Nat} {m : Message} {r : Bytes} {t : St} (hp : s.phase i = .hold m r) (ht : Alone t) :
    Alone (sendStep s i m r t) := by
  unfold sendStep
  split
  · refine ⟨h.mixed, ?_, ?_, ?_, ?_⟩
    · intro k m r
      rw [put_phase]; split
      · intro e; cases e
      · exact h.noWant k m r
    · intro k m r
      rw [put_phase]; split
      · intro e; cases e
      · exact h.holder k m r
    · intro k m'
      rw [put_phase]; split
      · rename_i hk; intro _; rw [hk]; exact h.holder i m r hp
      · exact h.over k m'
    · intro k m r
      rw [put_phase]; split
      · intro e; cases e
      · exact h.last k m r
  · exact ht

theorem alone_step {s s' : St} {e : Ev} (hc : ∀ i, CallOk (s.phase i) (sentBy s.wire i)) (h : Alone s) (hb : e.isBusy = false) (hs : step s e = some s') :
    Alone s' := by
  cases e with
  | call i m =>
    simp only [step] at hs
    split at hs
    · cases hs
      exact alone_other h i _ s.lock (by simp) (by simp) (by simp) (.inl rfl)
    · cases hs
  | acquire i =>
    simp only [step] at hs
    split at hs
    · rename_i hl
      have hi := hc i
      split at hs
      · rename_i m hp
        cases hs
        rw [hp] at hi
        refine ⟨h.mixed, ?_, ?_, ?_, ?_⟩
        · intro k m r
          rw [put_phase]; split
          · simp
          · exact h.noWant k m r
        · intro k m r
          rw [put_phase]; split
          · rename_i hk; intro _; rw [hk]
          · intro e; rw [h.holder k m r e] at hl; cases hl
        · intro k m
          rw [put_phase]; split
          · intro e; cases e
          · intro e; rw [h.over k m e] at hl; cases hl
        · intro k m r
          rw [put_phase]; split
          · rename_i hk; intro _; left; rw [hk]; exact hi
          · exact h.last k m r
      · rename_i m r hp; exact absurd hp (h.noWant i m r)
      · cases hs
    · cases hs
  | acquireExpired i =>
    simp only [step] at hs
    split at hs
    · split at hs
      · cases hs
        exact alone_other h i _ s.lock (by simp) (by simp) (by simp) (.inl rfl)
      · cases hs
    · cases hs
  | sent i =>
    simp only [step] at hs
    split at hs
    · rename_i m b rest hp
      cases hs
      apply alone_sendStep h hp
      have hlock := h.holder i _ _ hp
      refine ⟨notMixed_append h.mixed i _ (h.last i _ _ hp), ?_, ?_, ?_, ?_⟩
      · intro k m r
        rw [put_phase]; split
        · simp
        · exact h.noWant k m r
      · intro k m r
        rw [put_phase]; split
        · rename_i hk; intro _; rw [hk]; exact hlock
        · exact h.holder k m r
      · intro k m
        rw [put_phase]; split
        · intro e; cases e
        · exact h.over k m
      · intro k m r
        rw [put_phase]; split
        · rename_i hk; intro _; right; rw [hk]
          exact ⟨_, List.getLast?_concat ..⟩
        · rename_i hk
          intro e
          have := h.holder k m r e
          rw [hlock] at this
          cases this
          exact absurd rfl hk
    · cases hs
  | busy i => cases hb
  | busyTimeout i =>
    simp only [step] at hs
    split at hs
    · rename_i m b rest hp
      cases hs
      exact alone_sendStep h hp (alone_other h i _ none (by simp) (by simp) (by simp) (.inr (h.holder i _ _ hp)))
    · cases hs
  | sendFailed i =>
    simp only [step] at hs
    split at hs
    · rename_i m b rest hp
      cases hs
      exact alone_sendStep h hp (alone_other h i _ none (by simp) (by simp) (by simp) (.inr (h.holder i _ _ hp)))
    · cases hs
  | finish i =>
    simp only [step] at hs
    split at hs
    · rename_i m hp
      cases hs
      exact alone_other h i _ none (by simp) (by simp) (by simp) (.inr (h.holder i _ _ hp))
    · cases hs

theorem alone {evs : List Ev} {s : St} (h : Reach evs s) (hb : ∀ e ∈ evs, e.isBusy = false) : Alone s := by
  induction h with
  | start =>
    refine ⟨?_, ?_, ?_, ?_, ?_⟩
    · intro i j k x y z _ _ hx; simp [init] at hx
    · intro i m r e; cases e
    · intro i m r e; cases e
    · intro i m e; cases e
    · intro i m r e; cases e
  | next hr hs ih =>
    exact alone_step (callsOk hr) (ih fun e he => hb e (List.mem_append_left _ he)) (hb _ (List.mem_append_right _ (List.mem_singleton.2 rfl))) hs

end Verif.CmdChannel
