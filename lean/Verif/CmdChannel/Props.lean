import Verif.CmdChannel.Lemmas
/-! Properties C52 and C60: command channels. -/
namespace Verif.CmdChannel

/-- C52: for every sequence of transactions, and with failed receive calls anywhere between the packets, exactly the transactions that fit are
processed, in order; of the others nothing is. The channel is then ready for the next transaction. -/
theorem transactions (ts : List Transaction) (hok : ∀ t ∈ ts, t.Ok) (l : List Rx) (hl : received l = ts.flatMap Transaction.packets) :
    processed (receiveAll false l).2 = ts.flatMap Transaction.wanted ∧ (receiveAll false l).1 = false := by
  obtain ⟨h1, h2⟩ := receiveAll_received l false
  obtain ⟨h3, h4⟩ := transactions_run ts hok
  rw [h1, h2, hl]
  exact ⟨h4, h3⟩

example : let a : Packet := ⟨[1], .valid⟩; let o : Packet := ⟨[2], .overflow⟩; let r : Packet := ⟨[3], .valid⟩; let e : Packet := ⟨[4], .rxError⟩
    (∀ t ∈ [Transaction.fits a, .tooLong [o, o] r, .fits e], t.Ok) ∧
    received [.packet a, .packet o, .failed 4, .packet o, .packet r, .failed 4, .packet e] = [Transaction.fits a, .tooLong [o, o] r, .fits e].flatMap Transaction.packets ∧
    processed (receiveAll false [.packet a, .packet o, .failed 4, .packet o, .packet r, .failed 4, .packet e]).2 = [a, e] := by
  refine ⟨?_, rfl, rfl⟩
  intro t ht
  simp at ht
  rcases ht with rfl | rfl | rfl <;> simp [Transaction.Ok]

/-- C52, for streams of any form: the packet after `l` is processed exactly if it is no overflow and the packet received before it, if there is one, is
not either. -/
theorem processed_iff (l : List Rx) (p : Packet) :
    (receive (receiveAll false l).1 (.packet p)).2 = .processed p ↔ p.state ≠ .overflow ∧ ∀ q, (received l).getLast? = some q → q.state ≠ .overflow := by
  have key : (receiveAll false l).1 = true ↔ ∃ q, (received l).getLast? = some q ∧ q.state = .overflow := by
    rw [(receiveAll_received l false).1]
    generalize received l = ps
    rcases List.eq_nil_or_concat ps with rfl | ⟨ps, q, rfl⟩
    · simp [receiveAll]
    · rw [List.concat_eq_append]
      rw [List.map_append, receiveAll_append]
      simp only [List.map_cons, List.map_nil, receiveAll, receive, List.getLast?_concat]
      by_cases hq : q.state = .overflow
      · simp [hq]
      · rw [if_neg hq]
        constructor
        · intro h
          split at h
          · cases h
          · rename_i hf; simp at h; exact absurd h (by simpa using hf)
        · rintro ⟨q', h1, h2⟩
          cases h1
          exact absurd h2 hq
  unfold receive
  dsimp only
  by_cases hp : p.state = .overflow
  · simp [hp]
  · rw [if_neg hp]
    split
    · rename_i ho
      obtain ⟨q, h1, h2⟩ := key.1 ho
      constructor
      · intro h; cases h
      · intro h; exact absurd h2 (h.2 q h1)
    · rename_i ho
      refine ⟨fun _ => ⟨hp, fun q h1 h2 => ho (key.2 ⟨q, h1, h2⟩)⟩, fun _ => rfl⟩

/-- C60: whatever the interleaving of calls and whatever the bus does, a call that reports success has put its message on the wire, split into packets
in order; one whose reply came too late has sent nothing; one that failed has sent a part of its message from the beginning, in full packets. -/
theorem in_order {evs : List Ev} {s : St} (h : Reach evs s) {i : Nat} {m : Message} (hn : 0 < m.pktSize) :
    (s.phase i = .done m .success → SplitInto m.pktSize m.data (sentBy s.wire i)) ∧
    (s.phase i = .done m .expired → sentBy s.wire i = []) ∧
    (∀ st, s.phase i = .done m st → (sentBy s.wire i).flatten <+: m.data) := by
  have hi := callsOk h i
  refine ⟨?_, ?_, ?_⟩
  · intro hp
    rw [hp] at hi
    obtain ⟨⟨r, ⟨h1, h2, _, h4, h5⟩, hr⟩, _⟩ := hi
    rw [hr rfl, List.append_nil] at h1
    exact ⟨h1, fun p hp => ⟨h5 hn p hp, h2 p hp⟩, h4⟩
  · intro hp
    rw [hp] at hi
    exact hi.2 rfl
  · intro st hp
    rw [hp] at hi
    obtain ⟨⟨r, ⟨h1, _⟩, _⟩, _⟩ := hi
    exact ⟨r, h1⟩

/-- C60: no packet is longer than the packet buffer if the packet size of the message is not. -/
theorem no_overrun {evs : List Ev} {s : St} (h : Reach evs s) {i : Nat} {m : Message} (hm : m.pktSize ≤ maxPacket ∨ m.data.length ≤ maxPacket) :
    s.phase i ≠ .overrun m := by
  intro hp
  have hi := callsOk h i
  rw [hp] at hi
  obtain ⟨h1, h2, _⟩ := hi
  omega

/-- C60: as long as the driver never reports a busy bus the packets of different messages are not mixed. -/
theorem not_mixed_partial {evs : List Ev} {s : St} (h : Reach evs s) (hb : ∀ e ∈ evs, e.isBusy = false) : NotMixed s.wire :=
  (alone h hb).mixed

example : ∃ s, Reach [.call 0 ⟨[1, 2, 3], 2⟩, .call 1 ⟨[4], 2⟩, .acquire 0, .sent 0, .sent 0, .finish 0, .acquire 1, .sent 1] s ∧
    s.wire = [(0, [1, 2]), (0, [3]), (1, [4])] ∧ s.phase 0 = .done ⟨[1, 2, 3], 2⟩ .success ∧
    ∀ e ∈ [Ev.call 0 ⟨[1, 2, 3], 2⟩, .call 1 ⟨[4], 2⟩, .acquire 0, .sent 0, .sent 0, .finish 0, .acquire 1, .sent 1], e.isBusy = false := by
  refine ⟨_, .next (.next (.next (.next (.next (.next (.next (.next .start rfl) rfl) rfl) rfl) rfl) rfl) rfl) rfl, rfl, rfl, by decide⟩

/-- C60 is false in general: while a call waits for a busy bus it gives up the lock, and another message gets between its packets. -/
theorem mixed : ∃ evs s, Reach evs s ∧ ¬ NotMixed s.wire ∧ s.phase 0 = .done ⟨[1, 2, 3], 2⟩ .success ∧ s.phase 1 = .done ⟨[4], 2⟩ .success := by
  refine ⟨[.call 0 ⟨[1, 2, 3], 2⟩, .call 1 ⟨[4], 2⟩, .acquire 0, .sent 0, .busy 0, .acquire 1, .sent 1, .finish 1, .acquire 0, .sent 0, .finish 0], _,
    .next (.next (.next (.next (.next (.next (.next (.next (.next (.next (.next .start rfl) rfl) rfl) rfl) rfl) rfl) rfl) rfl) rfl) rfl) rfl, ?_, rfl, rfl⟩
  intro h
  have := h 0 1 2 (0, [1, 2]) (1, [4]) (0, [3]) (by decide) (by decide) rfl rfl rfl rfl
  cases this

end Verif.CmdChannel
