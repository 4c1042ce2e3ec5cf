import Verif.Mctp.Assembly
import Verif.Mctp.Race
import Verif.Checksum.Props
/-! C18-C21, C56: MCTP packets and messages. -/
namespace Verif.Mctp
open Res

/-! ### C18: packets -/

/-- C18: a packet built from header fields that fit and 1 to 247 payload bytes is parsed by the receiver as exactly those fields and that
payload, also if the packet overlaps the payload in memory. -/
theorem packet_roundtrip (mem : Bytes) (inPos len outPos outLen : Nat) (h : Hdr) (a : UInt8) (r : h.InRange) (h0 : 0 < len)
    (h1 : len ≤ 247) (hs : len + 8 ≤ outLen) (hin : inPos + len ≤ mem.length) (hout : outPos + outLen ≤ mem.length) :
    ∃ mem', construct mem inPos len outPos outLen h a = .ok (len + 8, mem') ∧ mem'.length = mem.length ∧
      mem'.take outPos = mem.take outPos ∧ mem'.drop (outPos + len + 8) = mem.drop (outPos + len + 8) ∧
      ∃ t, interpret ((mem'.drop outPos).take (len + 8)) a = .ok { hdr := h, msgType := t, payload := (mem.drop inPos).take len } := by
  have hpl : ((mem.drop inPos).take len).length = len := by simp; omega
  have hpk := packet_length h ((mem.drop inPos).take len) a
  rw [hpl] at hpk
  have ht : (mem.take outPos).length = outPos := by simp; omega
  refine ⟨_, by rw [construct_ok mem inPos len outPos outLen h a h0 h1 (by simp only [overhead]; omega) hin hout, overhead,
    Nat.add_comm len 8], ?_, ?_, ?_, ?_⟩
  · simp [hpk]; omega
  · rw [List.append_assoc, List.take_left' ht]
  · rw [List.drop_append, List.drop_of_length_le (by simp [hpk]; omega), List.nil_append, List.drop_drop]
    congr 1
    simp [hpk]; omega
  · refine ⟨if h.som then (((mem.drop inPos).take len).headD 0).toNat % 128 else 0, ?_⟩
    rw [List.append_assoc, List.drop_left' ht, List.take_left' (by omega)]
    exact interpret_packet h r _ (List.ne_nil_of_length_pos (by omega)) (by rw [hpl]; exact h1) a

example : ({ srcAddr := 0x41, dstEid := 0xb, srcEid := 0xa, som := true, eom := true, seq := 0, tag := 3, owner := 1 } : Hdr).InRange :=
  ⟨by decide, by decide, by decide, by decide, by decide⟩

/-- C18: nothing is written unless the payload has 1 to 247 bytes and the packet fits. -/
theorem construct_rejects (mem : Bytes) (inPos len outPos outLen : Nat) (h : Hdr) (a : UInt8)
    (hc : len = 0 ∨ 247 < len ∨ outLen < len + 8) : ∃ e, construct mem inPos len outPos outLen h a = .err e := by
  by_cases h0 : len = 0 ∨ 247 < len
  · exact ⟨_, construct_err _ _ _ _ _ _ _ h0⟩
  · exact ⟨_, construct_small _ _ _ _ _ _ _ (by omega) (by simp only [maxUnit]; omega) (by simp only [overhead]; omega)⟩

/-- C18: a packet with any other check byte is rejected. -/
theorem wrong_pec_rejected (h : Hdr) (r : h.InRange) (payload : Bytes) (hp : payload ≠ []) (hm : payload.length ≤ 247) (a pec : UInt8)
    (hne : packet h payload a ≠ (packet h payload a).dropLast ++ [pec]) :
    interpret ((packet h payload a).dropLast ++ [pec]) a = .err .badChecksum := by
  have hd : (packet h payload a).dropLast = packetBody h payload := by unfold packet; simp
  rw [hd] at hne ⊢
  rw [interpret_body h r payload hp hm, if_pos]
  intro e
  apply hne
  rw [← e]; rfl

example : packet { srcAddr := 0x41, dstEid := 0xb, srcEid := 0xa, som := true, eom := true, seq := 0, tag := 3, owner := 1 } [0x7e, 1] 0x20 ≠
    (packet { srcAddr := 0x41, dstEid := 0xb, srcEid := 0xa, som := true, eom := true, seq := 0, tag := 3, owner := 1 } [0x7e, 1]
      0x20).dropLast ++ [0] := by decide +kernel

/-- C18: a packet whose payload was damaged within eight consecutive bits is rejected. -/
theorem payload_burst_rejected (h : Hdr) (r : h.InRange) (payload bad : Bytes) (a : UInt8) (hp : payload ≠ [])
    (hm : payload.length ≤ 247) (hl : bad.length = payload.length) (pre b b' post : List Bool)
    (h1 : Checksum.bits payload = pre ++ b ++ post) (h2 : Checksum.bits bad = pre ++ b' ++ post) (hb : b.length = b'.length)
    (h8 : b.length ≤ 8) (hne : b ≠ b') :
    interpret (hdrBytes h payload.length ++ bad ++ [(packet h payload a).getLastD 0]) a = .err .badChecksum := by
  have hbody : hdrBytes h payload.length ++ bad = packetBody h bad := by rw [packetBody, hl]
  have hlast : (packet h payload a).getLastD 0 = Checksum.crc8 (a <<< 1) (packetBody h payload) (packetBody h payload).length := by
    unfold packet; simp
  rw [hbody, hlast, interpret_body h r bad (by intro c; rw [c] at hl; exact hp (List.eq_nil_of_length_eq_zero hl.symm))
    (by rw [hl]; exact hm), if_pos]
  rw [crc8_body h payload _ hm, crc8_body h bad _ (by rw [hl]; exact hm)]
  refine Checksum.crc_detects_burst _ _ _ _ (Checksum.bits ((a <<< 1) :: hdrBytes h payload.length) ++ pre) b' b post ?_ ?_ hb.symm
    (by omega) (Ne.symm hne)
  · rw [packetBody, ← List.cons_append, Checksum.bits_append, h2, hl]; simp
  · rw [packetBody, ← List.cons_append, Checksum.bits_append, h1]; simp

example : Checksum.bits [0x7e, 0x01] = (Checksum.bits [0x7e]) ++ [false, false, false, false, false, false, false, true] ++ [] ∧
    Checksum.bits [0x7e, 0x81] = (Checksum.bits [0x7e]) ++ [true, false, false, false, false, false, false, true] ++ [] := by decide +kernel

/-- C18: parsing never reads outside the received packet. -/
theorem interpret_in_bounds (buf : Bytes) (a : UInt8) : interpret buf a ≠ .oob := (interpret_safe buf a).ne_oob

/-! ### C19: splitting and reassembling messages -/

/-- The number of packets of a message. -/
def packetCount (mtu n : Nat) : Nat := (n + mtu - 1) / mtu

theorem packetCount_le (mtu n k : Nat) (h0 : 0 < mtu) (h : n ≤ k * mtu) : packetCount mtu n ≤ k := by
  unfold packetCount
  have : n + mtu - 1 < (k + 1) * mtu := by rw [Nat.succ_mul]; omega
  have := (Nat.div_lt_iff_lt_mul h0).mpr this
  omega

theorem le_packetCount_mul (mtu n : Nat) (h0 : 0 < mtu) : n ≤ packetCount mtu n * mtu := by
  unfold packetCount
  have h1 := Nat.div_add_mod (n + mtu - 1) mtu
  have h2 := Nat.mod_lt (n + mtu - 1) h0
  rw [Nat.mul_comm] at h1
  omega

theorem packetCount_step (mtu n : Nat) (h0 : 0 < mtu) (hn : 0 < n) : packetCount mtu n = packetCount mtu (n - mtu) + 1 := by
  unfold packetCount
  by_cases h : n ≤ mtu
  · have e1 : (n - mtu + mtu - 1) / mtu = 0 := Nat.div_eq_of_lt (by omega)
    have e2 : n + mtu - 1 = (n - 1) + mtu := by omega
    rw [e1, e2, Nat.add_div_right _ h0, Nat.div_eq_of_lt (by omega)]
  · have e : n + mtu - 1 = (n - mtu + mtu - 1) + mtu := by omega
    rw [e, Nat.add_div_right _ h0]

theorem fragment_length (mtu : Nat) (a : UInt8) (h0 : 0 < mtu) : ∀ (k : Nat) (h : Hdr) (msg : Bytes), msg.length ≤ k →
    (fragment mtu h a msg).length = packetCount mtu msg.length ∧
      (fragment mtu h a msg).flatten.length = msg.length + 8 * packetCount mtu msg.length := by
  intro k
  induction k with
  | zero =>
    intro h msg hk
    rw [List.eq_nil_of_length_eq_zero (Nat.le_zero.mp hk), fragment_nil]
    have : packetCount mtu 0 = 0 := Nat.div_eq_of_lt (by omega)
    simp [this]
  | succ k ih =>
    intro h msg hk
    by_cases hm : msg = []
    · subst hm
      have : packetCount mtu 0 = 0 := Nat.div_eq_of_lt (by omega)
      rw [fragment_nil]; simp [this]
    · have hpos : 0 < msg.length := List.length_pos_iff.mpr hm
      have hd : (msg.drop mtu).length = msg.length - mtu := by simp
      obtain ⟨i1, i2⟩ := ih { h with som := false, seq := (h.seq + 1) % 4 } (msg.drop mtu) (by omega)
      rw [hd] at i1 i2
      rw [fragment_cons mtu h a msg hm h0, packetCount_step mtu msg.length h0 hpos]
      refine ⟨by rw [List.length_cons, i1], ?_⟩
      rw [List.flatten_cons, List.length_append, i2, packet_length, List.length_take]
      omega

/-- The header of the first packet of a message. -/
def firstHdr (dstEid srcEid srcAddr : UInt8) (tag owner : Nat) : Hdr :=
  { srcAddr, dstEid, srcEid, som := true, eom := false, seq := 0, tag, owner }

/-- C19: the packets of a message are written one after the other, if the message is far enough behind the start of the packets in memory
and all packets fit. The second result is the size of the first packet. -/
theorem packets_of_message (mtu : Nat) (mem : Bytes) (pos n out cap : Nat) (dstEid dstAddr srcEid srcAddr : UInt8) (tag owner : Nat)
    (h0 : 0 < mtu) (h1 : mtu ≤ 247) (hn : 0 < n) (hcap : out + cap ≤ mem.length) (hpos : pos + n ≤ mem.length)
    (hgap : out + 8 * (packetCount mtu n - 1) ≤ pos) (hfit : n + 8 * packetCount mtu n ≤ cap) :
    ∃ mem', genPackets mtu mem pos n out cap dstEid dstAddr srcEid srcAddr tag owner =
        .ok (n + 8 * packetCount mtu n, 8 + min n mtu, mem') ∧
      mem'.take out = mem.take out ∧ mem'.drop (out + (n + 8 * packetCount mtu n)) = mem.drop (out + (n + 8 * packetCount mtu n)) ∧
      (mem'.drop out).take (n + 8 * packetCount mtu n) =
        (fragment mtu (firstHdr dstEid srcEid srcAddr tag owner) dstAddr ((mem.drop pos).take n)).flatten := by
  have hml : ((mem.drop pos).take n).length = n := by simp; omega
  have hfl := fragment_length mtu dstAddr h0 n (firstHdr dstEid srcEid srcAddr tag owner) ((mem.drop pos).take n) (by omega)
  rw [hml] at hfl
  have hpc := packetCount_step mtu n h0 hn
  have := genLoop_ok mtu dstAddr out cap h0 h1 (packetCount mtu n) (firstHdr dstEid srcEid srcAddr tag owner) mem pos n 0 0
    (le_packetCount_mul mtu n h0) hcap hpos (by omega) (by omega)
  rw [hfl.2] at this
  have ht : (mem.take out).length = out := by simp; omega
  have hg : genPackets mtu mem pos n out cap dstEid dstAddr srcEid srcAddr tag owner =
      .ok (n + 8 * packetCount mtu n, 8 + min n mtu, mem.take out ++
        (fragment mtu (firstHdr dstEid srcEid srcAddr tag owner) dstAddr ((mem.drop pos).take n)).flatten ++
          mem.drop (out + (n + 8 * packetCount mtu n))) := by
    rw [genPackets, ← firstHdr, this, if_pos ⟨rfl, hn⟩, Nat.zero_add, Nat.add_zero]
  refine ⟨_, hg, ?_, ?_, ?_⟩
  · rw [List.append_assoc, List.take_left' ht]
  · rw [List.drop_left' (by rw [List.length_append, ht, hfl.2])]
  · rw [List.append_assoc, List.drop_left' ht, List.take_left' hfl.2]

/-- How `cmd_channel_send_message` splits the buffer of packets, cmd_channel.c:160-220: pieces of the size of the first packet. -/
def split (k : Nat) (l : Bytes) : List Bytes :=
  if h : l = [] ∨ k = 0 then [] else l.take k :: split k (l.drop k)
termination_by l.length
decreasing_by
  have : l.length ≠ 0 := fun e => h (.inl (List.eq_nil_of_length_eq_zero e))
  simp; omega

/-- C19: splitting the buffer at the size of the first packet gives back the packets. -/
theorem split_packets (mtu : Nat) (a : UInt8) (h0 : 0 < mtu) : ∀ (k : Nat) (h : Hdr) (msg : Bytes), msg.length ≤ k →
    ∀ p, p = 8 + mtu ∨ (p = 8 + msg.length ∧ msg.length ≤ mtu) →
    split p (fragment mtu h a msg).flatten = fragment mtu h a msg := by
  intro k
  induction k with
  | zero =>
    intro h msg hk p _
    rw [List.eq_nil_of_length_eq_zero (Nat.le_zero.mp hk), fragment_nil]
    unfold split; simp
  | succ k ih =>
    intro h msg hk p hp
    by_cases hm : msg = []
    · subst hm; rw [fragment_nil]; unfold split; simp
    · have hpos : 0 < msg.length := List.length_pos_iff.mpr hm
      rw [fragment_cons mtu h a msg hm h0]
      generalize hP : packet { h with eom := decide (msg.length ≤ mtu) } (msg.take mtu) a = P
      have hPl : P.length = 8 + min mtu msg.length := by rw [← hP, packet_length]; simp
      rw [split, dif_neg (by intro c; rcases c with c | c
                             · have := congrArg List.length c; simp [hPl] at this
                             · omega), List.flatten_cons]
      by_cases hl : msg.length ≤ mtu
      · rw [List.drop_of_length_le hl, fragment_nil]
        simp only [List.flatten_nil, List.append_nil]
        rw [List.take_of_length_le (by omega), List.drop_of_length_le (by omega)]
        congr 1
        unfold split; simp
      · have hpe : p = P.length := by omega
        rw [List.take_left' hpe.symm, List.drop_left' hpe.symm, ih _ _ (by simp; omega) p (.inl (by omega))]

/-- C19: a request of 1 to 4096 bytes, split into packets of any allowed size, is delivered by the receiver exactly once, at the last
packet, with the same content, sender and tag, whatever state the receiver was in before. -/
theorem request_delivered (env : Env) (s : St) (mtu : Nat) (msg : Bytes) (dstEid dstAddr srcEid srcAddr : UInt8) (tag : Nat)
    (h0 : 0 < mtu) (h1 : mtu ≤ 247) (hm : 0 < msg.length) (hsz : msg.length ≤ 4096) (ht : tag < 8) (ha : srcAddr.toNat < 128)
    (he : dstEid ≠ srcEid) (hd : dstEid = env.selfEid ∨ dstEid = 0) (hsup : env.supported ((msg.headD 0).toNat % 128) = true) :
    ∃ s' es, run env s ((fragment mtu (firstHdr dstEid srcEid srcAddr tag 1) dstAddr msg).map (.rx · dstAddr)) =
        .ok (s', es ++ [.request { srcEid, srcAddr, dstEid, tag, data := msg }]) ∧ (∀ e ∈ es, e = .accepted) ∧
      s'.startLen = 0 ∧ s'.rsp = s.rsp := by
  obtain ⟨q, es, h, hes⟩ := deliver env dstAddr mtu h0 h1 msg s (firstHdr dstEid srcEid srcAddr tag 1)
    { started s (firstHdr dstEid srcEid srcAddr tag 1) (min mtu msg.length) ((msg.headD 0).toNat % 128) with data := msg }.reset
    (.request { srcEid, srcAddr, dstEid, tag, data := msg }) (List.ne_nil_of_length_pos hm) hsz
    ⟨ha, ht, by simp [firstHdr], by simp [firstHdr], he⟩ rfl hd (.inl ⟨by simp [firstHdr], hsup⟩) (by intro q; rfl)
  exact ⟨_, es, h, hes, rfl, rfl⟩

/-- C19: likewise a response to the request a requester waits for, if it fits the response buffer. -/
theorem response_delivered (env : Env) (s : St) (mtu : Nat) (msg : Bytes) (dstEid dstAddr srcEid srcAddr : UInt8) (m : Nat)
    (h0 : 0 < mtu) (h1 : mtu ≤ 247) (hm : 0 < msg.length) (hsz : msg.length ≤ 4096) (ht : s.rspTag < 8) (ha : srcAddr.toNat < 128)
    (he : dstEid ≠ srcEid) (hd : dstEid = env.selfEid ∨ dstEid = 0) (hw : s.rsp = .waiting) (hx : s.rspMax = some m)
    (hfit : msg.length ≤ m) (hty : (msg.headD 0).toNat % 128 = s.rspType) :
    ∃ s' es, run env s ((fragment mtu (firstHdr dstEid srcEid srcAddr s.rspTag 0) dstAddr msg).map (.rx · dstAddr)) =
        .ok (s', es ++ [.response msg]) ∧ (∀ e ∈ es, e = .accepted) ∧ s'.rsp = .success := by
  obtain ⟨q, es, h, hes⟩ := deliver env dstAddr mtu h0 h1 msg s (firstHdr dstEid srcEid srcAddr s.rspTag 0)
    { started s (firstHdr dstEid srcEid srcAddr s.rspTag 0) (min mtu msg.length) ((msg.headD 0).toNat % 128) with
      data := msg, rsp := .success }.reset
    (.response msg) (List.ne_nil_of_length_pos hm) hsz
    ⟨ha, ht, by simp [firstHdr], by simp [firstHdr], he⟩ rfl hd (.inr ⟨rfl, hw, rfl, hty⟩)
    (by
      intro q
      unfold complete
      rw [if_pos (by rfl), handleResponse, if_neg (by simp [started, hw])]
      simp only [started, hx]
      rw [if_pos hfit]
      rfl)
  exact ⟨_, es, h, hes, rfl⟩

example : ∃ (env : Env) (msg : Bytes), msg.length = 200 ∧ env.supported ((msg.headD 0).toNat % 128) = true ∧
    (fragment 64 (firstHdr 0xb 0xa 0x41 3 1) 0x20 msg).length = 4 :=
  ⟨⟨0xb, fun t => t == 0x7e⟩, 0x7e :: List.replicate 199 1, by rw [List.length_cons, List.length_replicate], rfl,
    by rw [(fragment_length 64 0x20 (by omega) 200 _ _ (by rw [List.length_cons, List.length_replicate])).1, List.length_cons,
        List.length_replicate]; rfl⟩

/-! ### C20: arbitrary packets -/

/-- C20: whatever packets arrive, and whenever requests are sent and given up, nothing is accessed out of bounds, and whatever is delivered
is one complete message. -/
theorem only_complete_messages (env : Env) (s : St) (hs : s.startLen = 0) (hr : s.rsp = .idle) (ops : List Op) :
    ∃ s' es, run env s ops = .ok (s', es) ∧ es.length = ops.length ∧
      ∀ i (h : i < es.length), Delivered env (ops.take (i + 1)) es[i] := by
  have := run_inv env ops [] s ⟨.inl hs, by rw [hr]; simp⟩
  simpa using this

/-- The initial state. -/
example : ({} : St).startLen = 0 ∧ ({} : St).rsp = .idle := ⟨rfl, rfl⟩

/-- C20: a delivered request never exceeds the message buffer. -/
theorem request_size (env : Env) (hist : List Op) (r : Req) (h : Delivered env hist (.request r)) : r.data.length ≤ 4096 := by
  obtain ⟨f, rest, _, hm, hd, _⟩ := h
  rw [hd]; exact hm.size

/-- C20: a response is only written to the requester's buffer if it fits. -/
theorem response_fits (env : Env) (s s' : St) (buf d : Bytes) (a : UInt8) (h : processPacket env s buf a = .ok (s', .response d)) :
    ∃ m, s.rspMax = some m ∧ d.length ≤ m := by
  unfold processPacket at h
  cases hi : interpret buf a with
  | oob => rw [hi] at h; cases h
  | err e => rw [hi] at h; cases h
  | ok p =>
    rw [hi] at h
    simp only at h
    have hsafe := interpret_safe buf a
    rw [hi, safe_ok] at hsafe
    cases ha : accept env s p with
    | inl r =>
      rw [ha] at h
      simp only [pure_eq, ok.injEq] at h
      have hne : r.2 ≠ .response d := by
        intro hc
        unfold accept at ha
        repeat' split at ha
        all_goals first
          | (cases ha; cases hc)
          | cases ha
      rw [h] at hne
      exact absurd rfl hne
    | inr s1 =>
      rw [ha] at h
      simp only at h
      have hmax : s1.rspMax = s.rspMax := by
        unfold accept at ha
        repeat' split at ha
        all_goals cases ha
        all_goals rfl
      split at h
      · cases h
      · rename_i hsz
        rw [addPayload, if_pos (by omega), ok_bind] at h
        split at h
        · split at h
          · unfold handleResponse at h
            split at h
            · cases h
            · split at h
              · cases h
              · rename_i m hm
                simp only at hm
                split at h
                · rename_i hle
                  cases h
                  exact ⟨m, by rw [← hmax, hm], hle⟩
                · cases h
          · cases h
        · cases h

/-- C20: a packet that belongs to a response is only used while a requester has sent a request and not given up, if it carries the tag
of that request and, in a first packet, the expected message type. Any other is ignored and changes nothing. -/
theorem response_expected (env : Env) (s : St) (buf : Bytes) (a : UInt8) (p : Pkt) (hp : interpret buf a = .ok p)
    (ho : p.hdr.owner = 0)
    (hx : ¬ ((s.rsp = .waiting ∨ s.rsp = .pending) ∧ p.hdr.tag = s.rspTag ∧ (p.hdr.som = true → p.msgType = s.rspType))) :
    processPacket env s buf a = .ok (s, .ignored) := by
  have he : isExpectedResponse s p.hdr.tag p.hdr.som p.msgType = false := by
    unfold isExpectedResponse
    split; · rfl
    split; · rfl
    split; · rfl
    rename_i h1 h2 h3
    refine absurd ⟨?_, by simpa using h2, ?_⟩ hx
    · cases hr : s.rsp <;> simp_all
    · intro hs; simpa [hs] using h3
  have ha : accept env s p = .inl (s, .ignored) := by
    unfold accept
    split; · rfl
    rw [if_pos ⟨ho, he⟩]
  unfold processPacket
  rw [hp]
  simp only [ha]
  rfl

theorem processPacket_response (env : Env) (s s' : St) (buf d : Bytes) (a : UInt8)
    (h : processPacket env s buf a = .ok (s', .response d)) :
    ∃ p s1, interpret buf a = .ok p ∧ accept env s p = .inr s1 ∧ p.hdr.owner = 0 ∧ s1.rsp ≠ .pending := by
  unfold processPacket at h
  cases hi : interpret buf a with
  | oob => rw [hi] at h; cases h
  | err e => rw [hi] at h; cases h
  | ok p =>
    rw [hi] at h
    simp only at h
    cases ha : accept env s p with
    | inl r =>
      rw [ha] at h
      simp only [pure_eq, ok.injEq] at h
      have hne : r.2 ≠ .response d := by
        intro hc
        unfold accept at ha
        repeat' split at ha
        all_goals first
          | (cases ha; cases hc)
          | cases ha
      rw [h] at hne
      exact absurd rfl hne
    | inr s1 =>
      rw [ha] at h
      simp only at h
      refine ⟨p, s1, rfl, ha, ?_⟩
      split at h
      · cases h
      · rename_i hsz
        rw [addPayload, if_pos (by omega), ok_bind] at h
        split at h
        · split at h
          · rename_i ho
            refine ⟨ho, ?_⟩
            unfold handleResponse at h
            split at h
            · cases h
            · rename_i hp; exact hp
          · cases h
        · cases h

/-- C20: a complete response goes to the requester only if the requester is waiting for it. -/
theorem response_only_when_waiting (env : Env) (s s' : St) (buf d : Bytes) (a : UInt8)
    (h : processPacket env s buf a = .ok (s', .response d)) :
    s.rsp = .waiting ∧ ∃ p, interpret buf a = .ok p ∧ p.hdr.owner = 0 ∧ p.hdr.tag = s.rspTag := by
  obtain ⟨p, s1, hi, ha, ho, hr⟩ := processPacket_response env s s' buf d a h
  have hk : s1.rsp = s.rsp := by
    unfold accept at ha
    repeat' split at ha
    all_goals cases ha
    all_goals rfl
  by_cases hx : (s.rsp = .waiting ∨ s.rsp = .pending) ∧ p.hdr.tag = s.rspTag ∧ (p.hdr.som = true → p.msgType = s.rspType)
  · refine ⟨?_, p, hi, ho, hx.2.1⟩
    rcases hx.1 with hw | hp
    · exact hw
    · rw [hk] at hr; exact absurd hp hr
  · rw [response_expected env s buf a p hi ho hx] at h
    cases h

example : (match interpret (packet { firstHdr 8 9 0x20 3 0 with eom := true } [0x7e, 1, 2] 0x41) 0x41 with
      | .ok p => (p.hdr.owner, p.hdr.tag) | _ => (9, 9)) = (0, 3) ∧
    (match processPacket ⟨8, fun _ => true⟩ { rsp := .waiting, rspTag := 3, rspType := 0x7e, rspMax := some 10 }
        (packet { firstHdr 8 9 0x20 3 0 with eom := true } [0x7e, 1, 2] 0x41) 0x41 with | .ok r => r.2 | _ => .ignored) =
      .response [0x7e, 1, 2] ∧
    (match processPacket ⟨8, fun _ => true⟩ { rsp := .waiting, rspTag := 4, rspType := 0x7e, rspMax := some 10 }
        (packet { firstHdr 8 9 0x20 3 0 with eom := true } [0x7e, 1, 2] 0x41) 0x41 with | .ok r => r.2 | _ => .dropped) = .ignored := by
  decide +kernel

/-! ### C56: packets of a response, made in place -/

/-- C56, for packet sizes of at least 64: a response of up to 4096 bytes left in the request buffer is split into packets of the same message
buffer without loss. -/
theorem response_in_place_partial (mtu : Nat) (req : Req) (rxDstAddr : UInt8) (junk rsp rest : Bytes) (h0 : 64 ≤ mtu) (h1 : mtu ≤ 247)
    (hj : junk.length = 512) (hr : 0 < rsp.length) (hl : rsp.length + rest.length = 4096) :
    ∃ n mem', respond mtu req rxDstAddr junk rsp rest = .ok (n, 8 + min rsp.length mtu, mem') ∧
      mem'.take n = (fragment mtu (firstHdr req.srcEid req.dstEid rxDstAddr req.tag 0) req.srcAddr rsp).flatten := by
  have hpc : packetCount mtu rsp.length ≤ 64 := packetCount_le mtu _ 64 (by omega) (by
    have := Nat.mul_le_mul_left 64 h0; omega)
  have hpl : packetCount mtu rsp.length * 64 ≤ 4096 := by omega
  have hmem : (junk ++ rsp ++ rest).length = 4608 := by simp only [List.length_append]; omega
  obtain ⟨mem', h, _, _, hf⟩ := packets_of_message mtu (junk ++ rsp ++ rest) 512 rsp.length 0 4608 req.srcEid req.srcAddr req.dstEid
    rxDstAddr req.tag 0 (by omega) h1 hr (by omega) (by omega) (by omega) (by omega)
  refine ⟨_, mem', h, ?_⟩
  rw [List.drop_zero] at hf
  rw [hf, List.append_assoc, List.drop_left' hj, List.take_left' rfl]

example : ∃ junk rsp rest : Bytes, junk.length = 512 ∧ 0 < rsp.length ∧ rsp.length + rest.length = 4096 :=
  ⟨List.replicate 512 0, List.replicate 4000 1, List.replicate 96 0,
    by rw [List.length_replicate], by rw [List.length_replicate]; omega, by rw [List.length_replicate, List.length_replicate]⟩

/-- C56 for 64 bytes or more covers the packet size chosen for every device that reported none or at least 64. -/
theorem usual_transmission_unit (remote : Nat) (h : remote = 0 ∨ 64 ≤ remote) :
    64 ≤ maxTransmissionUnit 247 remote ∧ maxTransmissionUnit 247 remote ≤ 247 := by
  unfold maxTransmissionUnit; split <;> omega

theorem getElem?_packet (h : Hdr) (b : UInt8) (a : UInt8) : (packet h [b] a)[7]? = some b := by
  unfold packet packetBody hdrBytes; rfl

theorem getElem?_packet_one (h : Hdr) (b : UInt8) (a : UInt8) : (packet h [b] a)[1]? = some 6 := by
  unfold packet packetBody hdrBytes; rfl

/-- C56 fails for a device that reported a packet size of 1: any response of 66 bytes whose last byte is not 6 is sent corrupted, because
the packets overtake the message they are made from. -/
theorem response_in_place_corrupts (req : Req) (rxDstAddr : UInt8) (junk rsp rest : Bytes)
    (hj : junk.length = 512) (hr : rsp.length = 66) (hl : rest.length = 4030) (h6 : rsp[65]? ≠ some 6) :
    ∃ n l mem', respond (maxTransmissionUnit 247 1) req rxDstAddr junk rsp rest = .ok (n, l, mem') ∧
      mem'.take n ≠ (fragment (maxTransmissionUnit 247 1) (firstHdr req.srcEid req.dstEid rxDstAddr req.tag 0) req.srcAddr rsp).flatten := by
  have hmtu : maxTransmissionUnit 247 1 = 1 := rfl
  rw [hmtu]
  obtain ⟨mem, hmem⟩ : ∃ m, m = junk ++ rsp ++ rest := ⟨_, rfl⟩
  have hml : mem.length = 4608 := by rw [hmem]; simp only [List.length_append]; omega
  unfold respond genPackets
  rw [← hmem, hr]
  obtain ⟨F, q, l, som, hF, h⟩ := genLoop_prefix 1 req.srcAddr 0 4608 (by omega) (by simp only [maxUnit]; omega) 64
    (firstHdr req.srcEid req.dstEid rxDstAddr req.tag 0) mem 512 2 0 0 (by omega) (by omega) (by omega) (by omega) (by omega)
  simp only [firstHdr, maxMessageLen, maxBody, Nat.reduceSub, Nat.reduceMul, Nat.reduceAdd, Nat.zero_add, Nat.add_zero, List.take_zero,
    List.nil_append] at h hF ⊢
  rw [h]
  obtain ⟨m1, hm1⟩ : ∃ m, m = F ++ mem.drop 576 := ⟨_, rfl⟩
  have hm1l : m1.length = 4608 := by rw [hm1, List.length_append, List.length_drop]; omega
  rw [← hm1, genLoop, dif_neg (by omega)]
  simp only [Nat.reduceGT, Nat.reduceSub, if_true, Nat.zero_add]
  rw [construct_ok _ _ _ _ _ _ _ (by omega) (by simp only [maxUnit]; omega) (by simp only [overhead]; omega) (by omega) (by omega)]
  simp only [overhead, Nat.reduceAdd]
  rw [dif_neg (by omega)]
  generalize hP : packet _ ((m1.drop 576).take 1) req.srcAddr = P
  have hp1 : ((m1.drop 576).take 1) = [m1[576]] := by
    rw [List.drop_eq_getElem_cons (by omega)]; rfl
  rw [hp1] at hP
  have hPl : P.length = 9 := by rw [← hP, packet_length]; rfl
  obtain ⟨m2, hm2⟩ : ∃ m, m = m1.take 576 ++ P ++ m1.drop 585 := ⟨_, rfl⟩
  have ht1 : (m1.take 576).length = 576 := by rw [List.length_take]; omega
  have hm2l : m2.length = 4608 := by
    rw [hm2, List.length_append, List.length_append, ht1, hPl, List.length_drop]; omega
  rw [← hm2, genLoop, dif_neg (by omega)]
  simp only [Nat.reduceGT, Nat.reduceSub, if_false, Nat.zero_add]
  rw [construct_ok _ _ _ _ _ _ _ (by omega) (by simp only [maxUnit]; omega) (by simp only [overhead]; omega) (by omega) (by omega)]
  simp only [overhead, Nat.reduceAdd]
  rw [dif_neg (by omega), genLoop, dif_pos rfl]
  refine ⟨_, _, _, rfl, ?_⟩
  have h577 : m2[577]? = some 6 := by
    rw [hm2, List.append_assoc, List.getElem?_append_right (by omega), ht1, List.getElem?_append_left (by omega), ← hP]
    exact getElem?_packet_one _ _ _
  have hp2 : ((m2.drop 577).take 1) = [6] := by
    rw [List.drop_eq_getElem_cons (by omega), List.take_succ_cons, List.take_zero]
    rw [List.getElem?_eq_getElem (by omega)] at h577
    rw [Option.some.inj h577]
  rw [hp2]
  intro heq
  obtain ⟨F', q', som', hF', h'⟩ := fragment_prefix 1 req.srcAddr (by omega) 65 (firstHdr req.srcEid req.dstEid rxDstAddr req.tag 0) rsp
    (by omega)
  simp only [firstHdr, Nat.reduceMul, Nat.reduceAdd] at h' hF'
  rw [h'] at heq
  have hd : rsp.drop 65 = [rsp[65]] := by
    rw [List.drop_eq_getElem_cons (by omega), List.drop_of_length_le (by omega)]
  rw [hd, fragment_cons _ _ _ _ (by simp) (by omega), List.drop_of_length_le (l := [rsp[65]]) (Nat.le_refl 1), fragment_nil] at heq
  have := congrArg (fun l : Bytes => l[592]?) heq
  simp only [List.flatten_cons, List.flatten_nil, List.append_nil] at this
  rw [List.getElem?_take, if_pos (by omega), List.append_assoc, List.getElem?_append_right (by rw [List.length_take]; omega),
    List.getElem?_append_left (by rw [List.length_take, packet_length]; simp only [List.length_singleton]; omega),
    List.length_take, hm2l, List.getElem?_append_right (by omega), hF', List.take_of_length_le (by simp)] at this
  simp only [Nat.reduceLeDiff, Nat.min_eq_left, Nat.reduceSub] at this
  rw [getElem?_packet, getElem?_packet] at this
  rw [List.getElem?_eq_getElem (by omega)] at h6
  exact h6 (by rw [this])

example : ∃ junk rsp rest : Bytes, junk.length = 512 ∧ rsp.length = 66 ∧ rest.length = 4030 ∧ rsp[65]? ≠ some 6 :=
  ⟨List.replicate 512 0, List.replicate 66 1, List.replicate 4030 0, by rw [List.length_replicate], by rw [List.length_replicate],
    by rw [List.length_replicate], by decide⟩

/-! ### C21: a late response -/
namespace Race

/-- C21 fails: if a response is checked before and handled after the requester gives up, the released response buffer is used. -/
theorem late_response_faults : ∃ s, Reach Step s ∧ s.fault = true := by
  have h0 : Reach Step {} := .init
  have h1 := Reach.step _ _ h0 (.send _ true rfl)
  have h2 := Reach.step _ _ h1 (.check _ 0 rfl)
  have h3 := Reach.step _ _ h2 (.wake _ rfl)
  have h4 := Reach.step _ _ h3 (.release _ rfl)
  have h5 := Reach.step _ _ h4 (.handle _ 0 rfl)
  exact ⟨_, h5, rfl⟩

/-- C21 fails also in that the late response can be given to the next request. -/
theorem late_response_misdelivered : ∃ s, Reach Step s ∧ s.fault = false ∧ (0, 1) ∈ s.delivered := by
  have h0 : Reach Step {} := .init
  have h1 := Reach.step _ _ h0 (.send _ true rfl)
  have h2 := Reach.step _ _ h1 (.check _ 0 rfl)
  have h3 := Reach.step _ _ h2 (.wake _ rfl)
  have h4 := Reach.step _ _ h3 (.release _ rfl)
  have h5 := Reach.step _ _ h4 (.send _ true rfl)
  have h6 := Reach.step _ _ h5 (.handle _ 0 rfl)
  exact ⟨_, h6, rfl, by simp [handle, send, release, wake, check]⟩

structure Inv (s : S) : Prop where
  good : Good s
  wait : s.rsp = .waiting → s.msg = some s.tag ∧ s.req = .waiting
  rcv : ∀ t, s.rcv = some t → (s.rsp = .waiting ∨ s.rsp = .pending) ∧ t = s.tag

/-- C21, if the requester makes no step between the check and the handling of a response: no released buffer is used, and every response
goes to the request it answers. -/
theorem late_response_partial (s : S) (h : Reach Step' s) : Good s := by
  suffices hi : Inv s from hi.good
  induction h with
  | init => exact ⟨⟨rfl, by simp⟩, by simp, by simp⟩
  | step s s' _ hs i =>
    obtain ⟨hg, hw, hr⟩ := i
    cases hs with
    | send wait hq hn =>
      refine ⟨hg, ?_, ?_⟩
      · cases wait <;> simp [send]
      · intro t ht; simp only [send] at ht; rw [hn] at ht; cases ht
    | wake hq hn => exact ⟨hg, by simp [wake], by intro t ht; simp only [wake] at ht; rw [hn] at ht; cases ht⟩
    | release hq hn =>
      refine ⟨hg, ?_, by intro t ht; simp only [release] at ht; rw [hn] at ht; cases ht⟩
      intro hwt
      have := (hw hwt).2
      rw [hq] at this; cases this
    | check t hn =>
      unfold check
      split
      · rename_i hc
        exact ⟨hg, hw, by intro t' ht; simp only [Option.some.injEq] at ht; subst ht; exact hc⟩
      · exact ⟨hg, hw, hr⟩
    | handle t ht =>
      obtain ⟨hst, htag⟩ := hr t ht
      unfold handle
      split
      · exact ⟨hg, by simp, by simp⟩
      · rename_i hnp
        have hwt : s.rsp = .waiting := by
          rcases hst with h | h
          · exact h
          · exact absurd h hnp
        rw [(hw hwt).1]
        refine ⟨⟨hg.1, ?_⟩, by simp, by simp⟩
        intro p hp
        rcases List.mem_cons.mp hp with rfl | hp
        · exact htag
        · exact hg.2 p hp

/-- A response delivered under the restricted steps. -/
example : ∃ s, Reach Step' s ∧ s.delivered = [(0, 0)] := by
  have h0 : Reach Step' {} := .init
  have h1 := Reach.step _ _ h0 (.send _ true rfl rfl)
  have h2 := Reach.step _ _ h1 (.check _ 0 rfl)
  have h3 := Reach.step _ _ h2 (.handle _ 0 rfl)
  exact ⟨_, h3, rfl⟩

end Race

end Verif.Mctp
