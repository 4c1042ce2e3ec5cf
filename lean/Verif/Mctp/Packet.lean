import Verif.Mctp.Model
import Verif.Checksum.Props
/-! Building and parsing single packets (C18). -/
namespace Verif.Mctp
open Res

/-- The packet without its PEC byte. -/
def packetBody (h : Hdr) (payload : Bytes) : Bytes := hdrBytes h payload.length ++ payload

/-- The packet as sent on the bus to `dstAddr`. -/
def packet (h : Hdr) (payload : Bytes) (dstAddr : UInt8) : Bytes :=
  packetBody h payload ++ [Checksum.crc8 (dstAddr <<< 1) (packetBody h payload) (packetBody h payload).length]

@[simp] theorem hdrBytes_length (h : Hdr) (n : Nat) : (hdrBytes h n).length = 7 := rfl

theorem packetBody_length (h : Hdr) (payload : Bytes) : (packetBody h payload).length = 7 + payload.length := by
  simp [packetBody]

theorem packet_length (h : Hdr) (payload : Bytes) (a : UInt8) : (packet h payload a).length = 8 + payload.length := by
  simp [packet, packetBody]; omega

theorem construct_err (mem : Bytes) (inPos len outPos outLen : Nat) (h : Hdr) (a : UInt8) (hc : len = 0 ∨ len > maxUnit) :
    construct mem inPos len outPos outLen h a = .err .badBufferLength := by
  unfold construct; rw [if_pos hc]

theorem construct_small (mem : Bytes) (inPos len outPos outLen : Nat) (h : Hdr) (a : UInt8) (hc : 0 < len) (hm : len ≤ maxUnit)
    (hs : outLen < overhead + len) :
    construct mem inPos len outPos outLen h a = .err .bufTooSmall := by
  unfold construct; rw [if_neg (by omega), if_pos hs]

/-- What `construct` writes, also if the packet overlaps the payload in memory. -/
theorem construct_ok (mem : Bytes) (inPos len outPos outLen : Nat) (h : Hdr) (a : UInt8) (hc : 0 < len) (hm : len ≤ maxUnit)
    (hs : overhead + len ≤ outLen) (hin : inPos + len ≤ mem.length) (hout : outPos + outLen ≤ mem.length) :
    construct mem inPos len outPos outLen h a =
      .ok (overhead + len, mem.take outPos ++ packet h ((mem.drop inPos).take len) a ++ mem.drop (outPos + overhead + len)) := by
  have hp : ((mem.drop inPos).take len).length = len := by simp; omega
  generalize hpl : (mem.drop inPos).take len = payload at *
  simp only [overhead, hdrLen] at *
  unfold construct
  rw [if_neg (by omega), if_neg (by simp only [overhead]; omega), rdN_ok hin, hpl, ok_bind]
  simp only [hdrLen, overhead]
  rw [wrN_ok (by omega), ok_bind, wrN_ok (by simp [hp]; omega), ok_bind, rdN_ok (by simp [hp]; omega), ok_bind]
  have e1 : List.take outPos (mem.take (outPos + 7) ++ payload ++ mem.drop (outPos + 7 + payload.length)) = mem.take outPos := by
    rw [List.append_assoc, List.take_append_of_le_length (by simp; omega), List.take_take]
    congr 1; omega
  have e2 : List.drop (outPos + (hdrBytes h len).length) (mem.take (outPos + 7) ++ payload ++ mem.drop (outPos + 7 + payload.length)) =
      payload ++ mem.drop (outPos + 7 + payload.length) := by
    rw [List.append_assoc, List.drop_append_of_le_length (by simp; omega)]
    rw [List.drop_of_length_le (by simp), List.nil_append]
  rw [e1, e2]
  have ht : (mem.take outPos).length = outPos := by simp; omega
  have e3 : List.take (8 + len - 1) (List.drop outPos (mem.take outPos ++ hdrBytes h len ++ (payload ++ mem.drop (outPos + 7 + payload.length)))) =
      packetBody h payload := by
    rw [List.append_assoc, List.drop_left' ht, ← List.append_assoc, List.take_left' (by simp; omega)]
    rw [packetBody, hp]
  rw [e3]
  unfold wr
  rw [if_pos (by simp [hp]; omega)]
  simp only [ok_bind, pure_eq, ok.injEq, Prod.mk.injEq, true_and]
  have hbl := packetBody_length h payload
  rw [show 8 + len - 1 = (packetBody h payload).length by omega]
  generalize hpec : Checksum.crc8 (a <<< 1) (packetBody h payload) (packetBody h payload).length = pec at *
  have e4 : mem.drop (outPos + 7 + payload.length) = mem[outPos + 7 + payload.length]'(by omega) :: mem.drop (outPos + 8 + len) := by
    rw [List.drop_eq_getElem_cons (by omega)]
    congr 2; omega
  rw [e4]
  have e5 : (mem.take outPos ++ hdrBytes h len ++ payload).length = outPos + 7 + len := by simp [hp]; omega
  rw [← List.append_assoc, List.set_append_right _ _ (by omega), e5, Nat.sub_self, List.set_cons_zero]
  rw [packet, hpec, packetBody, hp]
  simp

theorem crc8_body (h : Hdr) (payload : Bytes) (a : UInt8) (hm : payload.length ≤ maxUnit) :
    Checksum.crc8 a (packetBody h payload) (packetBody h payload).length =
      Checksum.update (Checksum.init a) (packetBody h payload) := by
  apply Checksum.crc8_value
  · intro e; have := congrArg List.length e; rw [packetBody_length] at this; simp at this
  · rw [packetBody_length]; simp only [maxUnit] at hm; omega

/-- Header fields that fit their bit fields. -/
structure Hdr.InRange (h : Hdr) : Prop where
  addr : h.srcAddr.toNat < 128
  tag : h.tag < 8
  owner : h.owner < 2
  seq : h.seq < 4
  eids : h.dstEid ≠ h.srcEid

theorem addr_roundtrip (a : UInt8) (h : a.toNat < 128) : ((a <<< 1) ||| 1) >>> 1 = a := by
  revert a; decide +kernel

theorem flags_roundtrip (h : Hdr) (r : h.InRange) :
    let n := (UInt8.ofNat (h.tag % 8 + 8 * (h.owner % 2) + 16 * (h.seq % 4) + 64 * bit h.eom + 128 * bit h.som)).toNat
    n / 128 = bit h.som ∧ n / 64 % 2 = bit h.eom ∧ n / 16 % 4 = h.seq ∧ n % 8 = h.tag ∧ n / 8 % 2 = h.owner := by
  have h1 : bit h.eom ≤ 1 := by unfold bit; split <;> omega
  have h2 : bit h.som ≤ 1 := by unfold bit; split <;> omega
  have := r.tag; have := r.owner; have := r.seq
  have e : (UInt8.ofNat (h.tag % 8 + 8 * (h.owner % 2) + 16 * (h.seq % 4) + 64 * bit h.eom + 128 * bit h.som)).toNat =
      h.tag + 8 * h.owner + 16 * h.seq + 64 * bit h.eom + 128 * bit h.som := by
    rw [UInt8.toNat_ofNat', Nat.mod_eq_of_lt (by omega)]; omega
  rw [e]
  omega

theorem bit_eq_one (b : Bool) : (bit b = 1) = (b = true) := by cases b <;> simp [bit]

/-- Parsing a well-formed packet with any PEC byte. -/
theorem interpret_body (h : Hdr) (r : h.InRange) (payload : Bytes) (hp : payload ≠ []) (hm : payload.length ≤ maxUnit) (a pec : UInt8) :
    interpret (packetBody h payload ++ [pec]) a =
      if Checksum.crc8 (a <<< 1) (packetBody h payload) (packetBody h payload).length ≠ pec then .err .badChecksum
      else .ok { hdr := h, msgType := if h.som then (payload.headD 0).toNat % 128 else 0, payload := payload } := by
  have hpos : 0 < payload.length := List.length_pos_iff.mpr hp
  have hbl := packetBody_length h payload
  simp only [maxUnit] at hm
  have hc : (UInt8.ofNat (overhead + payload.length - 3)).toNat = payload.length + 5 := by
    simp only [overhead]; rw [UInt8.toNat_ofNat', Nat.mod_eq_of_lt (by omega)]; omega
  have hfl := flags_roundtrip h r
  simp only at hfl
  suffices key : ∀ rhs, (if Checksum.crc8 (a <<< 1) (packetBody h payload) (packetBody h payload).length ≠ pec then .err .badChecksum
      else .ok { hdr := h, msgType := if h.som then (payload.headD 0).toNat % 128 else 0, payload := payload }) = rhs →
      interpret (packetBody h payload ++ [pec]) a = rhs from key _ rfl
  intro rhs hR
  obtain ⟨buf, hbuf⟩ : ∃ buf, buf = packetBody h payload ++ [pec] := ⟨_, rfl⟩
  rw [← hbuf]
  have hl : buf.length = 8 + payload.length := by rw [hbuf]; simp [hbl]; omega
  have r0 : (rd buf 0 : R UInt8) = .ok 0x0f := by rw [hbuf]; rfl
  have r1 : (rd buf 1 : R UInt8) = .ok (UInt8.ofNat (overhead + payload.length - 3)) := by rw [hbuf]; rfl
  have r2 : (rd buf 2 : R UInt8) = .ok ((h.srcAddr <<< 1) ||| 1) := by rw [hbuf]; rfl
  have r3 : (rd buf 3 : R UInt8) = .ok 1 := by rw [hbuf]; rfl
  have r4 : (rd buf 4 : R UInt8) = .ok h.dstEid := by rw [hbuf]; rfl
  have r5 : (rd buf 5 : R UInt8) = .ok h.srcEid := by rw [hbuf]; rfl
  have r6 : (rd buf 6 : R UInt8) = .ok (UInt8.ofNat (h.tag % 8 + 8 * (h.owner % 2) + 16 * (h.seq % 4) + 64 * bit h.eom + 128 * bit h.som)) := by
    rw [hbuf]; rfl
  have rp : (rdN buf 7 payload.length : R Bytes) = .ok payload := by
    rw [rdN_ok (by omega), hbuf, packetBody, List.append_assoc, List.drop_left' (hdrBytes_length ..), List.take_left' rfl]
  have rb : (rdN buf 0 (payload.length + 5 + 2) : R Bytes) = .ok (packetBody h payload) := by
    rw [rdN_ok (by omega), hbuf, List.drop_zero, List.take_left' (by omega)]
  have rc : (rd buf (payload.length + 5 + 2) : R UInt8) = .ok pec := by
    rw [hbuf, rd_eq_ok, List.getElem?_append_right (by omega), hbl]
    simp [show payload.length + 5 + 2 - (7 + payload.length) = 0 by omega]
  have ht : (readType buf h.som : R Nat) = .ok (if h.som then (payload.headD 0).toNat % 128 else 0) := by
    unfold readType
    cases h.som
    · rfl
    · cases payload with
      | nil => exact absurd rfl hp
      | cons b bs => rw [hbuf]; rfl
  clear hbuf
  obtain ⟨f1, f2, f3, f4, f5⟩ := hfl
  unfold interpret
  rw [if_neg (by simp only [hdrLen]; omega)]
  simp only [r0, r1, r2, r3, r4, r5, r6, ok_bind]
  rw [if_neg (by simp [r.eids]), hc, if_neg (by simp only [hdrLen]; omega), if_neg (by omega)]
  rw [show payload.length + 5 + 2 - hdrLen = payload.length by simp only [hdrLen]; omega, show hdrLen = 7 from rfl, rp, ok_bind]
  simp only [f1, f2, f3, f4, f5, bit_eq_one, addr_roundtrip _ r.addr, Bool.decide_eq_true]
  rw [ht, ok_bind]
  unfold checkPec
  rw [if_pos (by omega), rb, ok_bind, rc, ok_bind, show payload.length + 5 + 2 = (packetBody h payload).length by omega, ← hR]
  split <;> rfl

theorem interpret_packet (h : Hdr) (r : h.InRange) (payload : Bytes) (hp : payload ≠ []) (hm : payload.length ≤ maxUnit) (a : UInt8) :
    interpret (packet h payload a) a =
      .ok { hdr := h, msgType := if h.som then (payload.headD 0).toNat % 128 else 0, payload := payload } := by
  unfold packet
  rw [interpret_body h r payload hp hm, if_neg (by simp)]

end Verif.Mctp
