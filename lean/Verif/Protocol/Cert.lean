import Verif.Protocol.Sealed
/-! Certificates in parts, negotiated sizes. -/
namespace Verif.Protocol
open Spec

theorem word_lt (msg : Bytes) (i : Nat) : word msg i < 65536 := by
  have := byte_lt msg i; have := byte_lt msg (i + 1)
  unfold word; omega

theorem certPart_eq {env : Env} (he : Faithful env) (h1 : 12 ≤ env.maxResp) (h2 : env.maxResp ≤ 4096) (d msg : Bytes) :
    (d.drop (word msg 7)).take (certLen env d.length (word msg 7) (word msg 9)) = certPart env.maxResp d msg ∧
    certLen env d.length (word msg 7) (word msg 9) = (certPart env.maxResp d msg).length := by
  have hw := word_lt msg 9
  unfold certLen certPart
  rw [room_eq he h1 h2 (by decide), Nat.mod_eq_of_lt (a := env.maxResp - 7) (by omega)]
  have hn : (if word msg 9 = 0 ∨ word msg 9 > env.maxResp - 7 then env.maxResp - 7 else word msg 9) < 65536 := by split <;> omega
  generalize (if word msg 9 = 0 ∨ word msg 9 > env.maxResp - 7 then env.maxResp - 7 else word msg 9) = n at hn ⊢
  by_cases h : word msg 7 < d.length
  · rw [if_pos h, Nat.mod_eq_of_lt (by omega)]
    constructor
    · rw [← List.take_take, List.take_of_length_le (l := d.drop (word msg 7)) (i := d.length - word msg 7) (by simp)]
    · simp
  · rw [if_neg h, List.drop_of_length_le (by omega)]
    simp

/-- A byte of the message just stored or kept. -/
theorem put8_run {env : Env} {i v : Nat} {s : St} (h : i + 1 ≤ env.cap) :
    put8 env i v s = (.ok (), { s with mem := upd s.mem i [UInt8.ofNat (v % 256)] }) := by
  unfold put8 put; rw [if_neg (by rintro ⟨h1, -⟩; rw [le_length] at h1; omega)]; rfl

theorem upd_same {m : Nat → Option UInt8} {msg : Bytes} {i : Nat} (hm : m i = msg[i]?) (hi : i < msg.length) :
    upd m i [UInt8.ofNat (byte msg i % 256)] = m := by
  funext j
  unfold upd
  split
  · rename_i h
    obtain rfl : i = j := by simp at h; omega
    rw [hm, List.getElem?_eq_getElem hi, byte_eq hi]
    simp
  · rfl

theorem certificate_run {env : Env} (he : Faithful env) (h1 : 12 ≤ env.maxResp) (h2 : env.maxResp ≤ 4096) {msg : Bytes} {s : St}
    (hs : Holds s msg) (hl : msg.length = 11) (hslot : byte msg 5 ≤ 7) {v : Nat}
    (hr : (env.reply s.calls (.certificate (byte msg 5) (byte msg 6))).rc = .ok v) :
    ∃ cs, getCertificate env s = (.ok (), { s with
      mem := upd s.mem 7 (certPart env.maxResp (env.reply s.calls (.certificate (byte msg 5) (byte msg 6))).data msg)
      len := (certPart env.maxResp (env.reply s.calls (.certificate (byte msg 5) (byte msg 6))).data msg).length + 7
      calls := cs }) := by
  have hcap := he.cap
  have hv : ∀ i, 0 ≤ i → i < msg.length → s.mem i = msg[i]? := fun i _ h => hs.mem i h
  have hp := certPart_eq he h1 h2 (env.reply s.calls (.certificate (byte msg 5) (byte msg 6))).data msg
  have hle := (certLen_le he h1 h2 (env.reply s.calls (.certificate (byte msg 5) (byte msg 6))).data.length (word msg 7) (word msg 9)).1
  unfold getCertificate
  rw [bind_run len_run, hs.len, hl, show (11 != 11) = false from rfl, bind_run unless_false,
    bind_run (u8_run hv (by omega) (by omega) (by omega)), bind_run (u8_run hv (by omega) (by omega) (by omega)),
    bind_run (u16_run hv (by omega) (by omega) (by omega)), bind_run (u16_run hv (by omega) (by omega) (by omega)),
    show decide (byte msg 5 > 7) = false by simp; omega, bind_run unless_false]
  rw [bind_run (m := call env _) (s := s) (x := env.reply s.calls (.certificate (byte msg 5) (byte msg 6)))
    (t := { s with calls := .certificate (byte msg 5) (byte msg 6) :: s.calls }) rfl]
  generalize env.reply s.calls (.certificate (byte msg 5) (byte msg 6)) = r at *
  unfold certCopy
  simp only [hr, M.assoc]
  rw [hp.1, hp.2] at *
  generalize certPart env.maxResp r.data msg = part at *
  rw [bind_run (put_run he (by omega))]
  refine ⟨.certificate (byte msg 5) (byte msg 6) :: s.calls, ?_⟩
  rw [bind_run (m := pure part.length) rfl]
  rw [bind_run (put8_run (by omega))]
  rw [bind_run (put8_run (by omega))]
  rw [setLen_run]
  have e5 : upd s.mem 7 part 5 = msg[5]? := by unfold upd; rw [if_neg (by omega)]; exact hs.mem 5 (by omega)
  have e6 : upd s.mem 7 part 6 = msg[6]? := by unfold upd; rw [if_neg (by omega)]; exact hs.mem 6 (by omega)
  simp only [upd_same e5 (by omega), upd_same e6 (by omega)]

/-- The response to a request for a part of a certificate. -/
theorem certificate_serve {env : Env} (he : Faithful env) (il : ItemLen) (code : Err → Nat) {neg ka : Nat} {msg : Bytes} {v : Nat} (hn : 12 ≤ neg)
    (hl : msg.length = 11) (hh : byte msg 0 = 0x7E ∧ word msg 1 = 0x1414) (hres : reserved msg = false)
    (hplain : byte msg 3 / 32 % 2 = 0) (hcmd : byte msg 4 = 0x82) (hslot : byte msg 5 ≤ 7)
    (hr : (env.reply [] (.certificate (byte msg 5) (byte msg 6))).rc = .ok v) :
    (serve il env code neg ka msg).1 =
      .sent ((msg.take 7 ++ certPart (min neg 4096) (env.reply [] (.certificate (byte msg 5) (byte msg 6))).data msg).map some) := by
  have hcap := he.cap
  have b1 : byte msg 1 = 0x14 ∧ byte msg 2 = 0x14 := by
    have : byte msg 1 + 256 * byte msg 2 = 0x1414 := hh.2
    have := byte_lt msg 1; have := byte_lt msg 2
    omega
  have hacc : accept msg = .ok (byte msg 3 / 128) := by
    unfold accept
    rw [if_neg (by omega), if_neg (by
      rintro (h | h | h)
      · exact h (by show byte msg 0 % 128 = _; rw [hh.1])
      · have : byte msg 0 / 128 = 1 := h
        rw [hh.1] at this; exact absurd this (by decide)
      · exact h hh.2)]
    rfl
  have hs : Holds (St.init msg ka) msg := ⟨rfl, fun _ _ => rfl⟩
  have hv : ∀ i, 0 ≤ i → i < msg.length → (St.init msg ka).mem i = msg[i]? := fun i _ _ => rfl
  have hh' : processRequest il { env with maxResp := min neg env.cap } (St.init msg ka) =
      getCertificate { env with maxResp := min neg env.cap, encrypted := false } (St.init msg ka) := by
    unfold processRequest
    rw [bind_run len_run, hs.len, hl, show decide (11 < 5) = false from rfl, bind_run unless_false]
    unfold checkHeader
    simp only [M.assoc]
    rw [bind_run (u8_run hv (by omega) (by omega) (by show _ < env.cap; omega)), bind_run (u16_run hv (by omega) (by omega) (by show _ < env.cap; omega))]
    rw [hh.1, hh.2, show (0x7E % 128 != 0x7E || 0x7E / 128 == 1 || 0x1414 != 0x1414) = false by decide]
    rw [bind_run unless_false, bind_run (u8_run hv (by omega) (by omega) (by show _ < env.cap; omega))]
    unfold reserved at hres
    rw [hres, bind_run unless_false, bind_run (u8_run hv (by omega) (by omega) (by show _ < env.cap; omega)), if_neg (by omega),
      bind_run (u8_run hv (by omega) (by omega) (by show _ < env.cap; omega)), hcmd]
    rfl
  unfold serve
  rw [hacc]
  simp only
  rw [hh']
  have hf : Faithful { env with maxResp := min neg env.cap, encrypted := false } := faithful_with he _ _
  obtain ⟨cs, hrun⟩ := certificate_run hf (show 12 ≤ min neg env.cap by omega) (show min neg env.cap ≤ 4096 by omega) hs hl hslot (v := v) hr
  rw [hrun, hcap]
  simp only
  show finishResponse env code _ (.ok (), { (St.init msg ka) with
      mem := upd (St.init msg ka).mem 7 (certPart (min neg 4096) (env.reply [] (.certificate (byte msg 5) (byte msg 6))).data msg)
      len := (certPart (min neg 4096) (env.reply [] (.certificate (byte msg 5) (byte msg 6))).data msg).length + 7
      calls := cs }) = _
  generalize certPart (min neg 4096) (env.reply [] (.certificate (byte msg 5) (byte msg 6))).data msg = part
  unfold finishResponse
  simp only
  rw [if_neg (by omega)]
  congr 1
  have hget : ∀ i, i < msg.length → ∀ x : UInt8, byte msg i = x.toNat → msg[i]? = some x := by
    intro i hi x hx
    rw [byte_eq hi] at hx
    rw [List.getElem?_eq_getElem hi, UInt8.toNat_inj.1 hx]
  apply List.ext_getElem?
  intro i
  by_cases hi : i < part.length + 7
  · rw [List.getElem?_map, List.getElem?_range hi, List.getElem?_map]
    simp only [Option.map_some]
    have key : (if i = 3 then Option.map (fun b => UInt8.ofNat (b.toNat % 128 + byte msg 3 / 128 * 128)) (upd (upd (St.init msg ka).mem 7 part) 0 [0x7E, 0x14, 0x14] 3)
        else upd (upd (St.init msg ka).mem 7 part) 0 [0x7E, 0x14, 0x14] i) = (msg.take 7 ++ part)[i]? := by
      by_cases h7 : i < 7
      · rw [List.getElem?_append_left (by rw [List.length_take]; omega), List.getElem?_take, if_pos h7]
        by_cases h3 : i = 3
        · subst h3
          rw [if_pos rfl]
          have : upd (upd (St.init msg ka).mem 7 part) 0 [0x7E, 0x14, 0x14] 3 = msg[3]? := by
            unfold upd; rw [if_neg (by simp), if_neg (by omega)]; rfl
          rw [this, List.getElem?_eq_getElem (by omega), Option.map_some, byte_eq (by omega)]
          congr 1
          rw [show msg[3].toNat % 128 + msg[3].toNat / 128 * 128 = msg[3].toNat by omega]
          simp
        · rw [if_neg h3]
          by_cases h0 : i < 3
          · unfold upd
            rw [if_pos (by simp; omega)]
            rcases (show i = 0 ∨ i = 1 ∨ i = 2 by omega) with rfl | rfl | rfl
            · rw [hget 0 (by omega) 0x7E hh.1]; rfl
            · rw [hget 1 (by omega) 0x14 b1.1]; rfl
            · rw [hget 2 (by omega) 0x14 b1.2]; rfl
          · unfold upd
            rw [if_neg (by simp; omega), if_neg (by omega)]; rfl
      · rw [if_neg (by omega), List.getElem?_append_right (by rw [List.length_take]; omega), List.length_take, Nat.min_eq_left (by omega)]
        unfold upd
        rw [if_neg (by simp; omega), if_pos (by omega)]
    rw [key, List.getElem?_eq_getElem (by rw [List.length_append, List.length_take]; omega)]
    rfl
  · rw [List.getElem?_eq_none (by simp; omega), List.getElem?_eq_none (by simp; omega)]

theorem certRequest_facts {slot cert off : Nat} (hs : slot < 256) (hc : cert < 256) (ho : off < 65536) :
    (certRequest slot cert off).length = 11 ∧ byte (certRequest slot cert off) 5 = slot ∧ byte (certRequest slot cert off) 6 = cert ∧
    word (certRequest slot cert off) 7 = off ∧ word (certRequest slot cert off) 9 = 0 := by
  refine ⟨rfl, ?_, ?_, ?_, ?_⟩ <;> simp [certRequest, byte, word, le] <;> omega

theorem payload_sent (b : Bytes) : payload (.sent (b.map some)) = b.drop 7 := by
  simp [payload, ← List.map_drop, List.filterMap_map]

theorem collect_all {d : Bytes} {k : Nat} (hk : 0 < k) {get : Nat → Bytes} (hget : ∀ off, off ≤ d.length → get off = (d.drop off).take k) :
    ∀ n off, off ≤ d.length → d.length - off < n → collect get n off = d.drop off
  | 0, _, _, h => by omega
  | n + 1, off, h, hn => by
    unfold collect
    rw [hget off h]
    by_cases he : off = d.length
    · subst he; simp
    · have hl : ((d.drop off).take k).length = min k (d.length - off) := by simp
      rw [if_neg (by intro h0; rw [h0] at hl; simp at hl; omega)]
      rw [collect_all hk hget n _ (by rw [hl]; omega) (by rw [hl]; omega), hl]
      by_cases hle : k ≤ d.length - off
      · rw [Nat.min_eq_left hle, ← List.drop_drop, List.take_append_drop]
      · have hm : min k (d.length - off) = d.length - off := Nat.min_eq_right (by omega)
        rw [hm, List.drop_of_length_le (l := d) (i := off + (d.length - off)) (by omega), List.append_nil]
        exact List.take_of_length_le (by rw [List.length_drop]; omega)

end Verif.Protocol
