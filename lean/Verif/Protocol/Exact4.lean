import Verif.Protocol.Exact3
import Verif.Protocol.Sizes
/-! From the answers of handlers to the messages that are sent. -/
namespace Verif.Protocol
open Spec

theorem byte_get {b : Bytes} {i : Nat} {x : UInt8} (hi : i < b.length) (h : byte b i = x.toNat) : b[i]? = some x := by
  rw [byte_eq hi] at h
  rw [List.getElem?_eq_getElem hi, UInt8.toNat_inj.1 h]

/-- A message in the buffer is sent as it is. -/
theorem finish_buffer {env : Env} {code : Err → Nat} {rq : Nat} {s : St} {b : Bytes} (h4 : 4 ≤ b.length)
    (h0 : byte b 0 = 0x7E) (h1 : byte b 1 = 0x14) (h2 : byte b 2 = 0x14) (h3 : byte b 3 / 128 = rq) (hl : s.len = b.length)
    (ha : At s.mem 0 b) : finishResponse env code rq (.ok (), s) = .sent (b.map some) := by
  unfold finishResponse
  simp only
  rw [if_neg (by omega)]
  congr 1
  apply List.ext_getElem?
  intro i
  by_cases hi : i < b.length
  · rw [List.getElem?_map, List.getElem?_range (by omega), List.getElem?_map]
    simp only [Option.map_some]
    have key : (if i = 3 then Option.map (fun b => UInt8.ofNat (b.toNat % 128 + rq * 128)) (upd s.mem 0 [0x7E, 0x14, 0x14] 3)
        else upd s.mem 0 [0x7E, 0x14, 0x14] i) = b[i]? := by
      by_cases hi3 : i = 3
      · subst hi3
        rw [if_pos rfl]
        have : upd s.mem 0 [0x7E, 0x14, 0x14] 3 = b[3]? := by
          unfold upd; rw [if_neg (by simp)]
          have := ha 3 (by omega)
          rwa [Nat.zero_add] at this
        rw [this, List.getElem?_eq_getElem (by omega), Option.map_some, ← h3, byte_eq (by omega)]
        congr 1
        rw [show b[3].toNat % 128 + b[3].toNat / 128 * 128 = b[3].toNat by omega]
        simp
      · rw [if_neg hi3]
        by_cases h : i < 3
        · unfold upd
          rw [if_pos (by simp; omega)]
          rcases (show i = 0 ∨ i = 1 ∨ i = 2 by omega) with rfl | rfl | rfl
          · rw [byte_get (x := 0x7E) hi h0]; rfl
          · rw [byte_get (x := 0x14) hi h1]; rfl
          · rw [byte_get (x := 0x14) hi h2]; rfl
        · unfold upd
          rw [if_neg (by simp; omega)]
          have := ha i hi
          rwa [Nat.zero_add] at this
    rw [key, List.getElem?_eq_getElem hi]
    rfl
  · rw [List.getElem?_eq_none (by simp; omega), List.getElem?_eq_none (by simp; omega)]

theorem notice_eq (rq c v : Nat) : errorMessage rq c v = notice rq c v := by
  have h (n : Nat) : UInt8.ofNat (n % 256) = UInt8.ofNat n := by
    apply UInt8.toNat_inj.1
    simp
  simp only [errorMessage, notice, le, h, List.cons_append, List.nil_append, Nat.div_div_eq_div_mul]

/-- An error is reported. -/
theorem finish_err {env : Env} {code : Err → Nat} {rq : Nat} {s : St} {e : Err} (h : (s.mem 4).isSome) :
    finishResponse env code rq (.error (.err e), s) = .sent ((notice rq 4 (code e)).map some) := by
  unfold finishResponse
  simp only
  split
  · rename_i h'; rw [h'] at h; cases h
  · rw [notice_eq]

/-- An answer without data is reported as success. -/
theorem finish_none {env : Env} {code : Err → Nat} {rq : Nat} {s : St} (h : s.len = 0) :
    finishResponse env code rq (.ok (), s) = .sent ((notice rq 0 0).map some) := by
  unfold finishResponse
  simp only
  rw [if_pos h, notice_eq]

theorem request_bytes {msg : Bytes} (hq : Request msg) : byte msg 0 = 0x7E ∧ byte msg 1 = 0x14 ∧ byte msg 2 = 0x14 := by
  refine ⟨hq.2.1, ?_⟩
  have : byte msg 1 + 256 * byte msg 2 = 0x1414 := hq.2.2
  have := byte_lt msg 1; have := byte_lt msg 2
  omega

theorem byte_take {b : Bytes} {n i : Nat} {t : Bytes} (hi : i < n) (hl : i < b.length) : byte (b.take n ++ t) i = byte b i := by
  unfold byte
  rw [List.getD_eq_getElem?_getD, List.getD_eq_getElem?_getD, List.getElem?_append_left (by rw [List.length_take]; omega), List.getElem?_take_of_lt hi]

/-- Checks of the header. -/
theorem request_plain {env : Env} (hc : 5 ≤ env.cap) (il : ItemLen) {msg : Bytes} {s : St} (hs : Holds s msg) (hq : Request msg)
    (hres : reserved msg = false) :
    processRequest il env s = (if byte msg 3 / 32 % 2 = 1 then processEncrypted il env msg.length else handler il { env with encrypted := false } (byte msg 4)) s := by
  have hv : ∀ i, 0 ≤ i → i < msg.length → s.mem i = msg[i]? := fun i _ h => hs.mem i h
  have hl := hq.1
  unfold processRequest
  rw [bind_run len_run, hs.len, show decide (msg.length < 5) = false by simpa using hl, bind_run unless_false]
  unfold checkHeader
  simp only [M.assoc]
  rw [bind_run (u8_run hv (by omega) (by omega) (by omega)), bind_run (u16_run hv (by omega) (by omega) (by omega))]
  rw [hq.2.1, hq.2.2, show (0x7E % 128 != 0x7E || 0x7E / 128 == 1 || 0x1414 != 0x1414) = false by decide]
  rw [bind_run unless_false, bind_run (u8_run hv (by omega) (by omega) (by omega))]
  unfold reserved at hres
  rw [hres, bind_run unless_false, bind_run (u8_run hv (by omega) (by omega) (by omega))]
  split
  · rfl
  · rw [bind_run (u8_run hv (by omega) (by omega) (by omega))]

theorem request_reserved {env : Env} (hc : 5 ≤ env.cap) (il : ItemLen) {msg : Bytes} {s : St} (hs : Holds s msg) (hq : Request msg)
    (hres : reserved msg = true) : processRequest il env s = (.error (.err .reservedNotZero), s) := by
  have hv : ∀ i, 0 ≤ i → i < msg.length → s.mem i = msg[i]? := fun i _ h => hs.mem i h
  have hl := hq.1
  unfold processRequest
  rw [bind_run len_run, hs.len, show decide (msg.length < 5) = false by simpa using hl, bind_run unless_false]
  unfold checkHeader
  simp only [M.assoc]
  rw [bind_run (u8_run hv (by omega) (by omega) (by omega)), bind_run (u16_run hv (by omega) (by omega) (by omega))]
  rw [hq.2.1, hq.2.2, show (0x7E % 128 != 0x7E || 0x7E / 128 == 1 || 0x1414 != 0x1414) = false by decide]
  rw [bind_run unless_false, bind_run (u8_run hv (by omega) (by omega) (by omega))]
  unfold reserved at hres
  rw [hres, bind_err unless_true]

theorem serve_reserved {env : Env} (he : Faithful env) (il : ItemLen) (code : Err → Nat) {neg ka : Nat} {msg : Bytes} (hq : Request msg)
    (hres : reserved msg = true) :
    (serve il env code neg ka msg).1 = .sent ((notice (byte msg 3 / 128) 4 (code .reservedNotZero)).map some) := by
  have hcap := he.cap
  have hl := hq.1
  rw [serve_run il code neg ka hq, request_reserved (env := { env with maxResp := min neg env.cap }) (show 5 ≤ env.cap by omega) il (init_holds msg ka) hq hres]
  refine finish_err (env := env) ?_
  show (msg[4]?).isSome
  rw [List.getElem?_eq_getElem (by omega)]; rfl

/-- The message behind an answer. -/
theorem finish_gives {env : Env} {code : Err → Nat} {msg : Bytes} {x : Except Stop Unit × St} {a : Ans} (hg : Gives x a)
    (hq : Request msg) (hk : ∀ j, j < 5 → x.2.mem j = msg[j]?) :
    finishResponse env code (byte msg 3 / 128) x = .sent ((reply code msg a).map some) := by
  have hl := hq.1
  obtain ⟨b0, b1, b2⟩ := request_bytes hq
  obtain ⟨r, t⟩ := x
  rcases a with e | (_ | d)
  · obtain rfl : r = .error (.err e) := hg
    refine finish_err ?_
    rw [show t.mem 4 = msg[4]? from hk 4 (by omega), List.getElem?_eq_getElem (by omega)]; rfl
  · obtain ⟨h, h0⟩ := hg
    obtain rfl : r = .ok () := h
    exact finish_none h0
  · obtain ⟨h, hlen, hat⟩ := hg
    obtain rfl : r = .ok () := h
    have htl : (msg.take 5).length = 5 := by rw [List.length_take]; omega
    show _ = Outcome.sent ((msg.take 5 ++ d).map some)
    refine finish_buffer ?_ ?_ ?_ ?_ ?_ ?_ ?_
    · rw [List.length_append, htl]; omega
    · rw [byte_take (by omega) (by omega)]; exact b0
    · rw [byte_take (by omega) (by omega)]; exact b1
    · rw [byte_take (by omega) (by omega)]; exact b2
    · rw [byte_take (by omega) (by omega)]
    · rw [List.length_append, htl]; exact hlen
    · refine At.append ?_ (by rw [htl]; exact hat)
      intro j hj
      rw [htl] at hj
      rw [Nat.zero_add, List.getElem?_take_of_lt hj]
      exact hk j hj

theorem serve_plain {env : Env} (he : Faithful env) (il : ItemLen) (code : Err → Nat) {neg ka : Nat} {msg : Bytes} (hn : 12 ≤ neg)
    (hq : Request msg) (hl : msg.length ≤ 4096) (hres : reserved msg = false) (hp : byte msg 3 / 32 % 2 = 0)
    (hr : ¬ Ragged msg) (ht : Terminated msg) :
    (serve il env code neg ka msg).1 =
      .sent ((reply code msg (answer { env with maxResp := min neg 4096, encrypted := false } [] il msg)).map some) := by
  have hcap := he.cap
  have hl5 := hq.1
  have e : ({ env with maxResp := min neg env.cap } : Env) = { env with maxResp := min neg 4096 } :=
    congrArg (fun n => ({ env with maxResp := n } : Env)) (show min neg env.cap = min neg 4096 by rw [hcap])
  rw [serve_run il code neg ka hq, e, request_plain (env := { env with maxResp := min neg 4096 }) (show 5 ≤ env.cap by omega) il (init_holds msg ka) hq hres, if_neg (by omega)]
  refine finish_gives (env := env) ?_ hq ?_
  · exact exact_handler (env := { env with maxResp := min neg 4096, encrypted := false }) (faithful_with he _ _) (show 12 ≤ min neg 4096 by omega)
      (show min neg 4096 ≤ 4096 by omega) hq.1 hl (mem := fun i => msg[i]?) (fun i _ _ => rfl) (ka := ka) (cs := []) il hr ht
  · intro j hj
    exact keeps_plain (il := il) (env := { env with maxResp := min neg 4096, encrypted := false }) (cmd := byte msg 4) rfl (St.init msg ka) j hj (by omega)

/-! ### Encrypted messages -/

theorem done_ne {r : Reply} (h : r.rc ≠ .ok 0) : done r = rcErr r.rc := by
  unfold done
  split
  · rename_i h'; exact absurd h' h
  · rfl

theorem opening_run {env : Env} (he : Faithful env) {msg : Bytes} {s : St} (hs : Holds s msg) (hl : 5 ≤ msg.length) (hc : msg.length ≤ 4096)
    (h0 : s.calls = []) :
    match opening env msg with
    | .error e => ∃ t, decrypt env msg.length s = (.error (.err e), t) ∧ (t.mem 4).isSome
    | .ok _ => 33 < msg.length ∧ 33 < env.maxResp ∧ (env.reply [] (.decrypt msg (msg.length - 32))).data.length = msg.length - 32 ∧
      decrypt env msg.length s = (.ok (), opened msg s (env.reply [] (.decrypt msg (msg.length - 32))).data) := by
  have hcap := he.cap
  have h4 : (s.mem 4).isSome := by rw [hs.mem 4 (by omega), List.getElem?_eq_getElem (by omega)]; rfl
  rcases decrypt_run he hs.mem hl hc h0 with ⟨hno, -⟩ | ⟨⟨h1, h2, h3, h3', h5⟩, ha, hb, hdl, hd⟩
  · unfold decrypt opening
    by_cases h1 : env.has .session = false
    · unfold refuse
      rw [if_pos h1, show (!env.has .session) = true by rw [h1]; rfl]
      exact ⟨s, bind_err unless_true, h4⟩
    by_cases h2 : msg.length ≤ 33
    · unfold refuse
      rw [if_neg h1, if_pos h2, show (!env.has .session) = false by simpa using h1, bind_run unless_false,
        show decide (msg.length ≤ 28 + 5) = true by simpa using h2]
      exact ⟨s, bind_err unless_true, h4⟩
    by_cases h3 : env.maxResp < msg.length - 28 ∨ env.maxResp ≤ 33
    · unfold refuse
      rw [if_neg h1, if_neg h2, if_pos h3, show (!env.has .session) = false by simpa using h1, bind_run unless_false,
        show decide (msg.length ≤ 28 + 5) = false by simpa using h2, bind_run unless_false,
        show (decide (env.maxResp < msg.length - 28) || decide (env.maxResp ≤ 5 + 28)) = true by simpa using h3]
      exact ⟨s, bind_err unless_true, h4⟩
    have h5 : (env.reply [] (.decrypt msg (msg.length - 32))).rc ≠ .ok 0 := fun h5 =>
      hno ⟨by simpa using h1, by omega, by omega, by omega, h5⟩
    unfold refuse ended
    rw [if_neg h1, if_neg h2, if_neg h3, if_neg h5, show (!env.has .session) = false by simpa using h1, bind_run unless_false,
        show decide (msg.length ≤ 28 + 5) = false by simpa using h2, bind_run unless_false,
        show (decide (env.maxResp < msg.length - 28) || decide (env.maxResp ≤ 5 + 28)) = false by simp; omega, bind_run unless_false]
    have hb := bytes_run (env := env) hs.mem (by omega) msg.length 0 (by omega)
    rw [show slice msg 0 msg.length = msg by simp [slice]] at hb
    rw [bind_run hb]
    have ha := (he.answer [] (.decrypt msg (msg.length - 32))).1
    have hcall : callAt env 4 (.decrypt msg (msg.length - 32)) s =
        (.ok (env.reply [] (.decrypt msg (msg.length - 32))), { s with mem := upd s.mem 4 (env.reply [] (.decrypt msg (msg.length - 32))).data, calls := .decrypt msg (msg.length - 32) :: s.calls }) := by
      unfold callAt
      rw [bind_run (m := call env _) (s := s) (x := env.reply [] (.decrypt msg (msg.length - 32))) (t := { s with calls := .decrypt msg (msg.length - 32) :: s.calls }) (by unfold call; rw [h0])]
      rw [bind_run (put_run he (by omega))]
      rfl
    rw [bind_run hcall]
    rw [done_ne h5]
    · refine ⟨_, rfl, ?_⟩
      show ((upd s.mem 4 (env.reply [] (.decrypt msg (msg.length - 32))).data) 4).isSome
      unfold upd
      split
      · rw [List.getElem?_eq_getElem (by omega)]; rfl
      · exact h4
  · unfold opening refuse ended
    rw [if_neg (by simp [h1]), if_neg (by omega), if_neg (by omega), if_pos h5]
    exact ⟨h2, h3', hdl, hd⟩

/-- Encryption of a message in the buffer. -/
theorem encrypt_exact {env : Env} (he : Faithful env) (hm : env.maxResp ≤ 4096) {w : St} {b : Bytes} (hs : Holds w b) (hq : Request b)
    (hx : byte b 3 / 32 % 2 = 1) :
    (env.maxResp < b.length + 28 ∧ encryptResponse env w = (.error (.err (.sub (.err 2))), w)) ∨
    (b.length + 28 ≤ env.maxResp ∧
      let r := env.reply w.calls (.encrypt (b.drop 4))
      let t := St.mk (upd w.mem 4 r.data) w.len (.encrypt (b.drop 4) :: w.calls) w.keyAlg
      if r.rc = .ok 0 then r.data.length = b.length + 24 ∧ encryptResponse env w = (.ok (), { t with len := b.length + 28 })
      else encryptResponse env w = (.error (.err (.sub r.rc)), t)) := by
  have hcap := he.cap
  have hl := hq.1
  have hv : ∀ i, 0 ≤ i → i < b.length → w.mem i = b[i]? := fun i _ h => hs.mem i h
  unfold encryptResponse
  rw [bind_run len_run, hs.len, if_neg (by omega)]
  by_cases hlim : env.maxResp < b.length + 28
  · refine .inl ⟨hlim, ?_⟩
    rcases Nat.lt_or_ge 3 env.cap with h3 | h3
    rotate_left
    · omega
    rw [bind_run (u8_run hv (by omega) (by omega) (by omega)), bind_run (u16_run hv (by omega) (by omega) (by omega)),
      bind_run (u8_run hv (by omega) (by omega) (by omega)), hq.2.1, hq.2.2, hx,
      if_neg (show ¬ ((126 % 128 != 126 || 5140 != 5140 || 1 == 0) = true) by decide), show decide (b.length + 28 > env.maxResp) = true by simpa using hlim, bind_err unless_true]
  · refine .inr ⟨by omega, ?_⟩
    rw [bind_run (u8_run hv (by omega) (by omega) (by omega)), bind_run (u16_run hv (by omega) (by omega) (by omega)),
      bind_run (u8_run hv (by omega) (by omega) (by omega)), hq.2.1, hq.2.2, hx,
      if_neg (show ¬ ((126 % 128 != 126 || 5140 != 5140 || 1 == 0) = true) by decide), show decide (b.length + 28 > env.maxResp) = false by simpa using hlim, bind_run unless_false]
    have hb := bytes_run (env := env) hs.mem (by omega) (b.length - 4) 4 (by omega)
    rw [show slice b 4 (b.length - 4) = b.drop 4 by unfold slice; rw [List.take_of_length_le (by simp)]] at hb
    rw [bind_run hb]
    have ha := he.answer w.calls (.encrypt (b.drop 4))
    generalize hr : env.reply w.calls (.encrypt (b.drop 4)) = r at ha ⊢
    obtain ⟨ha1, ha2⟩ := ha
    rw [List.length_drop] at ha1 ha2
    have hcall : callAt env 4 (.encrypt (b.drop 4)) w = (.ok r, { w with mem := upd w.mem 4 r.data, calls := .encrypt (b.drop 4) :: w.calls }) := by
      unfold callAt
      rw [bind_run (m := call env _) (s := w) (x := r) (t := { w with calls := .encrypt (b.drop 4) :: w.calls }) (by unfold call; rw [hr])]
      rw [bind_run (put_run he (by omega))]
      rfl
    rw [bind_run hcall]
    simp only
    by_cases h0 : r.rc = .ok 0
    · rw [if_pos h0]
      refine ⟨?_, ?_⟩
      · rw [ha2 _ h0]; omega
      · unfold done; rw [h0]; rfl
    · rw [if_neg h0, done_ne h0, ← hs.len]
      rfl

/-- Handlers for encrypted requests leave the header alone, but for the end of a session. -/
theorem keeps_within {il : ItemLen} {env : Env} (hcap : env.cap = 4096) {msg : Bytes} {s : St} (hs : Holds s msg) (hl : 5 ≤ msg.length) (hc : msg.length ≤ 4096)
    (hu : ¬ (byte msg 4 = 0x84 ∧ byte msg 5 = 2)) : ∀ j, j < 5 → (handler il env (byte msg 4) s).2.mem j = s.mem j := by
  intro j hj
  by_cases h : byte msg 4 = 0x84
  rotate_left
  · exact keeps_handler h s j hj (by omega)
  rw [h]
  show (exchangeKeys env s).2.mem j = _
  have hv : ∀ i, 0 ≤ i → i < msg.length → s.mem i = msg[i]? := fun i _ h => hs.mem i h
  unfold exchangeKeys
  rcases hb : (!env.has .session) with _ | _
  rotate_left
  · rw [bind_err unless_true]
  rw [bind_run unless_false, bind_run len_run, hs.len]
  rcases hb : decide (msg.length ≤ 6) with _ | _
  rotate_left
  · rw [bind_err unless_true]
  simp only [decide_eq_false_iff_not] at hb
  rw [bind_run unless_false, bind_run (u8_run hv (by omega) (by omega) (by omega))]
  have hk : Keeps 5 (if byte msg 5 = 0 then do
      let d ← bytes env 6 (msg.length - 6)
      let r ← callAt env 6 (.establish d (room env 6))
      done r
      setLen (r.data.length + 6)
    else if byte msg 5 = 1 then do
      unlessErr (!env.encrypted) .shouldBeEncrypted
      let k ← u16 env 6
      let h ← hmacAt env 8 (restLen env msg.length 8)
      let r ← call env (.pairedSession env.eid k (some h))
      done r
      keysDone
    else fail .unsupportedIndex) := by
    unfold keysDone hmacAt
    repeat' kstep
  have := hk s j hj (by omega)
  by_cases h0 : byte msg 5 = 0
  · rw [if_pos h0] at this ⊢; exact this
  rw [if_neg h0] at this ⊢
  by_cases h1 : byte msg 5 = 1
  · rw [if_pos h1] at this ⊢; exact this
  rw [if_neg h1] at this ⊢
  rw [if_neg (fun h2 => hu ⟨h, h2⟩)]
  exact this

/-- The end of a session clears the bit for encryption. -/
theorem keys_end {il : ItemLen} {env : Env} (hcap : env.cap = 4096) {msg : Bytes} {s : St} (hs : Holds s msg) (hc : msg.length ≤ 4096)
    (h4 : byte msg 4 = 0x84) (h5 : byte msg 5 = 2) (hok : (handler il env (byte msg 4) s).1 = .ok ()) :
    (handler il env (byte msg 4) s).2.mem 3 = some (UInt8.ofNat (byte msg 3 - byte msg 3 / 32 % 2 * 32)) := by
  rw [h4] at hok ⊢
  have e : handler il env 0x84 = exchangeKeys env := rfl
  rw [e] at hok ⊢
  have hv : ∀ i, 0 ≤ i → i < msg.length → s.mem i = msg[i]? := fun i _ h => hs.mem i h
  unfold exchangeKeys at hok ⊢
  rcases hb : (!env.has .session) with _ | _
  rotate_left
  · rw [hb, bind_err unless_true] at hok; cases hok
  rw [hb, bind_run unless_false, bind_run len_run, hs.len] at hok
  rw [bind_run unless_false, bind_run len_run, hs.len]
  rcases hb : decide (msg.length ≤ 6) with _ | _
  rotate_left
  · rw [hb, bind_err unless_true] at hok; cases hok
  rw [hb] at hok
  simp only [decide_eq_false_iff_not] at hb
  rw [bind_run unless_false, bind_run (u8_run hv (by omega) (by omega) (by omega)), h5, if_neg (by decide), if_neg (by decide), if_pos rfl] at hok ⊢
  rcases hb : (!env.encrypted) with _ | _
  rotate_left
  · rw [hb, bind_err unless_true] at hok; cases hok
  rw [hb] at hok
  rw [bind_run unless_false] at hok ⊢
  have hh : ∃ d, hmacAt env 6 (restLen env msg.length 6) s = (.ok d, s) ∨ ∃ e, hmacAt env 6 (restLen env msg.length 6) s = (.error e, s) := by
    unfold hmacAt
    split
    · rcases bytes_any (env := env) (s := s) (i := 6) (n := 32) with ⟨p, h, -⟩ | h
      · exact ⟨p, .inl h⟩
      · exact ⟨[], .inr h⟩
    · exact ⟨[], .inl rfl⟩
  obtain ⟨d, hd | ⟨e, hd⟩⟩ := hh
  rotate_left
  · rw [bind_err hd] at hok; cases hok
  rw [bind_run hd] at hok ⊢
  rw [bind_run (m := call env _) (s := s) (x := env.reply s.calls (.resetSession env.eid (some d))) (t := { s with calls := .resetSession env.eid (some d) :: s.calls }) rfl] at hok ⊢
  unfold done at hok ⊢
  split
  · unfold clearCrypt
    rw [M.assoc]
    rw [bind_run (m := Pure.pure ()) (x := ()) rfl, bind_run (u8_run (s := { s with calls := .resetSession env.eid (some d) :: s.calls }) hv (by omega) (by omega) (by omega))]
    rw [bind_run (m := put8 env 3 _) (x := ()) (t := { s with mem := upd s.mem 3 (le 1 (byte msg 3 - byte msg 3 / 32 % 2 * 32)), calls := .resetSession env.eid (some d) :: s.calls })]
    · show upd s.mem 3 (le 1 (byte msg 3 - byte msg 3 / 32 % 2 * 32)) 3 = _
      unfold upd
      rw [if_pos (by rw [le_length]; omega)]
      have := byte_lt msg 3
      simp only [le, Nat.sub_self, List.getElem?_cons_zero]
      rw [Nat.mod_eq_of_lt (by omega)]
    · unfold put8 put; rw [if_neg (by rintro ⟨h, -⟩; rw [le_length] at h; omega)]
  · rename_i h
    split at hok
    · rename_i h'; exact absurd h' h
    · cases hok

theorem encrypted_run {env env0 : Env} (he : Faithful env) (il : ItemLen) (code : Err → Nat) {ka : Nat} {msg : Bytes} (hn : 40 ≤ env.maxResp)
    (hm : env.maxResp ≤ 4096) (hq : Request msg) (hl : msg.length ≤ 4096) (hp : byte msg 3 / 32 % 2 = 1)
    (hr : ¬ Ragged (plain env msg)) (ht : Terminated (plain env msg)) :
    SentFor code env msg (finishResponse env0 code (byte msg 3 / 128) (processEncrypted il env msg.length (St.init msg ka)))
      (processEncrypted il env msg.length (St.init msg ka)).2.calls (sessionAnswer env il msg) := by
  have hcap := he.cap
  have hl5 := hq.1
  have ho := opening_run he (init_holds msg ka) hl5 hl rfl
  unfold processEncrypted
  rcases hop : opening env msg with e | _
  · rw [hop] at ho
    obtain ⟨t, hd, h4⟩ := ho
    rw [show sessionAnswer env il msg = .error e by unfold sessionAnswer; rw [hop]; rfl, bind_err hd]
    exact finish_err h4
  rw [hop] at ho
  obtain ⟨h33, hm33, hdl, hd⟩ := ho
  rw [show sessionAnswer env il msg =
      answer { env with maxResp := env.maxResp - 28, encrypted := true } [.decrypt msg (msg.length - 32)] il (plain env msg) by
    unfold sessionAnswer; rw [hop]; rfl]
  rw [bind_run hd]
  have hH := opened_holds he (init_holds msg ka) hp h33 hdl
  have hlen : (plain env msg).length = msg.length - 28 := hH.len.symm
  have hpe : plain env msg = msg.take 4 ++ (env.reply [] (.decrypt msg (msg.length - 32))).data := by unfold plain; rw [if_pos hp]
  have hpb : ∀ i, i < 4 → byte (plain env msg) i = byte msg i := fun i hi => by rw [hpe]; exact byte_take hi (by omega)
  have hqp : Request (plain env msg) := by
    refine ⟨by omega, by rw [hpb 0 (by omega)]; exact hq.2.1, ?_⟩
    unfold word
    rw [hpb 1 (by omega), hpb 2 (by omega)]; exact hq.2.2
  have hp4 : (plain env msg).take 4 = msg.take 4 := by
    rw [hpe, List.take_append_of_le_length (by rw [List.length_take]; omega), List.take_take, Nat.min_self]
  have hp3 := hpb 3 (by omega)
  have hcalls : (opened msg (St.init msg ka) (env.reply [] (.decrypt msg (msg.length - 32))).data).calls = [.decrypt msg (msg.length - 32)] := rfl
  generalize opened msg (St.init msg ka) (env.reply [] (.decrypt msg (msg.length - 32))).data = s at hH hcalls
  unfold SentFor
  generalize plain env msg = req at hr ht hH hlen hqp hp4 hp3 ⊢
  have hv : ∀ i, 0 ≤ i → i < req.length → s.mem i = req[i]? := fun i _ hi => hH.mem i hi
  rw [bind_run (u8_run hv (by omega) (by omega) (by omega))]
  have hsz : (env.maxResp + env.size - 28) % env.size = env.maxResp - 28 := by
    have := he.size
    rw [show env.maxResp + env.size - 28 = env.maxResp - 28 + env.size by omega, Nat.add_mod_right, Nat.mod_eq_of_lt (by omega)]
  rw [hsz]
  have hg : Gives (handler il { env with maxResp := env.maxResp - 28, encrypted := true } (byte req 4) s)
      (answer { env with maxResp := env.maxResp - 28, encrypted := true } [.decrypt msg (msg.length - 32)] il req) := by
    have := exact_handler (env := { env with maxResp := env.maxResp - 28, encrypted := true }) (faithful_with he _ _) (show 12 ≤ env.maxResp - 28 by omega)
      (show env.maxResp - 28 ≤ 4096 by omega) hqp.1 (by omega) hv (ka := s.keyAlg) (cs := s.calls) il hr ht
    unfold AV at this
    rw [← hH.len, hcalls] at this
    rw [← hcalls] at this ⊢
    exact this
  have hk3 := keeps_any (il := il) (env := { env with maxResp := env.maxResp - 28, encrypted := true }) (cmd := byte req 4) s
  have hkw := fun hu => keeps_within (il := il) (env := { env with maxResp := env.maxResp - 28, encrypted := true }) hcap hH hqp.1 (by omega) hu
  have hke := fun h4 h5 hok => keys_end (il := il) (env := { env with maxResp := env.maxResp - 28, encrypted := true }) hcap hH (by omega) h4 h5 hok
  generalize answer { env with maxResp := env.maxResp - 28, encrypted := true } [.decrypt msg (msg.length - 32)] il req = a at hg ⊢
  rcases hx : handler il { env with maxResp := env.maxResp - 28, encrypted := true } (byte req 4) s with ⟨r, w⟩
  rw [hx] at hg hk3 hkw hke
  have hw4 : w.mem 4 = req[4]? := (hk3 4 (by omega) (by omega)).trans (hH.mem 4 (by omega))
  have hw4' : (w.mem 4).isSome := by rw [hw4, List.getElem?_eq_getElem (by omega)]; rfl
  rcases a with e | (_ | d)
  · obtain rfl : r = .error (.err e) := hg
    rw [bind_err hx]
    exact finish_err hw4'
  · obtain ⟨h, h0⟩ := hg
    obtain rfl : r = .ok () := h
    have h0 : w.len = 0 := h0
    rw [bind_run hx]
    have : (if direct (byte req 4) = true then Pure.pure () else encryptResponse env) w = (.ok (), w) := by
      split
      · rfl
      · unfold encryptResponse
        rw [bind_run len_run, if_pos (by omega)]; rfl
    rw [this]
    exact finish_none h0
  · obtain ⟨h, hwl, hat⟩ := hg
    obtain rfl : r = .ok () := h
    have hwl : w.len = 5 + d.length := hwl
    have hat : At w.mem 5 d := hat
    rw [bind_run hx]
    simp only
    have b0 := request_bytes hqp
    have htl : (req.take 5).length = 5 := by rw [List.length_take]; have := hqp.1; omega
    by_cases hend : byte req 4 = 0x84 ∧ byte req 5 = 2
    · rw [if_pos hend]
      have h3 : w.mem 3 = some (UInt8.ofNat (byte req 3 - byte req 3 / 32 % 2 * 32)) := hke hend.1 hend.2 rfl
      rw [hp3, hp, Nat.one_mul] at h3
      have hb3 := byte_lt msg 3
      have hw : Holds w (openHeader msg ++ d) := by
        refine ⟨by rw [List.length_append]; exact hwl, ?_⟩
        have : At w.mem 0 (openHeader msg ++ d) := by
          refine At.append ?_ hat
          intro j hj
          have hj : j < 5 := hj
          rw [Nat.zero_add]
          rcases (show j = 0 ∨ j = 1 ∨ j = 2 ∨ j = 3 ∨ j = 4 by omega) with rfl | rfl | rfl | rfl | rfl
          · exact ((hk3 0 (by omega) (by omega)).trans (hH.mem 0 (by omega))).trans (byte_get (x := 0x7E) (by omega) b0.1)
          · exact ((hk3 1 (by omega) (by omega)).trans (hH.mem 1 (by omega))).trans (byte_get (x := 0x14) (by omega) b0.2.1)
          · exact ((hk3 2 (by omega) (by omega)).trans (hH.mem 2 (by omega))).trans (byte_get (x := 0x14) (by omega) b0.2.2)
          · exact h3
          · exact hw4.trans (byte_get (x := 0x84) (by omega) hend.1)
        intro i hi
        have := this i hi
        rwa [Nat.zero_add] at this
      have hbit : byte (openHeader msg ++ d) 3 = byte msg 3 - 32 := by
        show (UInt8.ofNat (byte msg 3 - 32)).toNat = _
        rw [UInt8.toNat_ofNat']; omega
      have hrun : (if direct (byte req 4) = true then Pure.pure () else encryptResponse env) w = (.ok (), w) := by
        rw [hend.1, if_neg (by decide)]
        unfold encryptResponse
        have hv' : ∀ i, 0 ≤ i → i < (openHeader msg ++ d).length → w.mem i = (openHeader msg ++ d)[i]? := fun i _ hi => hw.mem i hi
        have hlen' : 5 ≤ (openHeader msg ++ d).length := by rw [List.length_append]; exact Nat.le_add_right 5 _
        rw [bind_run len_run, if_neg (by omega), bind_run (u8_run hv' (by omega) (by omega) (by omega)), bind_run (u16_run hv' (by omega) (by omega) (by omega)),
          bind_run (u8_run hv' (by omega) (by omega) (by omega)), hbit, if_pos (by simp; omega)]
        rfl
      rw [hrun]
      refine finish_buffer ?_ rfl rfl rfl ?_ ?_ ?_
      · rw [List.length_append]; exact Nat.le_trans (by decide) (Nat.le_add_right 5 _)
      · rw [hbit]; omega
      · exact hw.len
      · intro i hi; rw [Nat.zero_add]; exact hw.mem i hi
    · rw [if_neg hend]
      have hk := hkw hend
      have hw : Holds w (req.take 5 ++ d) := by
        refine ⟨by rw [List.length_append, htl]; exact hwl, ?_⟩
        have : At w.mem 0 (req.take 5 ++ d) := by
          refine At.append ?_ (by rw [htl]; exact hat)
          intro j hj
          rw [htl] at hj
          rw [Nat.zero_add, List.getElem?_take_of_lt hj]
          exact (hk j hj).trans (hH.mem j (by omega))
        intro i hi
        have := this i hi
        rwa [Nat.zero_add] at this
      have hl' : (req.take 5 ++ d).length = 5 + d.length := by rw [List.length_append, htl]
      have hby : ∀ i, i < 5 → byte (req.take 5 ++ d) i = byte req i := fun i hi => byte_take hi (by omega)
      have hqw : Request (req.take 5 ++ d) := by
        refine ⟨by omega, by rw [hby 0 (by omega)]; exact hqp.2.1, ?_⟩
        unfold word
        rw [hby 1 (by omega), hby 2 (by omega)]; exact hqp.2.2
      by_cases hdir : byte req 4 = 0xD0 ∨ byte req 4 = 0xD1
      · rw [if_pos hdir, if_pos (by unfold direct; simpa using hdir)]
        show finishResponse env0 code _ (.ok (), w) = _
        refine finish_buffer (by omega) hqw.2.1 (request_bytes hqw).2.1 (request_bytes hqw).2.2 (by rw [hby 3 (by omega), hp3]) hw.len ?_
        intro i hi; rw [Nat.zero_add]; exact hw.mem i hi
      · rw [if_neg hdir, if_neg (show ¬ direct (byte req 4) = true by unfold direct; simpa using hdir)]
        have hdrop : (req.take 5 ++ d).drop 4 = UInt8.ofNat (byte req 4) :: d := by
          rw [List.drop_append_of_le_length (by omega), List.drop_take, byte_eq (by omega)]
          rw [List.drop_eq_getElem_cons (by omega)]
          show [req[4]] ++ d = _
          rw [UInt8.ofNat_toNat]; rfl
        rcases encrypt_exact he hm hw hqw (by rw [hby 3 (by omega), hp3]; exact hp) with ⟨hlim, hrun⟩ | ⟨hlim, hrun⟩
        · rw [if_pos (by omega), hrun]
          exact finish_err hw4'
        · rw [if_neg (by omega)]
          rw [hdrop] at hrun
          simp only at hrun
          by_cases h0 : (env.reply w.calls (.encrypt (UInt8.ofNat (byte req 4) :: d))).rc = .ok 0
          · rw [if_pos h0] at hrun
            obtain ⟨hrl, hrun⟩ := hrun
            rw [hrun]
            refine ⟨w.calls, rfl, ?_⟩
            rw [if_pos h0]
            have ht4 : (msg.take 4).length = 4 := by rw [List.length_take]; omega
            have hb' : ∀ i, i < 4 → byte (msg.take 4 ++ (env.reply w.calls (.encrypt (UInt8.ofNat (byte req 4) :: d))).data) i = byte msg i :=
              fun i hi => byte_take hi (by omega)
            obtain ⟨m0, m1, m2⟩ := request_bytes hq
            refine finish_buffer ?_ ?_ ?_ ?_ ?_ ?_ ?_
            · rw [List.length_append, ht4]; omega
            · rw [hb' 0 (by omega)]; exact m0
            · rw [hb' 1 (by omega)]; exact m1
            · rw [hb' 2 (by omega)]; exact m2
            · rw [hb' 3 (by omega)]
            · show (req.take 5 ++ d).length + 28 = _
              rw [List.length_append (as := msg.take 4), ht4, hrl]; omega
            · refine At.append (At.skip (by right; rw [ht4]; omega) ?_) (by rw [ht4]; exact At.upd)
              intro j hj
              rw [ht4] at hj
              rw [Nat.zero_add, ← hp4, List.getElem?_take_of_lt hj]
              exact (hk j (by omega)).trans (hH.mem j (by omega))
          · rw [if_neg h0] at hrun
            rw [hrun]
            refine ⟨w.calls, rfl, ?_⟩
            rw [if_neg h0]
            refine finish_err ?_
            show ((upd w.mem 4 _) 4).isSome
            unfold upd
            split
            · rw [List.getElem?_eq_getElem (by omega)]; rfl
            · exact hw4'

theorem serve_encrypted {env : Env} (he : Faithful env) (il : ItemLen) (code : Err → Nat) {neg ka : Nat} {msg : Bytes} (hn : 40 ≤ neg)
    (hq : Request msg) (hl : msg.length ≤ 4096) (hres : reserved msg = false) (hp : byte msg 3 / 32 % 2 = 1)
    (hr : ¬ Ragged (plain env msg)) (ht : Terminated (plain env msg)) :
    SentFor code { env with maxResp := min neg 4096 } msg (serve il env code neg ka msg).1 (serve il env code neg ka msg).2.calls
      (sessionAnswer { env with maxResp := min neg 4096 } il msg) := by
  have hcap := he.cap
  have e : ({ env with maxResp := min neg env.cap } : Env) = { env with maxResp := min neg 4096 } :=
    congrArg (fun n => ({ env with maxResp := n } : Env)) (show min neg env.cap = min neg 4096 by rw [hcap])
  rw [serve_run il code neg ka hq, e, request_plain (env := { env with maxResp := min neg 4096 }) (show 5 ≤ env.cap by omega) il (init_holds msg ka) hq hres, if_pos hp]
  exact encrypted_run (env0 := env) (faithful_max he _) il code (show 40 ≤ min neg 4096 by omega) (show min neg 4096 ≤ 4096 by omega) hq hl hp hr ht

end Verif.Protocol
