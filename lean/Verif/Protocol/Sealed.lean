import Verif.Protocol.Keep
/-! Responses with the encryption bit, certificates in parts. -/
namespace Verif.Protocol
open Spec

theorem unless_true_bind {e : Err} {f : Unit → M β} : (unlessErr true e >>= f) = fail e := by
  funext s; rfl

theorem keeps_exchangeKeys_plain {env : Env} (h : env.encrypted = false) : Keeps 5 (exchangeKeys env) := by
  unfold exchangeKeys
  simp only [h, Bool.not_false, unless_true_bind]
  repeat' kstep

theorem keeps_plain {il : ItemLen} {env : Env} {cmd : Nat} (h : env.encrypted = false) : Keeps 5 (handler il env cmd) := by
  by_cases hc : cmd = 0x84
  · subst hc; exact keeps_exchangeKeys_plain h
  · exact keeps_handler hc

theorem keeps_any {il : ItemLen} {env : Env} {cmd : Nat} : Keeps 3 (handler il env cmd) := by
  by_cases hc : cmd = 0x84
  · subst hc; exact keeps_exchangeKeys
  · exact fun s j h1 h2 => keeps_handler hc s j h1 (by omega)

/-- What is sent is the message in the buffer, or an error message. -/
theorem finish_sent {env : Env} {code : Err → Nat} {rq : Nat} (hq : rq < 2) {r : Except Stop Unit × St} {b : Bytes}
    (h : finishResponse env code rq r = .sent (b.map some)) :
    (byte b 3 / 32 % 2 = 0 ∧ ∃ c d, b = errorMessage rq c d) ∨
    (∃ t, r = (.ok (), t) ∧ b.length = t.len ∧ t.len ≠ 0 ∧ (∀ i, 4 ≤ i → i < t.len → t.mem i = b[i]?) ∧
      (∀ i, 3 ≤ i → i < t.len → (t.mem i).isSome) ∧
      ∀ x, 3 < t.len → t.mem 3 = some x → byte b 3 % 128 = x.toNat % 128) := by
  have err : ∀ c d, (errorMessage rq c d).map some = b.map some → byte b 3 / 32 % 2 = 0 ∧ ∃ c d, b = errorMessage rq c d := by
    intro c d h
    have : b = errorMessage rq c d := (List.map_inj_right (fun _ _ h => Option.some.inj h)).1 h.symm
    refine ⟨?_, c, d, this⟩
    rw [this]
    show (UInt8.ofNat (rq * 128)).toNat / 32 % 2 = 0
    rcases (show rq = 0 ∨ rq = 1 by omega) with rfl | rfl <;> rfl
  obtain ⟨r | r, t⟩ := r
  · rcases r with e | - | -
    · unfold finishResponse at h
      simp only at h
      split at h
      · cases h
      · exact .inl (err _ _ (Outcome.sent.inj h))
    · cases h
    · cases h
  · unfold finishResponse at h
    simp only at h
    split at h
    · exact .inl (err _ _ (Outcome.sent.inj h))
    · rename_i hne
      have h := Outcome.sent.inj h
      have hlen : b.length = t.len := by
        have := congrArg List.length h
        simpa using this.symm
      have hi : ∀ i, i < t.len → (if i = 3 then (upd t.mem 0 [0x7E, 0x14, 0x14] 3).map fun b => UInt8.ofNat (b.toNat % 128 + rq * 128)
          else upd t.mem 0 [0x7E, 0x14, 0x14] i) = b[i]? := by
        intro i hi
        have := congrArg (fun l => l[i]?) h
        simp only [List.getElem?_map, List.getElem?_range hi, Option.map_some] at this
        rw [List.getElem?_eq_getElem (by omega)] at this ⊢
        simpa using this
      refine .inr ⟨t, rfl, hlen, hne, fun i h4 hil => ?_, fun i h3 hil => ?_, fun x h3 hx => ?_⟩
      · have := hi i hil
        rw [if_neg (by omega)] at this
        rw [← this]
        unfold upd
        rw [if_neg (by simp; omega)]
      · have := hi i hil
        rw [List.getElem?_eq_getElem (by omega)] at this
        by_cases h : i = 3
        · subst h
          rw [if_pos rfl] at this
          simp [upd] at this
          obtain ⟨a, ha, -⟩ := this
          rw [ha]; rfl
        · rw [if_neg h] at this
          unfold upd at this
          rw [if_neg (by simp; omega)] at this
          rw [this]; rfl
      · have := hi 3 h3
        rw [if_pos rfl] at this
        simp [upd, hx] at this
        rw [byte, List.getD_eq_getElem?_getD, ← this]
        have := x.toNat_lt
        rcases (show rq = 0 ∨ rq = 1 by omega) with rfl | rfl <;> simp

theorem bytes_any {env : Env} {s : St} : ∀ {i n : Nat}, (∃ p : Bytes, bytes env i n s = (.ok p, s) ∧ p.length = n) ∨ ∃ e, bytes env i n s = (.error e, s)
    | _, 0 => .inl ⟨[], rfl, rfl⟩
    | i, n + 1 => by
      unfold bytes
      have h8 : (∃ v, u8 env i s = (.ok v, s)) ∨ ∃ e, u8 env i s = (.error e, s) := by
        unfold u8; split
        · exact .inr ⟨_, rfl⟩
        · split
          · exact .inr ⟨_, rfl⟩
          · exact .inl ⟨_, rfl⟩
      rcases h8 with ⟨v, hv⟩ | ⟨e, hv⟩
      · rw [bind_run hv]
        rcases bytes_any (env := env) (s := s) (i := i + 1) (n := n) with ⟨p, hp, hl⟩ | ⟨e, hp⟩
        · rw [bind_run hp]; exact .inl ⟨_, rfl, by simp [hl]⟩
        · rw [bind_err hp]; exact .inr ⟨_, rfl⟩
      · rw [bind_err hv]; exact .inr ⟨_, rfl⟩

/-- Encryption of a response. -/
theorem encrypt_run {env : Env} (he : Faithful env) {s t : St} (hm : env.maxResp ≤ 4096)
    (h0 : s.mem 0 = some 0x7E) (h1 : s.mem 1 = some 0x14) (h2 : s.mem 2 = some 0x14) {x : UInt8} (h3 : s.mem 3 = some x)
    (h : encryptResponse env s = (.ok (), t)) :
    ((s.len < 5 ∨ x.toNat / 32 % 2 = 0) ∧ t = s) ∨
    ∃ p r, r = env.reply s.calls (.encrypt p) ∧ r.data.length = p.length + 28 ∧ t.calls = .encrypt p :: s.calls ∧ t.len = s.len + 28 ∧ p.length = s.len - 4 ∧ 5 ≤ s.len ∧
      t.mem = upd s.mem 4 r.data := by
  have hcap := he.cap
  unfold encryptResponse at h
  rw [bind_run len_run] at h
  by_cases h5 : s.len < 5
  · rw [if_pos h5] at h
    cases h
    exact .inl ⟨.inl h5, rfl⟩
  · rw [if_neg h5] at h
    have r8 : ∀ {i : Nat} {b : UInt8}, i < env.cap → s.mem i = some b → u8 env i s = (.ok b.toNat, s) := by
      intro i b hi hb
      unfold u8; rw [if_neg (by omega), hb]
    rw [bind_run (r8 (by omega) h0)] at h
    have r16 : u16 env 1 s = (.ok 0x1414, s) := by
      unfold u16
      rw [bind_run (r8 (by omega) h1), bind_run (r8 (by omega) h2)]
      rfl
    rw [bind_run r16, bind_run (r8 (by omega) h3)] at h
    by_cases hx : x.toNat / 32 % 2 = 0
    · rw [if_pos (by simp [hx])] at h
      cases h
      exact .inl ⟨.inr hx, rfl⟩
    · rw [if_neg (by simp [hx])] at h
      rcases hlim : decide (s.len + 28 > env.maxResp) with _ | _
      rotate_left
      · rw [hlim, bind_err unless_true] at h; cases h
      rw [hlim, bind_run unless_false] at h
      simp only [decide_eq_false_iff_not] at hlim
      have hb : (∃ p : Bytes, bytes env 4 (s.len - 4) s = (.ok p, s) ∧ p.length = s.len - 4) ∨ ∃ e, bytes env 4 (s.len - 4) s = (.error e, s) := bytes_any
      rcases hb with ⟨p, hp, hpl⟩ | ⟨e, hp⟩
      · rw [bind_run hp] at h
        have ha := he.answer s.calls (.encrypt p)
        generalize hr : env.reply s.calls (.encrypt p) = r at ha
        obtain ⟨ha1, ha2⟩ := ha
        have hcall : callAt env 4 (.encrypt p) s = (.ok r, { s with mem := upd s.mem 4 r.data, calls := .encrypt p :: s.calls }) := by
          unfold callAt
          rw [bind_run (m := call env _) (s := s) (x := r) (t := { s with calls := .encrypt p :: s.calls }) (by unfold call; rw [hr])]
          rw [bind_run (put_run he (by omega))]
          rfl
        rw [bind_run hcall] at h
        unfold done at h
        split at h
        · rename_i h0
          cases h
          exact .inr ⟨p, r, hr.symm, ha2 _ h0, rfl, rfl, hpl, by omega, rfl⟩
        · cases h
      · rw [bind_err hp] at h; cases h

theorem ok_of_bind {m : M α} {f : α → M β} {s t : St} {y : β} (h : (m >>= f) s = (.ok y, t)) :
    ∃ x u, m s = (.ok x, u) ∧ f x u = (.ok y, t) := by
  rcases hm : m s with ⟨r | r, u⟩
  · rw [bind_err hm] at h; cases h
  · rw [bind_run hm] at h; exact ⟨_, _, rfl, h⟩

theorem u8_same {env : Env} {i v : Nat} {s t : St} (h : u8 env i s = (.ok v, t)) : t = s := by
    unfold u8 at h
    split at h
    · cases h
    · split at h
      · cases h
      · cases h; rfl

theorem u16_same {env : Env} {i v : Nat} {s t : St} (h : u16 env i s = (.ok v, t)) : t = s := by
    unfold u16 at h
    obtain ⟨_, u, hu, h⟩ := ok_of_bind h
    obtain ⟨_, w, hw, h⟩ := ok_of_bind h
    cases h
    rw [u8_same hw, u8_same hu]

/-- Encryption bit after a request has been handled. -/
theorem request_sealed {env : Env} (he : Faithful env) (il : ItemLen) {msg : Bytes} {s t : St} (h2 : env.maxResp ≤ 4096)
    (hl : 5 ≤ msg.length) (hc : msg.length ≤ 4096) (hs : Holds s msg) (h0 : s.calls = [])
    (hh : byte msg 0 = 0x7E ∧ word msg 1 = 0x1414)
    (h : processRequest il env s = (.ok (), t)) (h5 : 5 ≤ t.len) {x : UInt8} (hx3 : t.mem 3 = some x) (hx : x.toNat / 32 % 2 = 1) :
    byte msg 3 / 32 % 2 = 1 ∧ (direct (byte (plain env msg) 4) = true ∨
      ∃ p, t.calls = .encrypt p :: t.calls.tail ∧ (env.reply t.calls.tail (.encrypt p)).data.length = t.len - 4 ∧
        ∀ i, 4 ≤ i → i < t.len → t.mem i = (env.reply t.calls.tail (.encrypt p)).data[i - 4]?) := by
  have hcap := he.cap
  have hv : ∀ i, 0 ≤ i → i < msg.length → s.mem i = msg[i]? := fun i _ h => hs.mem i h
  have m0 : s.mem 0 = some 0x7E := by
    rw [hs.mem 0 (by omega), List.getElem?_eq_getElem (by omega)]
    congr 1
    have := hh.1; rw [byte_eq (by omega)] at this
    exact UInt8.toNat_inj.1 this
  have b1 : byte msg 1 = 0x14 ∧ byte msg 2 = 0x14 := by
    have : byte msg 1 + 256 * byte msg 2 = 0x1414 := hh.2
    have := byte_lt msg 1; have := byte_lt msg 2
    omega
  have m1 : s.mem 1 = some 0x14 := by
    rw [hs.mem 1 (by omega), List.getElem?_eq_getElem (by omega)]
    congr 1
    have := b1.1; rw [byte_eq (by omega)] at this
    exact UInt8.toNat_inj.1 this
  have m2 : s.mem 2 = some 0x14 := by
    rw [hs.mem 2 (by omega), List.getElem?_eq_getElem (by omega)]
    congr 1
    have := b1.2; rw [byte_eq (by omega)] at this
    exact UInt8.toNat_inj.1 this
  unfold processRequest at h
  rw [bind_run len_run, hs.len] at h
  rw [show decide (msg.length < 5) = false by simpa using hl, bind_run unless_false] at h
  obtain ⟨_, u, hu, h'⟩ := ok_of_bind h
  clear h
  have h := h'
  clear h'
  have hus : u = s := by
    unfold checkHeader at hu
    rw [bind_run (u8_run hv (by omega) (by omega) (by omega)), bind_run (u16_run hv (by omega) (by omega) (by omega))] at hu
    rcases hb : (byte msg 0 % 128 != 0x7E || byte msg 0 / 128 == 1 || word msg 1 != 0x1414) with _ | _
    · rw [hb, bind_run unless_false, bind_run (u8_run hv (by omega) (by omega) (by omega))] at hu
      rcases hb : (byte msg 3 % 32 != 0 || byte msg 3 / 64 % 2 != 0) with _ | _
      · rw [hb] at hu; cases hu; rfl
      · rw [hb] at hu; cases hu
    · rw [hb, bind_err unless_true] at hu; cases hu
  subst hus
  rw [bind_run (u8_run hv (by omega) (by omega) (by omega))] at h
  by_cases hb : byte msg 3 / 32 % 2 = 1
  · rw [if_pos hb] at h
    refine ⟨hb, ?_⟩
    unfold processEncrypted at h
    rcases decrypt_run he hs.mem hl hc h0 with ⟨-, e, t, hd, h4⟩ | ⟨-, hl33, -, hdl, hd⟩
    · rw [bind_err hd] at h; cases h
    · rw [bind_run hd] at h
      have ho := opened_holds he hs hb hl33 hdl
      have hpl : (plain env msg).length = msg.length - 28 := ho.len.symm
      have o0 : (opened msg u (env.reply [] (.decrypt msg (msg.length - 32))).data).mem 0 = some 0x7E := by
        unfold opened upd; simp only; rw [if_neg (by omega)]; exact m0
      have o1 : (opened msg u (env.reply [] (.decrypt msg (msg.length - 32))).data).mem 1 = some 0x14 := by
        unfold opened upd; simp only; rw [if_neg (by omega)]; exact m1
      have o2 : (opened msg u (env.reply [] (.decrypt msg (msg.length - 32))).data).mem 2 = some 0x14 := by
        unfold opened upd; simp only; rw [if_neg (by omega)]; exact m2
      generalize opened msg u _ = so at ho h o0 o1 o2
      have hv' : ∀ i, 0 ≤ i → i < (plain env msg).length → so.mem i = (plain env msg)[i]? := fun i _ hi => ho.mem i hi
      rw [bind_run (u8_run hv' (by omega) (by omega) (by omega))] at h
      obtain ⟨_, w, hw, h⟩ := ok_of_bind h
      by_cases hdir : direct (byte (plain env msg) 4) = true
      · exact .inl hdir
      · right
        rw [if_neg hdir] at h
        have hk := keeps_any (il := il) (env := { env with maxResp := (env.maxResp + env.size - 28) % env.size, encrypted := true }) (cmd := byte (plain env msg) 4) so
        rw [hw] at hk
        have w0 : w.mem 0 = some 0x7E := (hk 0 (by omega) (by omega)).trans o0
        have w1 : w.mem 1 = some 0x14 := (hk 1 (by omega) (by omega)).trans o1
        have w2 : w.mem 2 = some 0x14 := (hk 2 (by omega) (by omega)).trans o2
        have w3 : w.mem 3 = some x := by
          rcases h3 : w.mem 3 with _ | y
          · by_cases hl5 : w.len < 5
            · unfold encryptResponse at h
              rw [bind_run len_run, if_pos hl5] at h
              cases h; rw [h3] at hx3; cases hx3
            · unfold encryptResponse at h
              rw [bind_run len_run, if_neg hl5] at h
              obtain ⟨_, w', hw', h⟩ := ok_of_bind h
              have e1 : w' = w := u8_same hw'
              subst e1
              obtain ⟨_, w'', hw'', h⟩ := ok_of_bind h
              have e2 : w'' = w' := u16_same hw''
              subst e2
              obtain ⟨v, w3, hw3, h⟩ := ok_of_bind h
              unfold u8 at hw3
              rw [if_neg (by omega), h3] at hw3
              cases hw3
          · rcases encrypt_run he h2 w0 w1 w2 h3 h with ⟨-, rfl⟩ | ⟨p, r, -, -, -, -, -, -, hm⟩
            · rw [h3] at hx3; exact hx3
            · rw [hm] at hx3
              unfold upd at hx3
              rw [if_neg (by omega), h3] at hx3; exact hx3
        rcases encrypt_run he h2 w0 w1 w2 w3 h with ⟨hor, rfl⟩ | ⟨p, r, hr, hrl, hcl, htl, hpl', hw5, hm⟩
        · omega
        · refine ⟨p, by rw [hcl]; rfl, ?_, ?_⟩
          · rw [hcl, List.tail_cons, ← hr, hrl]; omega
          · intro i h4 hi
            rw [hcl, List.tail_cons, ← hr, hm]
            unfold upd
            rw [if_pos (by omega)]
  · rw [if_neg hb, bind_run (u8_run hv (by omega) (by omega) (by omega))] at h
    exfalso
    have hk := keeps_plain (il := il) (env := { env with encrypted := false }) (cmd := byte msg 4) rfl u 3 (by omega) (by omega)
    rw [h] at hk
    have hk : t.mem 3 = u.mem 3 := hk
    rw [hx3, hs.mem 3 (by omega), List.getElem?_eq_getElem (by omega)] at hk
    have := Option.some.inj hk
    rw [byte_eq (by omega), ← this] at hb
    exact hb hx

end Verif.Protocol
