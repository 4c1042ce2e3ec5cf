import Verif.Protocol.Serve
/-! Every accepted request gets a response. -/
namespace Verif.Protocol
open Spec

theorem faithful_with {env : Env} (he : Faithful env) (n : Nat) (b : Bool) :
    Faithful { env with maxResp := n, encrypted := b } := ⟨he.answer, he.size, he.cap, he.ids⟩

theorem bytes_run {env : Env} {msg : Bytes} {s : St} (hv : ∀ i, i < msg.length → s.mem i = msg[i]?)
    (hc : msg.length ≤ env.cap) : ∀ (n i : Nat), i + n ≤ msg.length → bytes env i n s = (.ok (slice msg i n), s)
  | 0, i, h => by simp [slice]; rfl
  | n + 1, i, h => by
    have hv' : ∀ i, 0 ≤ i → i < msg.length → s.mem i = msg[i]? := fun i _ hi => hv i hi
    unfold bytes
    rw [bind_run (u8_run hv' (by omega) (by omega) (by omega)), bind_run (bytes_run hv hc n (i + 1) (by omega))]
    show (Except.ok (UInt8.ofNat (byte msg i) :: slice msg (i + 1) n), s) = _
    rw [byte_eq (by omega)]
    simp only [slice, UInt8.ofNat_toNat]
    rw [List.drop_eq_getElem_cons (i := i) (by omega), List.take_succ_cons]

section
variable {env : Env} (he : Faithful env)
include he

theorem put_run {i : Nat} {data : Bytes} {s : St} (h : i + data.length ≤ env.cap) :
    put env i data s = (.ok (), { s with mem := upd s.mem i data }) := by
  unfold put; rw [if_neg (by rintro ⟨h1, -⟩; omega)]

/-- State after decryption. -/
def opened (msg : Bytes) (s : St) (data : Bytes) : St :=
  { s with mem := upd s.mem 4 data, len := msg.length - 28, calls := .decrypt msg (msg.length - 32) :: s.calls }

theorem decrypt_run {msg : Bytes} {s : St} (hv : ∀ i, i < msg.length → s.mem i = msg[i]?) (hl : 5 ≤ msg.length) (hc : msg.length ≤ 4096)
    (h0 : s.calls = []) :
    (¬ Opens env msg ∧ ∃ e t, decrypt env msg.length s = (.error (.err e), t) ∧ (t.mem 4).isSome) ∨
    (Opens env msg ∧ 33 < msg.length ∧ 33 < env.maxResp ∧ (env.reply [] (.decrypt msg (msg.length - 32))).data.length = msg.length - 32 ∧
      decrypt env msg.length s = (.ok (), opened msg s (env.reply [] (.decrypt msg (msg.length - 32))).data)) := by
  have hcap := he.cap
  have h4 : (s.mem 4).isSome := by rw [hv 4 (by omega), List.getElem?_eq_getElem (by omega)]; rfl
  unfold decrypt
  rcases hb1 : (!env.has .session) with _ | _
  rotate_left
  · exact .inl ⟨by rintro ⟨h, -⟩; simp [h] at hb1, _, _, bind_err unless_true, h4⟩
  rw [bind_run unless_false]
  rcases hb2 : (decide (msg.length ≤ 28 + 5)) with _ | _
  rotate_left
  · exact .inl ⟨by rintro ⟨-, h, -⟩; simp at hb2; omega, _, _, bind_err unless_true, h4⟩
  rw [bind_run unless_false]
  rcases hb3 : (decide (env.maxResp < msg.length - 28) || decide (env.maxResp ≤ 5 + 28)) with _ | _
  rotate_left
  · exact .inl ⟨by rintro ⟨-, -, h, h', -⟩; simp at hb3; omega, _, _, bind_err unless_true, h4⟩
  rw [bind_run unless_false]
  simp only [decide_eq_false_iff_not, Bool.or_eq_false_iff] at hb2 hb3
  rw [bind_run (bytes_run hv (by omega) _ _ (by omega)), show slice msg 0 msg.length = msg by simp [slice]]
  have ha := he.answer [] (.decrypt msg (msg.length - 32))
  have ho : Opens env msg ↔ (env.reply [] (.decrypt msg (msg.length - 32))).rc = .ok 0 :=
    ⟨fun h => h.2.2.2.2, fun h => ⟨by simpa using hb1, by omega, by omega, by omega, h⟩⟩
  generalize hr : env.reply [] (.decrypt msg (msg.length - 32)) = r at ha ho ⊢
  obtain ⟨ha1, ha2⟩ := ha
  have hcall : callAt env 4 (.decrypt msg (msg.length - 32)) s =
      (.ok r, { s with mem := upd s.mem 4 r.data, calls := .decrypt msg (msg.length - 32) :: s.calls }) := by
    unfold callAt
    rw [bind_run (m := call env _) (s := s) (x := r) (t := { s with calls := .decrypt msg (msg.length - 32) :: s.calls }) (by unfold call; rw [h0, hr])]
    rw [bind_run (put_run he (by omega))]
    rfl
  rw [bind_run hcall]
  unfold done
  split
  · rename_i h0
    exact .inr ⟨ho.2 h0, by omega, by omega, ha2 _ h0, rfl⟩
  · rename_i hne
    refine .inl ⟨fun h => hne (ho.1 h), _, _, rfl, ?_⟩
    show ((upd s.mem 4 r.data) 4).isSome
    unfold upd
    split
    · rw [List.getElem?_eq_getElem (by omega)]; rfl
    · exact h4

/-- A message that was decrypted is in the buffer. -/
theorem opened_holds {msg : Bytes} {s : St} (hs : Holds s msg) (hx : byte msg 3 / 32 % 2 = 1) (hl33 : 33 < msg.length)
    (hdl : (env.reply [] (.decrypt msg (msg.length - 32))).data.length = msg.length - 32) :
    Holds (opened msg s (env.reply [] (.decrypt msg (msg.length - 32))).data) (plain env msg) := by
  have hp : plain env msg = msg.take 4 ++ (env.reply [] (.decrypt msg (msg.length - 32))).data := by
    unfold plain; rw [if_pos hx]
  generalize hdata : (env.reply [] (.decrypt msg (msg.length - 32))).data = data at *
  have hpl : (plain env msg).length = msg.length - 28 := by
    rw [hp, List.length_append, List.length_take, hdl]; omega
  refine ⟨hpl.symm, ?_⟩
  intro i hi
  show upd s.mem 4 data i = _
  unfold upd
  rw [hp]
  by_cases h4 : i < 4
  · rw [if_neg (by omega), hs.mem i (by omega), List.getElem?_append_left (by rw [List.length_take]; omega), List.getElem?_take, if_pos h4]
  · rw [if_pos (by omega), List.getElem?_append_right (by rw [List.length_take]; omega), List.length_take, Nat.min_eq_left (by omega)]

theorem safe_encrypt {D : Nat → Prop} {l : Nat} (h2 : env.maxResp ≤ 4096) (hD : l = 0 ∨ (5 ≤ l ∧ l ≤ max env.maxResp 37 ∧ ∀ j, j < l → D j)) :
    J D l (encryptResponse env) (Sent env) := by
  have hcap := he.cap
  unfold encryptResponse
  rcases hD with rfl | ⟨h5, hm, hD⟩
  · refine J.bindQ (J.len (J.ite (fun _ => J.pure ?_) fun h => absurd (by decide) h))
    exact .inl rfl
  · refine J.bindQ (J.len (J.ite (fun h => by omega) fun _ => ?_))
    refine J.bindQ (J.u8 (by omega) (hD _ (by omega)) fun t ht => ?_)
    refine J.bindQ (J.u16 (by omega) (hD _ (by omega)) (hD _ (by omega)) fun v hv => ?_)
    refine J.bindQ (J.u8 (by omega) (hD _ (by omega)) fun f hf => ?_)
    refine J.ite (fun _ => J.pure (.inr ⟨h5, hm, hD⟩)) fun _ => ?_
    refine J.bindQ (J.unlessErr (hD _ (by omega)) fun hlim => ?_)
    simp only [decide_eq_false_iff_not] at hlim
    refine J.bindQ (J.bytes (by omega) (fun j _ _ => hD j (by omega)) fun d hd => ?_)
    refine J.bindQ (J.callAt he (fun r hr => ?_) fun r hr => ?_)
    · have := hr.1; omega
    · refine J.bindQ (J.done (.inl (hD _ (by omega))) fun h0 => J.setLen ?_)
      have := hr.2 _ h0
      refine .inr ⟨by omega, by omega, fun j hj => ?_⟩
      by_cases h : j < l
      · exact .inl (hD j h)
      · exact .inr ⟨by omega, by omega⟩

theorem Post.bindJ {m : M α} {f : α → M β} {s : St} {R Q} (hm : Post R (m s))
    (hf : ∀ x D l, R x D l → J D l (f x) Q) : Post Q ((m >>= f) s) := by
  show Post Q (match m s with | (.ok a, s) => f a s | (.error e, s) => (.error e, s))
  revert hm
  rcases m s with ⟨r | r, t⟩
  · cases r <;> exact id
  · rintro ⟨D', hk', hr⟩
    have := hf _ D' _ hr t hk' rfl
    unfold Post
    exact this

theorem safe_request (itemLen : ItemLen) {msg : Bytes} {s : St} (h1 : 40 ≤ env.maxResp) (h2 : env.maxResp ≤ 4096)
    (hl : 5 ≤ msg.length) (hc : msg.length ≤ 4096) (hs : Holds s msg) (h0 : s.calls = [])
    (hr : ¬ Ragged (plain env msg)) (ht : Terminated (plain env msg)) :
    Post (Sent env) (processRequest itemLen env s) := by
  have hcap := he.cap
  have hv : ∀ i, 0 ≤ i → i < msg.length → s.mem i = msg[i]? := fun i _ h => hs.mem i h
  have hk : Known s fun j => j < msg.length := fun j hj => by
    rw [hs.mem j hj, List.getElem?_eq_getElem hj]; rfl
  unfold processRequest
  rw [bind_run (m := len) (s := s) (x := s.len) (t := s) rfl, hs.len]
  rw [show decide (msg.length < 5) = false by simpa using hl, bind_run unless_false]
  unfold checkHeader
  simp only [M.assoc]
  rw [bind_run (u8_run hv (by omega) (by omega) (by omega)), bind_run (u16_run hv (by omega) (by omega) (by omega))]
  rcases (byte msg 0 % 128 != 0x7E || byte msg 0 / 128 == 1 || word msg 1 != 0x1414) with _ | _
  rotate_left
  · rw [bind_err unless_true]; exact hk 4 (by omega)
  rw [bind_run unless_false, bind_run (u8_run hv (by omega) (by omega) (by omega))]
  rcases (byte msg 3 % 32 != 0 || byte msg 3 / 64 % 2 != 0) with _ | _
  rotate_left
  · rw [bind_err unless_true]; exact hk 4 (by omega)
  rw [bind_run unless_false, bind_run (u8_run hv (by omega) (by omega) (by omega))]
  by_cases hx : byte msg 3 / 32 % 2 = 1
  · rw [if_pos hx]
    unfold processEncrypted
    rcases decrypt_run he hs.mem hl hc h0 with ⟨-, e, t, hd, h4⟩ | ⟨-, hl33, -, hdl, hd⟩
    · rw [bind_err hd]; exact h4
    · rw [bind_run hd]
      have ho := opened_holds he hs hx hl33 hdl
      have hpl : (plain env msg).length = msg.length - 28 := ho.len.symm
      generalize opened msg s _ = so at ho ⊢
      have hv' : ∀ i, 0 ≤ i → i < (plain env msg).length → so.mem i = (plain env msg)[i]? := fun i _ hi => ho.mem i hi
      have hk' : Known so fun j => j < (plain env msg).length := fun j hj => by
        rw [hv' j (by omega) hj, List.getElem?_eq_getElem hj]; rfl
      rw [bind_run (u8_run hv' (by omega) (by omega) (by omega))]
      have hroom : (env.maxResp + env.size - 28) % env.size = env.maxResp - 28 := by
        have := he.size
        rw [show env.maxResp + env.size - 28 = env.maxResp - 28 + env.size by omega, Nat.add_mod_right, Nat.mod_eq_of_lt (by omega)]
      rw [hroom]
      have hh := safe_handler (faithful_with he (env.maxResp - 28) true) (show 12 ≤ env.maxResp - 28 by omega) (show env.maxResp - 28 ≤ 4096 by omega)
        (by omega) (by omega) itemLen hr ht so hk' ho.len hv'
      refine Post.bindJ he hh fun _ D l hD => ?_
      have hD' : l = 0 ∨ (5 ≤ l ∧ l ≤ max env.maxResp 37 ∧ ∀ j, j < l → D j) := by
        rcases hD with h | ⟨h5, hm, h⟩
        · exact .inl h
        · exact .inr ⟨h5, by simp only at hm; omega, h⟩
      exact J.ite (fun _ => J.pure hD') fun _ => safe_encrypt he h2 hD'
  · rw [if_neg hx, bind_run (u8_run hv (by omega) (by omega) (by omega))]
    have hp : plain env msg = msg := by unfold plain; rw [if_neg hx]
    rw [hp] at hr ht
    exact safe_handler (faithful_with he env.maxResp false) (show 12 ≤ env.maxResp by omega) h2 hl hc itemLen hr ht s hk hs.len hv
end

theorem known_range {m : Nat → Option UInt8} : ∀ {n : Nat}, (∀ j, j < n → (m j).isSome) →
    ∃ b : Bytes, (List.range n).map m = b.map some ∧ b.length = n ∧ ∀ j, j < n → b[j]? = m j
  | 0, _ => ⟨[], rfl, rfl, fun j h => absurd h (by omega)⟩
  | n + 1, h => by
    obtain ⟨b, hb, hn, hj⟩ := known_range (m := m) (n := n) fun j hj => h j (by omega)
    obtain ⟨x, hx⟩ := Option.isSome_iff_exists.1 (h n (by omega))
    refine ⟨b ++ [x], by rw [List.range_succ, List.map_append, hb]; simp [hx], by simp [hn], fun j hjn => ?_⟩
    by_cases hlt : j < n
    · rw [List.getElem?_append_left (by omega), hj j hlt]
    · obtain rfl : j = n := by omega
      rw [List.getElem?_append_right (by omega)]; simp [hn, hx]

theorem errorMessage_response {limit rq code data : Nat} (hq : rq < 2) (hlim : 10 ≤ limit) :
    Response limit rq (.sent ((errorMessage rq code data).map some)) := by
  refine ⟨_, rfl, ?_, ?_, ?_, ?_⟩
  · simp [errorMessage, le_length]; omega
  · simp [errorMessage, le_length]
  · rfl
  · show (UInt8.ofNat (rq * 128)).toNat / 128 = rq
    rcases (show rq = 0 ∨ rq = 1 by omega) with rfl | rfl <;> rfl

theorem finish_response {env : Env} {code : Err → Nat} {rq limit : Nat} (hq : rq < 2) (hlim : 37 ≤ limit) (hm : env.maxResp ≤ limit)
    {r : Except Stop Unit × St} (h : Post (Sent env) r) {env' : Env} : Response limit rq (finishResponse env' code rq r) := by
  obtain ⟨r | r, t⟩ := r
  · rcases r with e | - | -
    · unfold finishResponse
      obtain ⟨x, hx⟩ := Option.isSome_iff_exists.1 (show (t.mem 4).isSome from h)
      simp only [hx]
      exact errorMessage_response hq (by omega)
    · exact h.elim
    · exact h.elim
  · obtain ⟨D, hk, hD⟩ := h
    unfold finishResponse
    simp only
    rcases hD with h0 | ⟨h5, hmx, hD⟩
    · rw [if_pos h0]; exact errorMessage_response hq (by omega)
    · rw [if_neg (by omega)]
      obtain ⟨b, hb, hn, hj⟩ := known_range (n := t.len) (m := fun i => if i = 3 then (upd t.mem 0 [0x7E, 0x14, 0x14] 3).map fun b => UInt8.ofNat (b.toNat % 128 + rq * 128)
          else upd t.mem 0 [0x7E, 0x14, 0x14] i) (by
        intro j hj
        have := hk j (hD j hj)
        by_cases h3 : j = 3
        · subst h3; simpa [upd] using this
        · rw [if_neg h3]
          unfold upd
          split
          · rename_i h; rw [List.getElem?_eq_getElem (by simpa using h.2)]; rfl
          · exact this)
      refine ⟨b, by rw [hb], by omega, by omega, ?_, ?_⟩
      · have e0 := hj 0 (by omega); have e1 := hj 1 (by omega); have e2 := hj 2 (by omega)
        simp [upd] at e0 e1 e2
        match b, hn with
        | [], hn => simp at hn; omega
        | [_], hn => simp at hn; omega
        | [_, _], hn => simp at hn; omega
        | x :: y :: z :: _, _ => simp at e0 e1 e2; simp [slice, e0, e1, e2]
      · have e3 := hj 3 (by omega)
        obtain ⟨x, hx⟩ := Option.isSome_iff_exists.1 (hk 3 (hD 3 (by omega)))
        simp [upd, hx] at e3
        rw [byte, List.getD_eq_getElem?_getD, e3]
        simp
        have := x.toNat_lt
        rcases (show rq = 0 ∨ rq = 1 by omega) with rfl | rfl <;> omega

end Verif.Protocol
