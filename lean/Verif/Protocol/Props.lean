import Verif.Protocol.Sizes
/-! Properties of the request handlers (C85–C90). -/
namespace Verif.Protocol
open Spec

/-! ### A device for examples -/

/-- A device with all parts, a certificate of 100 bytes, a firmware "ab" and a session whose
encryption appends 28 bytes. -/
def testReply (_ : List Call) : Call → Reply
  | .certificate _ _ => { rc := .ok 0, data := (List.range 100).map UInt8.ofNat }
  | .counters _ max => { rc := .ok 0, data := List.replicate max 7 }
  | .decrypt m max => { rc := .ok 0, data := (m.drop 4).take max ++ List.replicate (max - (m.drop 4).length) 0 }
  | .encrypt p => { rc := .ok 0, data := p.map (· ^^^ 0xFF) ++ List.replicate 28 9 }
  | .stack _ max => if 8 ≤ max then { rc := .ok 4, data := List.replicate 8 1 } else { rc := .err 3 }
  | .logRead _ _ max => { rc := .ok (min max 4200), data := List.replicate (min max 4200) 5 }
  | .authorize _ t => { rc := .ok 0, val := if t = some [1, 2] then 1 else 0 }
  | .challenge _ max => if 60 ≤ max then { rc := .ok 60, data := List.replicate 60 3 } else { rc := .err 3 }
  | .manifest _ _ | .manifestId _ | .addSession _ _ _ | .resetSession _ _ | .execute | .component _ _ | .prevState _ => { rc := .ok 0, val := 1 }
  | _ => { rc := .err 1 }

def testEnv : Env :=
  { maxResp := 4096, eid := 0x0A, has := fun _ => true, fwVersions := [some [0x31]], fwIds := fun _ _ => [[0x61, 0x62]],
    ids := [1, 2, 3, 4], reply := testReply }

theorem testEnv_faithful : Faithful testEnv := by
  refine ⟨fun cs c => ?_, by decide, rfl, by simp [testEnv]⟩
  show Answer c (testReply cs c)
  cases c
  all_goals first
    | trivial
    | (simp [testReply, Answer]; done)
    | (simp [testReply, Answer]; omega)
    | (unfold testReply; simp only []; split <;> simp [Answer]; done)
    | (unfold testReply; simp only []; split <;> simp [Answer] <;> omega)

/-! ### C85: memory -/

/-- Whatever a message contains, its handling stays within the message buffer and reads no byte left
over from earlier messages.  Missing for the full statement: negotiated sizes below 40, the two
`Ragged` requests, and supported firmware requests whose identifier is not terminated; each is
refuted below. -/
theorem requests_touch_only_their_buffer_partial {env : Env} (he : Faithful env) (itemLen : ItemLen) (code : Err → Nat)
    {negotiated keyAlg : Nat} {msg : Bytes} (hn : 40 ≤ negotiated) (hl : msg.length ≤ 4096)
    (hr : ¬ Ragged (plain env msg)) (ht : Terminated (plain env msg)) (f : Stop) :
    (serve itemLen env code negotiated keyAlg msg).1 ≠ .fault f := by
  by_cases hq : Request msg
  · obtain ⟨b, hb, -⟩ := serve_response he itemLen code (ka := keyAlg) hn hq hl hr ht
    rw [hb]; nofun
  · obtain ⟨e, h⟩ := accept_not hq
    unfold serve; rw [h]; nofun

/-- A message of the protocol with a command and data. -/
def message (flags cmd : UInt8) (data : Bytes) : Bytes := [0x7E, 0x14, 0x14, flags, cmd] ++ data

example : Request (message 0 0x02 (List.replicate 8 0)) ∧ ¬ Ragged (plain testEnv (message 0 0x02 (List.replicate 8 0))) ∧
    Terminated (plain testEnv (message 0 0x02 (List.replicate 8 0))) := by
  refine ⟨by decide, ?_, ?_⟩ <;> simp [Ragged, Terminated, plain, message, byte]

set_option maxRecDepth 100000 in
/-- Counterexample: with a negotiated size of 4 the room for a log is `size_t` wrapped around, and the
log is stored beyond the buffer. -/
theorem tiny_size_overruns : (serve (fun _ => 0) testEnv (fun _ => 0) 4 0 (message 0 0x50 [1, 0, 0, 0, 0])).1 = .fault .oob := by
  decide_cbv

/-- Counterexample: an identifier without terminator that is the beginning of a known one is compared
with bytes left over in the buffer. -/
theorem unterminated_id_reads_leftovers :
    (serve (fun _ => 0) testEnv (fun _ => 0) 4096 0 (message 0 0x5A [0, 0, 0, 0, 0, 0, 1, 0x61])).1 = .fault .stale := by
  decide_cbv

/-- Counterexample: an unseal request whose ciphertext ends one byte before the message does. -/
theorem short_unseal_reads_leftovers :
    (serve (fun _ => 0) testEnv (fun _ => 0) 4096 0 (message 0 0x89 [0, 0, 1, 0, 5, 1, 0, 6, 32])).1 = .fault .stale := by
  decide_cbv

/-! ### C86: responses -/

/-- Every message of the protocol gets exactly one response: completely determined, with the header of
the protocol, the request bit of the request, and no longer than the negotiated size.  Missing for the
full statement: as for C85. -/
theorem every_request_is_answered_partial {env : Env} (he : Faithful env) (itemLen : ItemLen) (code : Err → Nat)
    {negotiated keyAlg : Nat} {msg : Bytes} (hn : 40 ≤ negotiated) (hq : Request msg) (hl : msg.length ≤ 4096)
    (hr : ¬ Ragged (plain env msg)) (ht : Terminated (plain env msg)) :
    Response (min negotiated 4096) (byte msg 3 / 128) (serve itemLen env code negotiated keyAlg msg).1 :=
  serve_response he itemLen code hn hq hl hr ht

/-- Other messages get no response and have no effects. -/
theorem other_messages_are_dropped (itemLen : ItemLen) (env : Env) (code : Err → Nat) (negotiated keyAlg : Nat) {msg : Bytes}
    (hq : ¬ Request msg) :
    (∃ e, (serve itemLen env code negotiated keyAlg msg).1 = .dropped e) ∧
    (serve itemLen env code negotiated keyAlg msg).2.calls = [] ∧ (serve itemLen env code negotiated keyAlg msg).2.keyAlg = keyAlg := by
  obtain ⟨e, h⟩ := accept_not hq
  unfold serve; rw [h]
  exact ⟨⟨e, rfl⟩, rfl, rfl⟩

/-- The response to an unencrypted request is an error message or carries the command of the request. -/
theorem response_names_its_command {env : Env} (hc : 5 ≤ env.cap) (itemLen : ItemLen) (code : Err → Nat) {negotiated keyAlg : Nat}
    {msg b : Bytes} (hq : Request msg) (hp : byte msg 3 / 32 % 2 = 0)
    (h : (serve itemLen env code negotiated keyAlg msg).1 = .sent (b.map some)) (h5 : 5 ≤ b.length) :
    byte b 4 = 0x7F ∨ byte b 4 = byte msg 4 := by
  rw [serve_run itemLen code negotiated keyAlg hq] at h
  have hk := keeps_request (il := itemLen) (env := { env with maxResp := min negotiated env.cap }) (ka := keyAlg) hq.1 hc hp
  rcases finish_sent (env := env) (by have := byte_lt msg 3; omega) h with ⟨-, c, d, hb⟩ | ⟨t, ht, hl, h0, hm, -⟩
  · left; rw [hb]; rfl
  · right
    rw [ht] at hk
    have h4 := hm 4 (by omega) (by omega)
    rw [show t.mem 4 = msg[4]? from hk] at h4
    unfold byte
    simp only [List.getD_eq_getElem?_getD, h4]

example : (serve (fun _ => 0) testEnv (fun _ => 7) 40 0 (message 0x80 0x53 [1, 0, 0, 0, 0])).1 =
      .sent ((message 0x80 0x53 ([1] ++ List.replicate 12 7)).map some) ∧
    (serve (fun _ => 0) testEnv (fun _ => 7) 40 0 (message 0x80 0x53 [1, 0])).1 =
      .sent ((message 0x80 0x7F [4, 7, 0, 0, 0]).map some) := by
  decide_cbv

/-- Counterexample: with a negotiated size of 12 the attestation summary is longer than that. -/
theorem small_size_exceeded :
    ∃ b : Bytes, (serve (fun _ => 0) testEnv (fun _ => 0) 12 0 (message 0 0x53 [1, 0, 0, 0, 0])).1 = .sent (b.map some) ∧ b.length = 18 :=
  ⟨message 0 0x53 ([1] ++ List.replicate 12 7), by decide_cbv, rfl⟩

/-! ### C87: changes -/

/-- The changes made to the device (sessions, certificates, logs, firmware, manifests, recovery
images, flash configuration, resets) are exactly those the request asks for; a request that does not
have the required form changes nothing.  Missing for the full statement: negotiated sizes below 40 and
`Ragged` requests. -/
theorem changes_are_those_asked_for_partial {env : Env} (he : Faithful env) (itemLen : ItemLen) (code : Err → Nat)
    {negotiated keyAlg : Nat} {msg : Bytes} (hn : 40 ≤ negotiated) (hq : Request msg) (hl : msg.length ≤ 4096)
    (hr : ¬ Ragged (plain env msg)) :
    changes (serve itemLen env code negotiated keyAlg msg).2.calls =
      asked itemLen { env with maxResp := min negotiated 4096 } keyAlg msg :=
  serve_changes he itemLen code hn hq hl hr

/-- A command sent in plain text with a header that the protocol reserves changes nothing; nor does an
encrypted one that cannot be opened. -/
theorem refused_requests_change_nothing_partial {env : Env} (he : Faithful env) (itemLen : ItemLen) (code : Err → Nat)
    {negotiated keyAlg : Nat} {msg : Bytes} (hn : 40 ≤ negotiated) (hq : Request msg) (hl : msg.length ≤ 4096)
    (hr : ¬ Ragged (plain env msg))
    (h : reserved msg = true ∨ (byte msg 3 / 32 % 2 = 1 ∧ ¬ Opens { env with maxResp := min negotiated 4096 } msg)) :
    changes (serve itemLen env code negotiated keyAlg msg).2.calls = [] := by
  rw [serve_changes he itemLen code hn hq hl hr]
  unfold asked
  rcases h with h | ⟨h1, h2⟩
  · rw [if_pos h]
  · split
    · rfl
    · rw [if_neg (by omega)]

/-- Asking for a reset of the configuration: the operation runs only if its authorization succeeded
and named an operation. -/
theorem reset_only_if_authorized_partial {env : Env} (he : Faithful env) (itemLen : ItemLen) (code : Err → Nat)
    {negotiated keyAlg : Nat} {msg : Bytes} (hn : 40 ≤ negotiated) (hq : Request msg) (hl : msg.length ≤ 4096)
    (hp : byte msg 3 = 0) (hc : byte msg 4 = 0x6A) (h6 : 6 ≤ msg.length) :
    changes (serve itemLen env code negotiated keyAlg msg).2.calls =
      (let a := Call.authorize (byte msg 5) (if msg.length = 6 then none else some (msg.drop 6))
       if (env.reply [] a).rc = .ok 0 ∧ (env.reply [] a).val ≠ 0 then [a, .execute] else [a]) := by
  have hpl : plain env msg = msg := by unfold plain; rw [hp]; rfl
  rw [serve_changes he itemLen code hn hq hl (by rw [hpl]; rintro (⟨h, -⟩ | ⟨h, -⟩) <;> omega)]
  unfold asked
  rw [if_neg (by simp [reserved, hp]), if_pos (by rw [hp])]
  unfold effects
  simp only [hc, if_pos h6]
  repeat' split
  all_goals rfl

example : (changes (serve (fun _ => 0) testEnv (fun _ => 0) 4096 0 (message 0 0x6A [2, 1, 2])).2.calls =
      [.authorize 2 (some [1, 2]), .execute]) ∧
    (changes (serve (fun _ => 0) testEnv (fun _ => 0) 4096 0 (message 0 0x6A [2, 1, 3])).2.calls =
      [.authorize 2 (some [1, 3])]) := by
  decide_cbv

/-- Counterexample to sessions only for those who announced one: endpoint 0x0A announces a session
with its request for digests, endpoint 0x0B gets it with its challenge. -/
theorem session_of_another_endpoint :
    let r := serve (fun _ => 0) { testEnv with eid := 0x0A, reply := fun cs c => match c with
      | .digests .. => { rc := .ok 1, val := 1, data := List.replicate 32 0 } | c => testReply cs c } (fun _ => 0) 4096 0 (message 0 0x81 [0, 1])
    changes (serve (fun _ => 0) { testEnv with eid := 0x0B } (fun _ => 0) 4096 r.2.keyAlg
      (message 0 0x83 ([0, 0] ++ List.replicate 32 8))).2.calls = [.addSession 0x0B (List.replicate 32 8) (List.replicate 32 3)] := by
  decide_cbv

/-- Counterexample: a key exchange of type 1 that ends within its key length: the missing byte is
taken from the encryption trailer (here 9). -/
theorem short_key_exchange_reads_trailer :
    changes (serve (fun _ => 0) testEnv (fun _ => 0) 4096 0
      (message 0x20 0x84 ([1, 0] ++ List.replicate 28 9))).2.calls = [.pairedSession 0x0A 0x0900 (some [])] := by
  decide_cbv

/-! ### C88: certificates -/

/-- A certificate of any size that 16-bit offsets reach is read completely and without gaps or
repetitions by asking for the part behind what has been received until nothing comes, whatever the
negotiated size. -/
theorem certificate_is_read_in_parts {env : Env} (he : Faithful env) (itemLen : ItemLen) (code : Err → Nat) {negotiated keyAlg slot cert v : Nat}
    (hn : 12 ≤ negotiated) (hs : slot ≤ 7) (hc : cert < 256) (hr : (env.reply [] (.certificate slot cert)).rc = .ok v)
    (hd : (env.reply [] (.certificate slot cert)).data.length < 65536) :
    collect (fun off => payload (serve itemLen env code negotiated keyAlg (certRequest slot cert off)).1)
      ((env.reply [] (.certificate slot cert)).data.length + 1) 0 = (env.reply [] (.certificate slot cert)).data := by
  refine (collect_all (k := min negotiated 4096 - 7) (by omega) ?_ _ 0 (by omega) (by omega)).trans List.drop_zero
  intro off ho
  obtain ⟨hl, h5, h6, h7, h9⟩ := certRequest_facts (show slot < 256 by omega) hc (show off < 65536 by omega)
  rw [certificate_serve he itemLen code hn hl ⟨rfl, rfl⟩ (by simp [reserved, certRequest, byte]) (by simp [reserved, certRequest, byte]) rfl (by rw [h5]; exact hs) (by rw [h5, h6]; exact hr)]
  rw [payload_sent, h5, h6]
  unfold certPart
  rw [h7, h9, if_pos (Or.inl rfl)]
  rw [List.drop_left' (by rw [List.length_take, hl]; rfl)]

/-- Each response to such a request carries the slot and number asked for, and exactly the bytes asked
for, as far as the certificate and the negotiated size go. -/
theorem certificate_part {env : Env} (he : Faithful env) (itemLen : ItemLen) (code : Err → Nat) {negotiated keyAlg : Nat} {msg : Bytes} {v : Nat}
    (hn : 12 ≤ negotiated) (hl : msg.length = 11) (hq : Request msg) (hres : reserved msg = false) (hplain : byte msg 3 / 32 % 2 = 0)
    (hcmd : byte msg 4 = 0x82) (hslot : byte msg 5 ≤ 7) (hr : (env.reply [] (.certificate (byte msg 5) (byte msg 6))).rc = .ok v) :
    (serve itemLen env code negotiated keyAlg msg).1 =
      .sent ((msg.take 7 ++ certPart (min negotiated 4096) (env.reply [] (.certificate (byte msg 5) (byte msg 6))).data msg).map some) :=
  certificate_serve he itemLen code hn hl hq.2 hres hplain hcmd hslot hr

example : collect (fun off => payload (serve (fun _ => 0) testEnv (fun _ => 0) 40 0 (certRequest 1 2 off)).1) 101 0 =
    (List.range 100).map UInt8.ofNat := by
  decide_cbv

/-! ### C89: negotiated sizes -/

/-- No request of one endpoint changes the size of responses to another one.  Missing for the full
statement: requests that come from the endpoint identifier of the device itself (refuted below),
negotiated sizes below 40 and `Ragged` requests. -/
theorem sizes_are_isolated_partial {env : Env} (he : Faithful env) (itemLen : ItemLen) (code : Err → Nat) (times : Bytes) {devs : List Dev}
    {keyAlg eid other : Nat} {msg : Bytes} (hn : 40 ≤ maxMessageLen devs eid) (hl : msg.length ≤ 4096)
    (hr : ¬ Ragged (plain env msg)) (ho : other ≠ eid) (h0 : devNum devs eid ≠ some 0) :
    maxMessageLen (exchange itemLen env code times devs keyAlg eid msg).2.1 other = maxMessageLen devs other := by
  rcases exchange_devs he itemLen code times (ka := keyAlg) hn hl hr with h | ⟨n, h1, -, h⟩
  · rw [h]
  · rw [h]
    exact size_other h1 (fun hz => h0 (by rw [h1, hz])) ho

/-- Nor does any request other than one for device capabilities change the size of the requester. -/
theorem sizes_change_by_negotiation_partial {env : Env} (he : Faithful env) (itemLen : ItemLen) (code : Err → Nat) (times : Bytes)
    {devs : List Dev} {keyAlg eid : Nat} {msg : Bytes} (hn : 40 ≤ maxMessageLen devs eid) (hl : msg.length ≤ 4096)
    (hr : ¬ Ragged (plain env msg)) (hc : byte (plain env msg) 4 ≠ 0x02) :
    (exchange itemLen env code times devs keyAlg eid msg).2.1 = devs := by
  rcases exchange_devs he itemLen code times (ka := keyAlg) hn hl hr with h | ⟨n, -, h2, -⟩
  · exact h
  · exact (hc h2).elim

/-- Announcing a size makes it the limit of the requester, together with that of the device itself;
zero means the default. -/
theorem announced_size_is_used {env : Env} (he : Faithful env) (itemLen : ItemLen) (code : Err → Nat) (times : Bytes)
    {devs : List Dev} {keyAlg eid n : Nat} {msg : Bytes} (hn : 40 ≤ maxMessageLen devs eid) (hl : msg.length = 13) (hq : Request msg)
    (hp : byte msg 3 = 0) (hc : byte msg 4 = 0x02) (hd : devNum devs eid = some n) (h0 : n ≠ 0) :
    maxMessageLen (exchange itemLen env code times devs keyAlg eid msg).2.1 eid =
      min (msgSize ((devs[0]?.map Dev.caps).getD [])) (if word msg 5 = 0 then 4096 else word msg 5) := by
  have hpl : plain { env with eid, reply := devReply devs times env.reply } msg = msg := by
    unfold plain; rw [hp]; rfl
  have : (exchange itemLen env code times devs keyAlg eid msg).2.1 = setCaps devs n (slice msg 5 8) := by
    unfold exchange
    simp only
    rw [devsAfter_changes, serve_changes (faithful_dev he devs times eid) itemLen code hn hq (by omega)
      (by rw [hpl]; rintro (⟨h, -⟩ | ⟨h, -⟩) <;> omega)]
    unfold asked
    rw [if_neg (by simp [reserved, hp]), if_pos (by rw [hp])]
    unfold effects
    simp only [hc, if_pos hl, devReply, devsAfter, hd]
    rfl
  rw [this, size_own hd h0, caps_size]

/-- A device with two known endpoints. -/
def testDevs : List Dev := [⟨0x08, [0, 16, 0, 0, 0, 0, 0, 0]⟩, ⟨0x0A, [0, 4, 0, 0, 0, 0, 0, 0]⟩, ⟨0x0B, [0, 2, 0, 0, 0, 0, 0, 0]⟩]

example : maxMessageLen testDevs 0x0A = 1024 ∧ maxMessageLen testDevs 0x0B = 512 ∧ devNum testDevs 0x0A = some 1 ∧
    maxMessageLen (exchange (fun _ => 0) testEnv (fun _ => 0) [1, 2] testDevs 0 0x0A (message 0 0x02 [0, 1, 0, 0, 0, 0, 0, 0])).2.1 0x0A = 256 ∧
    maxMessageLen (exchange (fun _ => 0) testEnv (fun _ => 0) [1, 2] testDevs 0 0x0A (message 0 0x02 [0, 1, 0, 0, 0, 0, 0, 0])).2.1 0x0B = 512 := by
  decide_cbv

/-- Counterexample: a request that claims to come from the device's own endpoint identifier sets the
limit for everyone. -/
theorem own_endpoint_limits_everyone :
    maxMessageLen (exchange (fun _ => 0) testEnv (fun _ => 0) [1, 2] testDevs 0 0x08 (message 0 0x02 [4, 0, 0, 0, 0, 0, 0, 0])).2.1 0x0B = 4 := by
  decide_cbv

set_option maxRecDepth 100000 in
/-- Counterexample: an endpoint can negotiate a size below the smallest response, and its next log
request is then stored beyond the buffer. -/
theorem negotiated_overrun :
    let devs := (exchange (fun _ => 0) testEnv (fun _ => 0) [1, 2] testDevs 0 0x0A (message 0 0x02 [4, 0, 0, 0, 0, 0, 0, 0])).2.1
    (exchange (fun _ => 0) testEnv (fun _ => 0) [1, 2] devs 0 0x0A (message 0 0x50 [1, 0, 0, 0, 0])).1 = .fault .oob := by
  decide_cbv

/-! ### C90: encryption -/

/-- A response whose header says that it is encrypted answers an encrypted request, and everything
behind the header is the output of the session's encryption.  Missing for the full statement: the
diagnostic commands for heap and stack, which are refuted below. -/
theorem marked_responses_are_encrypted_partial {env : Env} (he : Faithful env) (itemLen : ItemLen) (code : Err → Nat)
    {negotiated keyAlg : Nat} {msg b : Bytes} (hq : Request msg) (hl : msg.length ≤ 4096)
    (h : (serve itemLen env code negotiated keyAlg msg).1 = .sent (b.map some)) (h5 : 5 ≤ b.length) (hb : byte b 3 / 32 % 2 = 1)
    (hd : byte (plain env msg) 4 ≠ 0xD0 ∧ byte (plain env msg) 4 ≠ 0xD1) :
    byte msg 3 / 32 % 2 = 1 ∧
    ∃ p cs, (serve itemLen env code negotiated keyAlg msg).2.calls = .encrypt p :: cs ∧ b.drop 4 = (env.reply cs (.encrypt p)).data := by
  have hcap := he.cap
  rw [serve_run itemLen code negotiated keyAlg hq] at h ⊢
  rcases finish_sent (env := env) (by have := byte_lt msg 3; omega) h with ⟨h0, -⟩ | ⟨t, ht, hlen, h0, hm, hsome, h3⟩
  · omega
  · obtain ⟨x, hx⟩ := Option.isSome_iff_exists.1 (hsome 3 (by omega) (by omega))
    have hx' := h3 x (by omega) hx
    obtain ⟨h1, hr⟩ := request_sealed (faithful_max he (min negotiated env.cap)) itemLen (s := St.init msg keyAlg)
      (show min negotiated env.cap ≤ 4096 by omega) hq.1 hl (init_holds msg keyAlg) rfl hq.2 ht (by omega) hx (by omega)
    refine ⟨h1, ?_⟩
    rcases hr with hr | ⟨p, hc, hle, hby⟩
    · unfold direct at hr
      have e : plain { env with maxResp := min negotiated env.cap } msg = plain env msg := rfl
      rw [e] at hr
      simp at hr
      exact absurd hr (by omega)
    · refine ⟨p, t.calls.tail, by rw [ht]; exact hc, ?_⟩
      apply List.ext_getElem?
      intro i
      rw [List.getElem?_drop]
      by_cases hi : 4 + i < t.len
      · rw [← hm (4 + i) (by omega) hi, hby (4 + i) (by omega) hi, Nat.add_sub_cancel_left]
      · rw [List.getElem?_eq_none (by omega), List.getElem?_eq_none (by
          have hle' : (env.reply t.calls.tail (.encrypt p)).data.length = t.len - 4 := hle
          omega)]

set_option maxRecDepth 100000 in
/-- An encrypted request for a log is answered with encrypted data. -/
example : ∃ b : Bytes, (serve (fun _ => 0) testEnv (fun _ => 0) 100 0 (message 0x20 0x50 ([1, 0, 0, 0, 0] ++ List.replicate 28 0))).1 = .sent (b.map some) ∧
    b.drop 4 = [0xFF ^^^ 0x50] ++ List.replicate 67 (0xFF ^^^ 5) ++ List.replicate 28 9 :=
  ⟨[0x7E, 0x14, 0x14, 0x20, 0xAF] ++ List.replicate 67 0xFA ++ List.replicate 28 9, by decide_cbv, rfl⟩

/-- Counterexample: stack statistics asked for within a session come back in plain text, with the
header still saying that they are encrypted. -/
theorem stack_statistics_in_plain_text :
    (serve (fun _ => 0) testEnv (fun _ => 0) 4096 0 (message 0x20 0xD1 ([0, 0, 0, 0] ++ List.replicate 28 0))).1 =
      .sent ((message 0x20 0xD1 (List.replicate 8 1)).map some) := by
  decide_cbv

/-- Requests without data (such as the one for an unsealed key) cannot be sent within a session: the
encrypted message is taken to be too short, and an error message is the response. -/
theorem empty_requests_cannot_be_encrypted {env : Env} (he : Faithful env) (itemLen : ItemLen) (code : Err → Nat)
    {negotiated keyAlg : Nat} {msg : Bytes} (hn : 40 ≤ negotiated) (hq : Request msg) (hl : msg.length = 5 + 28)
    (hp : byte msg 3 = 0x20) :
    ∃ c, (serve itemLen env code negotiated keyAlg msg).1 = .sent ((errorMessage 0 4 c).map some) := by
  have hcap := he.cap
  have hv : ∀ i, 0 ≤ i → i < msg.length → (St.init msg keyAlg).mem i = msg[i]? := fun i _ _ => rfl
  rw [serve_run itemLen code negotiated keyAlg hq]
  have e : (St.init msg keyAlg).len = msg.length := rfl
  have key : ∃ er, processRequest itemLen { env with maxResp := min negotiated env.cap } (St.init msg keyAlg) =
      (.error (.err er), St.init msg keyAlg) := by
    unfold processRequest
    rw [bind_run len_run, e, hl, show decide (5 + 28 < 5) = false from rfl, bind_run unless_false]
    unfold checkHeader
    simp only [M.assoc]
    rw [bind_run (u8_run hv (by omega) (by omega) (by show _ < env.cap; omega)),
      bind_run (u16_run hv (by omega) (by omega) (by show _ < env.cap; omega))]
    rw [hq.2.1, hq.2.2, show (0x7E % 128 != 0x7E || 0x7E / 128 == 1 || 0x1414 != 0x1414) = false by decide]
    rw [bind_run unless_false, bind_run (u8_run hv (by omega) (by omega) (by show _ < env.cap; omega)), hp,
      show (0x20 % 32 != 0 || 0x20 / 64 % 2 != 0) = false by decide, bind_run unless_false,
      bind_run (u8_run hv (by omega) (by omega) (by show _ < env.cap; omega)), hp, if_pos (by decide)]
    unfold processEncrypted decrypt
    simp only [M.assoc]
    by_cases hsess : env.has .session = true
    · rw [show (!env.has .session) = false by rw [hsess]; rfl, bind_run unless_false,
        show decide (5 + 28 ≤ 28 + 5) = true from rfl, bind_err unless_true]
      exact ⟨_, rfl⟩
    · rw [show (!env.has .session) = true by simp [hsess], bind_err unless_true]
      exact ⟨_, rfl⟩
  obtain ⟨er, hk⟩ := key
  rw [hk, hp]
  refine ⟨code er, ?_⟩
  unfold finishResponse
  have h4 : (St.init msg keyAlg).mem 4 = some msg[4] := List.getElem?_eq_getElem (by omega)
  simp only [h4]

example : Request (message 0x20 0x8A (List.replicate 28 0)) ∧ (message 0x20 0x8A (List.replicate 28 0)).length = 5 + 28 ∧
    byte (message 0x20 0x8A (List.replicate 28 0)) 3 = 0x20 := by decide

end Verif.Protocol
