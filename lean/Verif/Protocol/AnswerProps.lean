import Verif.Protocol.Exact4
import Verif.Protocol.Props
/-! Answers to requests (C92). -/
namespace Verif.Protocol
open Spec

/-- Every request in plain text gets exactly the answer that the table `Spec.answer` gives for it:
the data, a message about success, or the error.  Missing for the full statement: negotiated sizes
below 12, `Ragged` requests, identifiers without terminator (refuted for C85). -/
theorem plain_requests_get_their_answers_partial {env : Env} (he : Faithful env) (itemLen : ItemLen) (code : Err → Nat)
    {negotiated keyAlg : Nat} {msg : Bytes} (hn : 12 ≤ negotiated) (hq : Request msg) (hl : msg.length ≤ 4096)
    (hres : reserved msg = false) (hp : byte msg 3 / 32 % 2 = 0) (hr : ¬ Ragged msg) (ht : Terminated msg) :
    (serve itemLen env code negotiated keyAlg msg).1 =
      .sent ((reply code msg (answer { env with maxResp := min negotiated 4096, encrypted := false } [] itemLen msg)).map some) :=
  serve_plain he itemLen code hn hq hl hres hp hr ht

/-- A header with reserved bits is an error. -/
theorem reserved_headers_are_errors {env : Env} (he : Faithful env) (itemLen : ItemLen) (code : Err → Nat) {negotiated keyAlg : Nat}
    {msg : Bytes} (hq : Request msg) (hres : reserved msg = true) :
    (serve itemLen env code negotiated keyAlg msg).1 = .sent ((notice (byte msg 3 / 128) 4 (code .reservedNotZero)).map some) :=
  serve_reserved he itemLen code hq hres

/-- Every encrypted request gets the answer of the table to the request within: what the session
encrypts is the command and the data of that answer, and nothing else.  Missing for the full
statement: negotiated sizes below 40, `Ragged` requests, identifiers without terminator. -/
theorem encrypted_requests_get_their_answers_partial {env : Env} (he : Faithful env) (itemLen : ItemLen) (code : Err → Nat)
    {negotiated keyAlg : Nat} {msg : Bytes} (hn : 40 ≤ negotiated) (hq : Request msg) (hl : msg.length ≤ 4096)
    (hres : reserved msg = false) (hp : byte msg 3 / 32 % 2 = 1) (hr : ¬ Ragged (plain env msg)) (ht : Terminated (plain env msg)) :
    SentFor code { env with maxResp := min negotiated 4096 } msg (serve itemLen env code negotiated keyAlg msg).1
      (serve itemLen env code negotiated keyAlg msg).2.calls (sessionAnswer { env with maxResp := min negotiated 4096 } itemLen msg) :=
  serve_encrypted he itemLen code hn hq hl hres hp hr ht

/-- The response depends on the request and on the device, not on what earlier requests left: neither
the buffer nor the key exchange algorithm of an earlier request matters to it. -/
theorem answers_do_not_depend_on_earlier_ones_partial {env : Env} (he : Faithful env) (itemLen : ItemLen) (code : Err → Nat)
    {negotiated k k' : Nat} {msg : Bytes} (hn : 12 ≤ negotiated) (hq : Request msg) (hl : msg.length ≤ 4096)
    (hp : byte msg 3 / 32 % 2 = 0) (hr : ¬ Ragged msg) (ht : Terminated msg) :
    (serve itemLen env code negotiated k msg).1 = (serve itemLen env code negotiated k' msg).1 := by
  cases hres : reserved msg
  · rw [serve_plain he itemLen code hn hq hl hres hp hr ht, serve_plain he itemLen code hn hq hl hres hp hr ht]
  · rw [serve_reserved he itemLen code hq hres, serve_reserved he itemLen code hq hres]

/-- Numbers in answers are little endian. -/
theorem numbers_are_little_endian (k v : Nat) : le k v = (List.range k).map fun i => UInt8.ofNat (v / 256 ^ i) := by
  induction k generalizing v with
  | zero => rfl
  | succ k ih =>
    rw [List.range_succ_eq_map, List.map_cons, List.map_map, le, ih]
    congr 1
    · apply UInt8.toNat_inj.1; simp
    · apply List.map_congr_left
      intro i _
      simp only [Function.comp_apply]
      rw [Nat.div_div_eq_div_mul, Nat.pow_succ, Nat.mul_comm]

/-- A text field: the text as far as 31 bytes of it fit, and zeros. -/
theorem text_field (s : Bytes) : text 32 s = s.take 31 ++ List.replicate (32 - (s.take 31).length) 0 := rfl

/-- Firmware version, as an instance: the version of the device in a field of 32 bytes. -/
theorem firmware_version_answer {env : Env} (he : Faithful env) (itemLen : ItemLen) (code : Err → Nat) {negotiated keyAlg : Nat}
    {flag n : UInt8} (hn : 12 ≤ negotiated) (hf : flag = 0 ∨ flag = 0x80) (hi : n.toNat < env.fwVersions.length) :
    (serve itemLen env code negotiated keyAlg [0x7E, 0x14, 0x14, flag, 0x01, n]).1 =
      .sent (([0x7E, 0x14, 0x14, flag, 0x01] ++ text 32 ((env.fwVersions.getD n.toNat none).getD [])).map some) := by
  have h3 : reserved [0x7E, 0x14, 0x14, flag, 0x01, n] = false ∧ byte [0x7E, 0x14, 0x14, flag, 0x01, n] 3 / 32 % 2 = 0 := by
    rcases hf with rfl | rfl <;> simp [reserved, byte]
  rw [serve_plain he itemLen code hn ⟨by simp, rfl, rfl⟩ (by simp) h3.1 h3.2
    (by rintro (⟨h, -⟩ | ⟨h, -⟩) <;> exact absurd h (by show (1 : Nat) ≠ _; decide)) (fun h => absurd h (by show (1 : Nat) ≠ _; decide))]
  have : answer { env with maxResp := min negotiated 4096, encrypted := false } [] itemLen [0x7E, 0x14, 0x14, flag, 0x01, n] =
      .ok (some (text 32 ((env.fwVersions.getD n.toNat none).getD []))) := by
    unfold answer
    simp only [show byte [0x7E, 0x14, 0x14, flag, 0x01, n] 4 = 1 from rfl, show byte [0x7E, 0x14, 0x14, flag, 0x01, n] 5 = n.toNat from rfl,
      refuse, List.length_cons, List.length_nil]
    rw [if_neg (by omega), if_neg (by omega)]
    rfl
  rw [this]
  rfl

/-! ### Examples -/

/-- The answers of the table, and the messages, for a few requests. -/
example :
    reply (fun _ => 7) (message 0x80 0x03 []) (answer testEnv [] (fun _ => 0) (message 0x80 0x03 [])) =
      message 0x80 0x03 [1, 0, 2, 0, 3, 0, 4, 0] ∧
    (serve (fun _ => 0) testEnv (fun _ => 7) 4096 0 (message 0x80 0x03 [])).1 = .sent ((message 0x80 0x03 [1, 0, 2, 0, 3, 0, 4, 0]).map some) ∧
    reply (fun _ => 7) (message 0 0x01 [0]) (answer testEnv [] (fun _ => 0) (message 0 0x01 [0])) =
      message 0 0x01 (0x31 :: List.replicate 31 0) := by
  decide_cbv

example : Request (message 0x80 0x03 []) ∧ reserved (message 0x80 0x03 []) = false ∧ byte (message 0x80 0x03 []) 3 / 32 % 2 = 0 ∧
    ¬ Ragged (message 0x80 0x03 []) ∧ Terminated (message 0x80 0x03 []) := by
  refine ⟨by decide, by decide, by decide, ?_, ?_⟩ <;> simp [Ragged, Terminated, message, byte]

/-- An encrypted request, its opening and the answer to what is within. -/
example :
    let msg := message 0x20 0x53 ([1, 0, 0, 0, 0] ++ List.replicate 28 9)
    Request msg ∧ reserved msg = false ∧ byte msg 3 / 32 % 2 = 1 ∧
      (match sessionAnswer { testEnv with maxResp := 4096 } (fun _ => 0) msg with | .ok (some d) => d == [1] ++ List.replicate 12 7 | _ => false) = true := by
  decide_cbv

end Verif.Protocol
