import Verif.MsgRoute.Model
/-!
C157: MCTP messages reach the handler registered for their type, and its response gets the header back.
-/
namespace Verif.MsgRoute
open CmdMsg (Msg removeHeader addHeader getMaxResponse setMaxResponse payload Inside)

/-- The status for a refused message. -/
def refusal : Spec.Refused → Status
  | .tooShort => .tooShort
  | .noRoom => .maxRespTooSmall
  | .integrity => .invalidMsg

theorem payload_cons (m : Msg) (h : Inside m) (hp : 0 < m.payloadLength) :
    payload m = m.buf.getD m.off 0 :: window m.buf (m.off + 1) (m.payloadLength - 1) := by
  have hl : m.off < m.buf.length := by have := h.1; omega
  unfold payload window
  obtain ⟨n, e⟩ : ∃ n, m.payloadLength = n + 1 := ⟨_, (Nat.succ_pred_eq_of_pos hp).symm⟩
  rw [e, List.drop_eq_getElem_cons hl, List.take_succ_cons]
  simp [List.getElem?_eq_getElem hl]

/-- **C157** A message is handed over exactly if the specification says so, with its type and what the handler is to see; the room for the
response, headers included, is the one of the specification, and the payload is inside the buffer. -/
theorem parse_exact (m : Msg) (h : Inside m) (hz : m.buf.length + 64 < CmdMsg.SZ) (ho : m.off ≤ m.maxResponse) :
    match Spec.parse (getMaxResponse m) (payload m) with
    | .error e => parse m = .error (refusal e)
    | .ok (type, seen) => ∃ m1, parse m = .ok (type, m1) ∧ payload m1 = seen ∧ m1.buf = m.buf ∧ Inside m1 ∧
        m1.off = m.off + (if type = 0x7e then 0 else 1) ∧
        m1.maxResponse = m.off + Spec.room type (getMaxResponse m) := by
  have hm : getMaxResponse m = m.maxResponse - m.off := if_pos ho
  by_cases hp : m.payloadLength = 0
  · have e : payload m = [] := by simp [payload, window, hp]
    rw [e]
    simp [Spec.parse, parse, hp, refusal]
  · rw [payload_cons m h (by omega)]
    have f : (m.buf.getD m.off 0).toNat = first m := rfl
    have hf : first m < 256 := (m.buf.getD m.off 0).toNat_lt
    simp only [Spec.parse, f]
    by_cases hr : getMaxResponse m < 64
    · simp [parse, hp, hr, refusal]
    · have hp1 : ¬ m.payloadLength < 1 := by omega
      by_cases hv : first m % 128 = 0x7e
      · simp only [hr, hv, if_true, if_false]
        refine ⟨m, by simp [parse, hp1, hr, hv], ?_, rfl, h, rfl, ?_⟩
        · exact payload_cons m h (by omega)
        · simp [Spec.room, hm]; omega
      · by_cases hi : 128 ≤ first m
        · have : first m / 128 ≠ 0 := by omega
          simp [hr, hv, hi, parse, hp1, this, refusal]
        · have e0 : ¬ first m / 128 ≠ 0 := by omega
          have e1 : first m % 128 = first m := by omega
          rw [e1] at hv
          obtain ⟨h1, h2⟩ := h
          simp only [hr, e1, hv, hi, if_false]
          refine ⟨removeHeader (if first m = 0 then setMaxResponse m 64 else m) 1, ?_, ?_⟩
          · simp [parse, hp, hr, e0, e1, hv]
          · by_cases hc : first m = 0
            · have e2 : (64 + m.off) % CmdMsg.SZ = 64 + m.off := Nat.mod_eq_of_lt (by omega)
              have hn : ¬ (1 > m.payloadLength) := by omega
              simp only [hc, if_true, setMaxResponse, CmdMsg.protocolLength, e2, Spec.room]
              split <;> simp only [removeHeader, hn, if_false, payload, Inside] <;>
                refine ⟨by trivial, by trivial, ⟨by omega, by omega⟩, by simp, by omega⟩
            · have hn : ¬ (1 > m.payloadLength) := by omega
              simp only [hc, if_false, removeHeader, hn, payload, Inside, Spec.room]
              exact ⟨by trivial, by trivial, ⟨by omega, by omega⟩, by simp, by omega⟩

/-- The handler for a type is the first one registered for it. -/
theorem find_exact (hs : List (Nat × Handler)) (type : Nat) : find hs type = (hs.find? (·.1 == type)).map Prod.snd := by
  induction hs with
  | nil => rfl
  | cons a hs ih =>
    obtain ⟨t, g⟩ := a
    by_cases e : t = type <;> simp [find, e, ih]

/-- **C157** A message that is refused reaches no handler and is left as it is. Any other goes to the first handler registered for its
type and no other; without one the result is the error for unknown types. The status is that of the handler. -/
theorem process_routes (hs : List (Nat × Handler)) (m : Msg) :
    (∀ e, parse m = .error e → process hs m = (e, m)) ∧
    (∀ type m1, parse m = .ok (type, m1) →
      match hs.find? (·.1 == type) with
      | some (_, g) => (process hs m).1 = (g m1).1 ∧ isSupported hs type = .ok
      | none => (process hs m).1 = .unknownType ∧ isSupported hs type = .unknownType) := by
  constructor
  · intro e he
    simp [process, he]
  · intro type m1 he
    have f := find_exact hs type
    cases hx : hs.find? (·.1 == type) with
    | none =>
      rw [hx] at f
      simp only [process, he, f, isSupported, handleResult, Option.map_none]
      constructor
      · split <;> rfl
      · rfl
    | some a =>
      rw [hx] at f
      simp only [process, he, f, isSupported, handleResult, Option.map_some]
      constructor
      · split <;> rfl
      · rfl

/-- The handler answers with `body`, within the room it was given. -/
def Answers (g : Handler) (m : Msg) (body : Bytes) : Prop :=
  (g m).1 = .ok ∧ (g m).2.off = m.off ∧ (g m).2.length = body.length ∧ (g m).2.payloadLength = body.length ∧
  payload (g m).2 = body ∧ (g m).2.buf.length = m.buf.length ∧ body.length ≤ getMaxResponse m

/-- **C157** The response of a handler is sent with the header of its type in front, and fits in the room for responses: at most 64 bytes
with the header for control messages. A vendor response is sent as it is. -/
theorem response_exact (hs : List (Nat × Handler)) (m : Msg) (h : Inside m) (hz : m.buf.length + 64 < CmdMsg.SZ)
    (ho : m.off ≤ m.maxResponse) (type : Nat) (seen body : Bytes) (t : Nat) (g : Handler)
    (hp : Spec.parse (getMaxResponse m) (payload m) = .ok (type, seen)) (hg : hs.find? (·.1 == type) = some (t, g))
    (ha : ∀ m1, parse m = .ok (type, m1) → Answers g m1 body) :
    let out := (process hs m).2
    (process hs m).1 = .ok ∧ out.off = m.off ∧
    payload out = (if type = 0x7e then body else UInt8.ofNat type :: body) ∧
    out.length = (payload out).length ∧ out.payloadLength = (payload out).length ∧
    (payload out).length ≤ Spec.room type (getMaxResponse m) := by
  have p := parse_exact m h hz ho
  rw [hp] at p
  obtain ⟨m1, e, _, hb, hi, hoff, hmax⟩ := p
  obtain ⟨a1, a2, a3, a4, a5, a6, a7⟩ := ha m1 e
  have hroom : 64 ≤ getMaxResponse m ∧ type < 128 := by
    cases hq : payload m with
    | nil => rw [hq] at hp; simp [Spec.parse] at hp
    | cons b l =>
      rw [hq] at hp
      simp only [Spec.parse] at hp
      split at hp
      · cases hp
      · split at hp
        · cases hp; constructor <;> omega
        · split at hp
          · cases hp
          · cases hp; constructor <;> omega
  have hr1 : 1 ≤ Spec.room type (getMaxResponse m) := by unfold Spec.room; split <;> omega
  have f := find_exact hs type
  rw [hg] at f
  have hg1 : getMaxResponse m1 = m1.maxResponse - m1.off := by
    apply if_pos
    show m1.off ≤ m1.maxResponse
    rw [hoff, hmax]; split <;> omega
  rw [hg1, hoff, hmax] at a7
  simp only [process, e, f, Option.map_some, handleResult]
  generalize g m1 = r at *
  obtain ⟨st, k⟩ := r
  simp only at a1 a2 a3 a4 a5 a6
  by_cases hv : type = 0x7e
  · simp only [hv, ne_eq, not_true, if_false, if_true] at *
    exact ⟨a1, by omega, a5, by rw [a5, a3], by rw [a5, a4], by rw [a5]; omega⟩
  · simp only [hv, ne_eq, not_false_eq_true, if_true, if_false, a1] at *
    have hk : k.off = m.off + 1 := by omega
    have e1 : ¬ k.off < 1 := by omega
    have e2 : k.length = k.payloadLength := by omega
    have hlen : m.off < k.buf.length := by
      rw [a6, hb]
      have := h.2
      have : getMaxResponse m = m.maxResponse - m.off := if_pos ho
      omega
    have hpay : payload (populate type (addHeader k 1)) = UInt8.ofNat type :: body := by
      rw [← a5]
      have em : type % 128 = type := Nat.mod_eq_of_lt hroom.2
      have e3 : ¬ m.off + 1 < 1 := by omega
      simp only [populate, addHeader, payload, window, writeAt, em, hk, e3, if_false, Nat.add_sub_cancel]
      have l1 : (k.buf.take m.off).length = m.off := by rw [List.length_take]; omega
      have l2 : ([UInt8.ofNat type] : Bytes).take (k.buf.length - m.off) = [UInt8.ofNat type] := by
        apply List.take_of_length_le; simp; omega
      rw [l2, List.append_assoc, List.drop_append, l1, Nat.sub_self, List.drop_of_length_le (by omega)]
      simp
    rw [hpay]
    refine ⟨by trivial, ?_, rfl, ?_, ?_, ?_⟩
    · simp only [populate, addHeader, e1, if_false]; omega
    · simp only [populate, addHeader, e1, if_false, e2, if_true, List.length_cons]; omega
    · simp only [populate, addHeader, e1, if_false, List.length_cons]; omega
    · simp only [List.length_cons]; omega

/-- **C157** If the handler fails, the first byte is given back to the layer below unchanged, if the handler leaves the headers alone. -/
theorem failure_exact (hs : List (Nat × Handler)) (m m1 : Msg) (type t : Nat) (g : Handler) (hv : type ≠ 0x7e)
    (hp : parse m = .ok (type, m1)) (hg : hs.find? (·.1 == type) = some (t, g)) (hf : (g m1).1 ≠ .ok) (ho : 1 ≤ (g m1).2.off) :
    (process hs m).2.off = (g m1).2.off - 1 ∧ (process hs m).2.buf = (g m1).2.buf := by
  have f := find_exact hs type
  rw [hg] at f
  have e1 : ¬ (g m1).2.off < 1 := by omega
  simp [process, hp, f, handleResult, hv, hf, addHeader, e1]

/-- A handler that answers `[7, 8]`. -/
def sample : Handler := fun m => (.ok, CmdMsg.setPayloadLength { m with buf := writeAt m.buf m.off [7, 8] } 2)

/-- A control message of three bytes with a header of two bytes in front, handled and answered. -/
example : let m : Msg := ⟨[9, 9, 0, 1, 2] ++ List.replicate 95 0, 5, 100, 2, 3⟩
    Inside m ∧ (parse m).toOption.map (fun r => (r.1, payload r.2, r.2.maxResponse)) = some (0, [1, 2], 66) ∧
    (process [(5, fun m => (.handler 3, m)), (0, sample)] m).1 = .ok ∧
    payload (process [(5, fun m => (.handler 3, m)), (0, sample)] m).2 = [0, 7, 8] := by
  refine ⟨⟨by decide, by decide⟩, by decide, by decide, by decide⟩

end Verif.MsgRoute
