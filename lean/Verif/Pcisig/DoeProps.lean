import Verif.Pcisig.DoeSpec
import Verif.Pcisig.IdeLemmas
namespace Verif.Pcisig.Doe
open Verif.Pcisig.Ide (put_mid get_mid)

theorem split12 (msg : Bytes) (h : 12 ≤ msg.length) : ∃ a b t r l0 l1 l2 l3 p0 p1 p2 p3 rest,
    msg = a :: b :: t :: r :: l0 :: l1 :: l2 :: l3 :: p0 :: p1 :: p2 :: p3 :: rest := by
  match msg, h with
  | a :: b :: t :: r :: l0 :: l1 :: l2 :: l3 :: p0 :: p1 :: p2 :: p3 :: rest, _ => exact ⟨a, b, t, r, l0, l1, l2, l3, p0, p1, p2, p3, rest, rfl⟩
  | [], h | [_], h | [_, _], h | [_, _, _], h | [_, _, _, _], h | [_, _, _, _, _], h | [_, _, _, _, _, _], h | [_, _, _, _, _, _, _], h
  | [_, _, _, _, _, _, _, _], h | [_, _, _, _, _, _, _, _, _], h | [_, _, _, _, _, _, _, _, _, _], h | [_, _, _, _, _, _, _, _, _, _, _], h =>
    simp only [List.length_cons, List.length_nil] at h; omega

theorem decode_eq {msg : Bytes} (h : 12 ≤ msg.length) : decode msg = some (match sizeOf msg with
    | none => .error .badSize
    | some size =>
      if msg.length < size then .error .badSize
      else if vendorOf msg ≠ 1 then .error .badVendor
      else if typeOf msg = 2 ∧ size ≤ 12 then .error .badSize
      else .ok (size - 8, typeOf msg = 2)) := by
  have ht : get msg 2 1 = some [msg.getD 2 0] := by rw [get_ok (by omega), window_one (by omega)]
  unfold decode
  rw [get_ok (by omega), get_ok (by omega), ht]
  simp only [Option.map_some, List.getD_cons_zero, Option.bind_eq_bind, Option.bind_some, pure]
  unfold sizeOf
  simp only [← show wordsOf msg = leNat (window msg 4 4) from rfl, ← show vendorOf msg = leNat (window msg 0 2) from rfl,
    ← show typeOf msg = (msg.getD 2 0).toNat from rfl]
  by_cases h0 : wordsOf msg = 0
  · simp only [h0, ne_eq, not_true_eq_false, false_and, if_false, if_true]
    by_cases hs : msg.length < 2 ^ 20
    · rw [if_pos (show 0x100000 > msg.length from hs), if_pos hs]
    · rw [if_neg (show ¬ 0x100000 > msg.length from hs), if_neg hs]
      by_cases hv : vendorOf msg = 1
      · have n1 : ¬ (typeOf msg = 2 ∧ 0x100000 ≤ 12) := fun x => absurd x.2 (by decide)
        have n2 : ¬ (typeOf msg = 2 ∧ 2 ^ 20 ≤ 12) := fun x => absurd x.2 (by decide)
        simp only [hv, not_true_eq_false, if_false]
        rw [if_neg n1, if_neg n2]
      · rw [if_pos hv, if_pos hv]
  · simp only [h0, ne_eq, not_false_eq_true, true_and, if_false, if_true]
    by_cases hb : 3 ≤ wordsOf msg ∧ wordsOf msg < 2 ^ 18
    · rw [if_neg (show ¬ (wordsOf msg < 3 ∨ wordsOf msg ≥ 0x40000) by omega), if_pos hb, Nat.mul_comm]
      simp only []
      by_cases hs : msg.length < 4 * wordsOf msg
      · rw [if_pos hs, if_pos hs]
      · rw [if_neg hs, if_neg hs]
        by_cases hv : vendorOf msg = 1
        · simp only [hv, not_true_eq_false, if_false]
          split <;> rfl
        · rw [if_pos hv, if_pos hv]
    · rw [if_pos (show (wordsOf msg < 3 ∨ wordsOf msg ≥ 0x40000) by omega), if_neg hb]

theorem encode_eq {hd payload : Bytes} {t : UInt8} (hh : hd.length = 8) (ht : hd.getD 2 0 = t) (n : Nat) :
    encode (hd ++ payload) n = some (if (hd ++ payload).length < 8 + (n + 3) / 4 * 4 then (.badSize, hd ++ payload)
      else (.ok, [1, 0, t, 0] ++ toLE 4 (if 8 + (n + 3) / 4 * 4 = 2 ^ 20 then 0 else 2 + (n + 3) / 4) ++ payload)) := by
  unfold encode
  simp only []
  by_cases h : (hd ++ payload).length < 8 + (n + 3) / 4 * 4
  · rw [if_pos (show (n + 3) / 4 * 4 + 8 > (hd ++ payload).length by omega), if_pos h]; rfl
  · rw [if_neg (show ¬ (n + 3) / 4 * 4 + 8 > (hd ++ payload).length by omega), if_neg h]
    have e1 : (if (n + 3) / 4 * 4 + 8 = 0x100000 then 0 else ((n + 3) / 4 * 4 + 8) / 4) =
        (if 8 + (n + 3) / 4 * 4 = 2 ^ 20 then 0 else 2 + (n + 3) / 4) := by
      rw [Nat.add_comm ((n + 3) / 4 * 4) 8]
      split
      · rfl
      · omega
    rw [e1]
    generalize (if 8 + (n + 3) / 4 * 4 = 2 ^ 20 then 0 else 2 + (n + 3) / 4) = w
    match hd, hh with
    | [a, b, t', r, l0, l1, l2, l3], _ =>
      have ht : t' = t := ht
      subst ht
      have p1 : put ([a, b, t', r, l0, l1, l2, l3] ++ payload) 4 (toLE 4 w) = some ([a, b, t', r] ++ toLE 4 w ++ payload) :=
        put_mid (pre := [a, b, t', r]) (rest := l0 :: l1 :: l2 :: l3 :: payload) (d := toLE 4 w) rfl (by simp)
      have p2 : put ([a, b, t', r] ++ toLE 4 w ++ payload) 3 [0] = some ([a, b, t', 0] ++ toLE 4 w ++ payload) :=
        put_mid (pre := [a, b, t']) (rest := r :: (toLE 4 w ++ payload)) (d := [0]) rfl (by simp)
      have p3 : put ([a, b, t', 0] ++ toLE 4 w ++ payload) 0 (toLE 2 1) = some ([1, 0, t', 0] ++ toLE 4 w ++ payload) :=
        put_mid (pre := []) (rest := a :: b :: t' :: 0 :: (toLE 4 w ++ payload)) (d := toLE 2 1) rfl (by simp)
      simp only [p1, p2, p3, Option.bind_eq_bind, Option.bind_some, pure]

theorem discovery_eq (table : List (Nat × UInt8)) (ht : table.length ≤ 255) (p0 p1 p2 p3 : UInt8) (rest : Bytes) :
    discovery table (p0 :: p1 :: p2 :: p3 :: rest) = some ((discovered table p0.toNat).map fun a => (a ++ rest, 4)) := by
  have hg : get (p0 :: p1 :: p2 :: p3 :: rest) 0 1 = some [p0] := by
    rw [get_ok (by simp), window_one (by simp)]; rfl
  unfold discovery discovered
  rw [hg]
  simp only [Option.map_some, List.getD_cons_zero, Option.bind_eq_bind, Option.bind_some, pure]
  by_cases h : p0.toNat < table.length
  · rw [if_neg (show ¬ p0.toNat ≥ table.length by omega), List.getElem?_eq_getElem h]
    have hp : ∀ d : Bytes, d.length = 4 → put (p0 :: p1 :: p2 :: p3 :: rest) 0 d = some (d ++ rest) := by
      intro d hd
      rw [put_zero (by simp only [List.length_cons]; omega), hd]; rfl
    rw [hp _ (by simp)]
    simp only [Option.bind_some, Except.map]
    rw [List.getD_eq_getElem?_getD, List.getElem?_eq_getElem h, Option.getD_some]
    congr 3
    have hj : ∀ (a : Bytes) (x y : UInt8), a ++ [x] ++ [y] = a ++ [x, y] := by intros; simp
    rw [hj]
    congr 3
    by_cases hl : p0.toNat = table.length - 1
    · rw [if_pos hl, if_neg (show ¬ p0.toNat + 1 < table.length by omega)]; rfl
    · rw [if_neg hl, if_pos (show p0.toNat + 1 < table.length by omega)]
  · rw [if_pos (show p0.toNat ≥ table.length by omega), List.getElem?_eq_none (by omega)]
    rfl

/-- Every message gets exactly the specified treatment, inside of its buffer. -/
theorem doe_answer (d : Doe) (msg : Bytes) (wf : d.WF) (hm : Fits msg) :
    match reply d msg with
    | .ok b => process d msg = some (.ok, b) ∧ b.length = msg.length
    | .error s => ∃ b, process d msg = some (s, b) ∧ b.length = msg.length ∧ s ≠ .ok := by
  obtain ⟨h12, h20⟩ := hm
  unfold process reply
  rw [decode_eq h12]
  simp only [Option.bind_eq_bind, Option.bind_some]
  cases hsz : sizeOf msg with
  | none => exact ⟨msg, rfl, rfl, fun h => nomatch h⟩
  | some size =>
    simp only []
    by_cases h1 : msg.length < size
    · simp only [if_pos h1]; exact ⟨msg, rfl, rfl, fun h => nomatch h⟩
    by_cases h2 : vendorOf msg ≠ 1
    · simp only [if_neg h1, if_pos h2]; exact ⟨msg, rfl, rfl, fun h => nomatch h⟩
    by_cases h3 : typeOf msg = 2 ∧ size ≤ 12
    · simp only [if_neg h1, if_neg h2, if_pos h3]; exact ⟨msg, rfl, rfl, fun h => nomatch h⟩
    simp only [if_neg h1, if_neg h2, if_neg h3]
    have ht : get msg 2 1 = some [msg.getD 2 0] := by rw [get_ok (by omega), window_one (by omega)]
    rw [ht]
    simp only [Option.map_some, List.getD_cons_zero, Option.bind_some]
    have hdis : dispatch d (typeOf msg) (msg.drop 8) (size - 8) (decide (typeOf msg = 2)) = some (answered d msg size) ∧
        ∀ p n, answered d msg size = .ok (p, n) → p.length = msg.length - 8 := by
      unfold dispatch answered
      by_cases t1 : typeOf msg = 1
      · rw [t1]
        simp only [true_or, if_true, Nat.succ_ne_zero, if_false]
        cases hr : d.responder (msg.drop 8) (size - 8) false with
        | error c => exact ⟨by simp [hr], fun _ _ h => nomatch h⟩
        | ok r =>
          refine ⟨by simp [hr], fun p n h => ?_⟩
          cases h
          rw [(wf.2 _ _ _ _ _ hr).1, List.length_drop]
      by_cases t2 : typeOf msg = 2
      · rw [t2]
        simp only [or_true, if_true, if_false]
        cases hr : d.responder (msg.drop 8) (size - 8) true with
        | error c => exact ⟨by simp [hr], fun _ _ h => by simp at h⟩
        | ok r =>
          refine ⟨by simp [hr], fun p n h => ?_⟩
          simp only [show ¬ (2 = 0) by decide, show ¬ (2 = 1) by decide, if_false] at h
          cases h
          rw [(wf.2 _ _ _ _ _ hr).1, List.length_drop]
      by_cases t0 : typeOf msg = 0
      · rw [t0]
        obtain ⟨a, b, t, r, l0, l1, l2, l3, p0, p1, p2, p3, rest, rfl⟩ := split12 msg h12
        simp only [show ¬ (0 = 1 ∨ 0 = 2) by decide, if_false, if_true]
        have e := discovery_eq d.table wf.1 p0 p1 p2 p3 rest
        refine ⟨e, fun p n h => ?_⟩
        have hdl : ∀ i a, discovered d.table i = .ok a → a.length = 4 := by
          intro i a h
          unfold discovered at h
          split at h
          · cases h
          · cases h; simp
        simp only [List.getD_cons_zero, List.getD_cons_succ] at h
        cases hd : discovered d.table p0.toNat with
        | error s => rw [hd] at h; cases h
        | ok a =>
          rw [hd] at h
          cases h
          rw [List.length_append, hdl _ _ hd]
          simp only [List.drop_succ_cons, List.drop_zero, List.length_cons]; omega
      · rw [if_neg (by omega), if_neg t0, if_neg t0, if_neg t1, if_neg t2]
        exact ⟨rfl, fun _ _ h => nomatch h⟩
    rw [show (msg.getD 2 0).toNat = typeOf msg from rfl, hdis.1]
    simp only [Option.bind_some]
    cases ha : answered d msg size with
    | error s =>
      refine ⟨msg, rfl, rfl, ?_⟩
      rintro rfl
      unfold answered discovered at ha
      split at ha
      · split at ha <;> cases ha
      split at ha
      · split at ha <;> cases ha
      split at ha
      · split at ha <;> cases ha
      · cases ha
    | ok v =>
      obtain ⟨p, n⟩ := v
      have hpl := hdis.2 p n ha
      have h8 : (msg.take 8).length = 8 := by rw [List.length_take]; omega
      have htl : (msg.take 8 ++ p).length = msg.length := by rw [List.length_append, h8]; omega
      simp only []
      rw [encode_eq h8 (getD_take (by omega)) n, htl]
      have ht8 : UInt8.ofNat (typeOf msg) = msg.getD 2 0 := UInt8.ofNat_toNat
      rw [ht8]
      by_cases hf : msg.length < 8 + (n + 3) / 4 * 4
      · rw [if_pos hf, if_pos hf]; exact ⟨_, rfl, htl, fun h => nomatch h⟩
      · rw [if_neg hf, if_neg hf]
        refine ⟨rfl, ?_⟩
        simp only [List.length_append, List.length_cons, List.length_nil, toLE_length]; omega

/-- Whatever is sent is a legal message of the type asked for: it announces its own size, which fits the buffer. -/
theorem doe_answer_legal (d : Doe) (msg b : Bytes) (wf : d.WF) (hm : Fits msg) (h : process d msg = some (.ok, b)) :
    b.length = msg.length ∧ vendorOf b = 1 ∧ typeOf b = typeOf msg ∧
    (∃ size payload n, sizeOf msg = some size ∧ answered d msg size = .ok (payload, n) ∧ b.drop 8 = payload ∧
      8 + (n + 3) / 4 * 4 ≤ b.length ∧ (0 < n → sizeOf b = some (8 + (n + 3) / 4 * 4))) := by
  have hr := doe_answer d msg wf hm
  obtain ⟨h12, h20⟩ := hm
  cases hrep : reply d msg with
  | error s =>
    rw [hrep] at hr
    obtain ⟨b', h1, -, h2⟩ := hr
    rw [h] at h1
    cases h1
    exact absurd rfl h2
  | ok b' =>
    rw [hrep] at hr
    obtain ⟨h1, h2⟩ := hr
    rw [h] at h1
    cases h1
    refine ⟨h2, ?_⟩
    unfold reply at hrep
    split at hrep
    · cases hrep
    rename_i size hs
    split at hrep
    · cases hrep
    split at hrep
    · cases hrep
    split at hrep
    · cases hrep
    split at hrep
    · cases hrep
    rename_i payload n ha
    split at hrep
    · cases hrep
    rename_i hfit
    cases hrep
    have hw : wordsOf ([1, 0, UInt8.ofNat (typeOf msg), 0] ++ toLE 4 (if 8 + (n + 3) / 4 * 4 = 2 ^ 20 then 0 else 2 + (n + 3) / 4) ++ payload) =
        (if 8 + (n + 3) / 4 * 4 = 2 ^ 20 then 0 else 2 + (n + 3) / 4) := by
      unfold wordsOf window
      rw [List.append_assoc, List.drop_left' (show [1, 0, UInt8.ofNat (typeOf msg), 0].length = 4 from rfl), List.take_left' (by simp), leNat_toLE, Nat.mod_eq_of_lt]
      split <;> omega
    have ht : typeOf ([1, 0, UInt8.ofNat (typeOf msg), 0] ++ toLE 4 (if 8 + (n + 3) / 4 * 4 = 2 ^ 20 then 0 else 2 + (n + 3) / 4) ++ payload) = typeOf msg := by
      show (UInt8.ofNat (typeOf msg)).toNat = typeOf msg
      unfold typeOf
      rw [UInt8.ofNat_toNat]
    refine ⟨rfl, ht, size, payload, n, hs, ha, ?_, by rw [h2]; omega, ?_⟩
    · rw [List.drop_left' (by simp)]
    · intro hn
      unfold sizeOf
      rw [hw]
      by_cases he : 8 + (n + 3) / 4 * 4 = 2 ^ 20
      · rw [if_pos he, if_pos rfl, he]
      · rw [if_neg he, if_neg (by omega), if_pos (by omega)]
        congr 1; omega

/-- A message is only sent as the answer to a message that was processed, and unchanged. -/
theorem doe_sent (d : Doe) (msg : Bytes) (wf : d.WF) (hm : Fits msg) :
    serve d msg = some (match reply d msg with | .ok b => [b] | .error _ => []) := by
  have h := doe_answer d msg wf hm
  unfold serve
  cases hr : reply d msg with
  | ok b => rw [hr] at h; rw [h.1]; rfl
  | error s =>
    rw [hr] at h
    obtain ⟨b, h1, -, h2⟩ := h
    rw [h1]
    cases s with
    | ok => exact absurd rfl h2
    | _ => rfl

/-- The discovery request for entry `i` in a buffer of 12 bytes. -/
def discoveryRequest (i : Nat) : Bytes := [1, 0, 0, 0, 3, 0, 0, 0, UInt8.ofNat i, 0, 0, 0]

/-- What comes back for it. -/
def ask (d : Doe) (i : Nat) : Option Bytes :=
  match process d (discoveryRequest i) with
  | some (.ok, b) => some (b.drop 8)
  | _ => none

theorem ofNat_lt {i : Nat} (h : i < 256) : (UInt8.ofNat i).toNat = i := by
  rw [UInt8.toNat_ofNat']
  exact Nat.mod_eq_of_lt h

theorem ask_eq (d : Doe) (wf : d.WF) (i : Nat) (hi : i < 256) : ask d i = (discovered d.table i).toOption := by
  have h := doe_answer d (discoveryRequest i) wf ⟨Nat.le_refl 12, show 12 ≤ 2 ^ 20 by decide⟩
  have hsize : sizeOf (discoveryRequest i) = some 12 := rfl
  have hans : answered d (discoveryRequest i) 12 = (discovered d.table i).map fun a => (a ++ [], 4) := by
    show (discovered d.table (UInt8.ofNat i).toNat).map _ = _
    rw [ofNat_lt hi]; rfl
  unfold reply at h
  rw [hsize] at h
  simp only [show ¬ (discoveryRequest i).length < 12 from Nat.lt_irrefl 12, show ¬ (vendorOf (discoveryRequest i) ≠ 1) from fun h => h rfl,
    show ¬ (typeOf (discoveryRequest i) = 2 ∧ 12 ≤ 12) from fun h => absurd (show 0 = 2 from h.1) (by decide), if_false, hans] at h
  unfold ask
  cases hd : discovered d.table i with
  | error s =>
    rw [hd] at h
    obtain ⟨b, h1, -, h2⟩ := h
    rw [h1]
    cases s with
    | ok => exact absurd rfl h2
    | _ => rfl
  | ok a =>
    rw [hd] at h
    simp only [Except.map] at h
    rw [if_neg (show ¬ (discoveryRequest i).length < 8 + (4 + 3) / 4 * 4 from Nat.lt_irrefl 12)] at h
    rw [h.1]
    simp only [Except.toOption, List.append_nil]
    rw [List.drop_left' (by simp)]

/-- Discovery finds every protocol: whoever starts with entry 0 and follows the answers gets exactly the table, in order. -/
theorem discovery_finds_all (d : Doe) (wf : d.WF) (hne : d.table ≠ []) (hv : ∀ x ∈ d.table, x.1 < 65536) (fuel : Nat) (hf : d.table.length ≤ fuel) :
    walk (ask d) fuel 0 = d.table := by
  have key : ∀ k i fuel, d.table.length - i = k → i < d.table.length → d.table.length - i ≤ fuel → walk (ask d) fuel i = d.table.drop i := by
    intro k
    induction k with
    | zero => intro i fuel h1 h2; omega
    | succ k ih =>
      intro i fuel h1 h2 h3
      cases fuel with
      | zero => omega
      | succ fuel =>
        have hlen := wf.1
        have hmem : d.table[i] ∈ d.table := List.getElem_mem h2
        have hx := hv _ hmem
        rw [List.drop_eq_getElem_cons h2]
        unfold walk
        rw [ask_eq d wf i (by omega)]
        unfold discovered
        rw [List.getElem?_eq_getElem h2]
        generalize d.table[i] = x at hx
        obtain ⟨v, t⟩ := x
        simp only [Except.toOption]
        have w2 : leNat (window (toLE 2 v ++ [t, if i + 1 < d.table.length then UInt8.ofNat (i + 1) else 0]) 0 2) = v := by
          unfold window
          rw [List.drop_zero, List.take_left' (by simp), leNat_toLE, Nat.mod_eq_of_lt (by exact hx)]
        rw [w2]
        have g2 : ∀ y z : UInt8, (toLE 2 v ++ [y, z]).getD 2 0 = y := fun _ _ => rfl
        have g3 : ∀ y z : UInt8, (toLE 2 v ++ [y, z]).getD 3 0 = z := fun _ _ => rfl
        rw [g2, g3]
        congr 1
        by_cases hl : i + 1 < d.table.length
        · have hne0 : UInt8.ofNat (i + 1) ≠ 0 := by
            intro h
            have := congrArg UInt8.toNat h
            rw [ofNat_lt (by omega)] at this
            exact absurd (show i + 1 = 0 from this) (by omega)
          rw [if_pos hl, if_neg hne0, ofNat_lt (by omega)]
          exact ih (i + 1) fuel (by omega) hl (by omega)
        · rw [if_neg hl, if_pos rfl, List.drop_of_length_le (by omega)]
  have hp : 0 < d.table.length := List.length_pos_iff.mpr hne
  rw [key d.table.length 0 fuel rfl hp (by omega), List.drop_zero]

/-! ### Cases -/

/-- A responder that answers with 5 bytes. -/
def doe1 : Doe where
  table := [(1, 0), (1, 1), (1, 2), (0x1414, 9)]
  responder := fun p _ s => if p.length < 5 then .error 7 else .ok ([0x12, if s then 1 else 0, 3, 4, 5] ++ p.drop 5, 5)

theorem doe1_wf : doe1.WF := by
  refine ⟨by decide, ?_⟩
  intro p n s p' n' h
  simp only [doe1] at h
  split at h
  · cases h
  · cases h
    simp only [List.length_append, List.length_cons, List.length_nil, List.length_drop]; omega

example : initOk doe1.table = true := rfl

example : walk (ask doe1) 255 0 = [(1, 0), (1, 1), (1, 2), (0x1414, 9)] :=
  discovery_finds_all doe1 doe1_wf (by decide) (by decide) 255 (by decide)

example : process doe1 [1, 0, 2, 0xee, 4, 0, 0, 0, 1, 2, 3, 4, 5, 6, 7, 8] = some (.ok, [1, 0, 2, 0, 4, 0, 0, 0, 0x12, 1, 3, 4, 5, 6, 7, 8]) := by decide_cbv

/-- The bytes that fill the answer up to a multiple of 4 are not cleared: they are what was in the buffer before, here bytes of the request. -/
theorem doe_padding_stale : ∃ (d : Doe) (msg b : Bytes), d.WF ∧ Fits msg ∧ process d msg = some (.ok, b) ∧ sizeOf b = some 16 ∧
    (∃ p, d.responder (msg.drop 8) 8 false = .ok (p, 5)) ∧ window b 13 3 = window msg 13 3 ∧ window b 13 3 ≠ [0, 0, 0] :=
  ⟨doe1, [1, 0, 1, 0, 4, 0, 0, 0, 1, 2, 3, 4, 5, 6, 7, 8], [1, 0, 1, 0, 4, 0, 0, 0, 0x12, 0, 3, 4, 5, 6, 7, 8], doe1_wf, ⟨by decide, by decide⟩,
    by decide_cbv, by decide_cbv, ⟨_, rfl⟩, by decide_cbv, by decide_cbv⟩

end Verif.Pcisig.Doe
