import Verif.SpdmCert.Lemmas
import Verif.Pcr.Props
/-! C136: certificate chains and their digests over SPDM. -/
namespace Verif.SpdmCert
open Verif
open Spec (Chain)

/-- The slot, offset and length of a request. -/
def slotOf (req : Bytes) : UInt8 := req.getD 2 0 &&& 0xf
def offOf (req : Bytes) : Nat := leNat ((req.drop 4).take 2)
def lenOf (req : Bytes) : Nat := leNat ((req.drop 6).take 2)

/-- A CERTIFICATE response. -/
def response (v slot : UInt8) (rem : Nat) (d : Bytes) : Bytes := [hdr v, 2, slot, 0] ++ toLE 2 d.length ++ toLE 2 rem ++ d

/-- The remainder as it is computed. -/
def remOf (total off n : Nat) : Nat :=
  let r := (total % 65536 + 2 ^ 32 - n) % 2 ^ 32
  (if off < r then r - off else 0) % 65536

theorem remOf_small {total off n : Nat} (ht : total < 65536) (hn : n ≤ total) : remOf total off n = total - off - n := by
  unfold remOf
  have : (total % 65536 + 2 ^ 32 - n) % 2 ^ 32 = total - n := by omega
  simp only [this]
  split <;> omega

theorem min_len (len n : Nat) : (if len > n then n else len) = min len n := by
  split <;> omega

theorem served_sound {H : Pcr.Hash} (hH : Pcr.GoodHash H) {f : Fault} {maxResp : Nat} {c c' : Conn} {req r : Bytes}
    (h : getCertificate H f maxResp c req = (c', some r)) :
    (∃ e, r = errorReply c e) ∨
    (8 ≤ req.length ∧ req.getD 0 0 = c.version ∧ Ready c ∧ slotOf req < 8 ∧ 8 < maxResp ∧ 0 < lenOf req ∧
    ∃ ch ty, c.chains[(slotOf req).toNat]? = some ch ∧ c.hash = some ty ∧ Full ch ∧
      let d := window (ch.bytes H ty) (offOf req) (min (lenOf req) (maxResp - 8))
      r = response c.version (slotOf req) (remOf (ch.total ty.len) (offOf req) d.length) d ∧
      c' = { plus (plus { c with l1l2 := [] } (req.take 8)) r with state := max c.state 5 }) := by
  unfold getCertificate at h
  cases hk : checks c req 8 with
  | some x => rw [hk] at h; cases h; exact .inl ⟨_, rfl⟩
  | none =>
    rw [hk] at h
    obtain ⟨k1, k2, k3⟩ := checks_none.1 hk
    simp only at h
    by_cases hs : req.getD 2 0 &&& 0xf ≥ 8
    · rw [if_pos hs] at h; cases h; exact .inl ⟨_, rfl⟩
    rw [if_neg hs] at h
    cases hc : c.chains[(req.getD 2 0 &&& 0xf).toNat]? with
    | none => rw [hc] at h; cases h; exact .inl ⟨_, rfl⟩
    | some ch =>
      rw [hc] at h
      simp only at h
      rcases Option.eq_none_or_eq_some c.hash with ht | ⟨ty, ht⟩
      · rw [ht] at h; cases h; exact .inl ⟨_, rfl⟩
      · rw [ht] at h
        simp only at h
        rw [← ht] at h
        cases ha : addM1M2 f.update1 { c with l1l2 := [] } (req.take 8) with
        | none => rw [ha] at h; cases h; exact .inl ⟨_, rfl⟩
        | some c1 =>
          rw [ha] at h
          have e1 := add_ok ha
          simp only at h
          by_cases hm : maxResp < 8
          · rw [if_pos hm] at h; cases h
          rw [if_neg hm, min_len] at h
          rcases getChain_eq hH (f.hash 0) ty ch (leNat ((req.drop 4).take 2)) (min (leNat ((req.drop 6).take 2)) (maxResp - 8)) with
            ⟨g1, _, g2, g3⟩ | ⟨_, e, g3⟩
          · rw [g3] at h
            simp only at h
            cases hb : addM1M2 f.update2 c1 ([hdr (req.getD 0 0), 0x02, req.getD 2 0 &&& 0xf, 0] ++
                toLE 2 ((window (ch.bytes H ty) (leNat ((req.drop 4).take 2)) (min (leNat ((req.drop 6).take 2)) (maxResp - 8))).length % 65536) ++
                toLE 2 (remOf (ch.total ty.len) (leNat ((req.drop 4).take 2))
                  (window (ch.bytes H ty) (leNat ((req.drop 4).take 2)) (min (leNat ((req.drop 6).take 2)) (maxResp - 8))).length) ++
                window (ch.bytes H ty) (leNat ((req.drop 4).take 2)) (min (leNat ((req.drop 6).take 2)) (maxResp - 8))) with
            | none =>
              unfold remOf at hb
              rw [hb] at h
              cases h
              left
              refine ⟨5, ?_⟩
              rw [e1]; rfl
            | some c2 =>
              have e2 := add_ok hb
              unfold remOf at hb
              rw [hb] at h
              right
              simp only [Prod.mk.injEq, Option.some.injEq] at h
              obtain ⟨h1, h2⟩ := h
              refine ⟨k1, k2, k3, by unfold slotOf; exact UInt8.not_le.1 hs, by omega, by unfold lenOf; omega, ch, ty, hc, ht, g1, ?_, ?_⟩
              · rw [← h2, ← k2, toLE2_mod]; rfl
              · rw [← h1, ← h2]
                unfold remOf at e2
                rw [e2, e1]
                have : (if (plus (plus { c with l1l2 := [] } (req.take 8)) r).state < 5 then 5
                    else (plus (plus { c with l1l2 := [] } (req.take 8)) r).state) = max c.state 5 := by
                  show (if c.state < 5 then 5 else c.state) = _
                  split <;> omega
                rw [← h2] at this
                rw [this]
          · rw [g3] at h
            cases h
            left
            refine ⟨5, ?_⟩
            rw [e1]; rfl

theorem served_complete {H : Pcr.Hash} (hH : Pcr.GoodHash H) {maxResp : Nat} {c : Conn} {req : Bytes} (h8 : 8 ≤ req.length)
    (hv : req.getD 0 0 = c.version) (hr : Ready c) (hs : slotOf req < 8) (hm : 8 < maxResp) (hl : 0 < lenOf req) {ch : Chain}
    {ty : Pcr.HashType} (hc : c.chains[(slotOf req).toNat]? = some ch) (ht : c.hash = some ty) (hf : Full ch) :
    ∃ c' r, getCertificate H {} maxResp c req = (c', some r) ∧ ∀ e, r ≠ errorReply c e := by
  unfold getCertificate
  rw [checks_none.2 ⟨h8, hv, hr⟩]
  simp only
  rw [show req.getD 2 0 &&& 0xf = slotOf req from rfl, if_neg (show ¬ slotOf req ≥ 8 from UInt8.not_le.2 hs), hc]
  simp only [ht, add_good]
  rw [if_neg (by omega), min_len]
  rcases getChain_eq hH false ty ch (leNat ((req.drop 4).take 2)) (min (leNat ((req.drop 6).take 2)) (maxResp - 8)) with
    ⟨_, _, _, g3⟩ | ⟨g3, _⟩
  · rw [g3]
    refine ⟨_, _, rfl, fun e he => ?_⟩
    simp [errorReply] at he
  · refine absurd ⟨hf, rfl, ?_⟩ g3
    unfold lenOf at hl
    omega

/-- **C136, portions.** A response to GET_CERTIFICATE that is not an error holds the bytes of the chain in the slot that were asked
for, as far as there are any and they fit the message, and the number of bytes behind them; outside of a session request and
response are what is added to the transcript. Chains have less than 64 KiB. -/
theorem certificate_exact_partial {H : Pcr.Hash} (hH : Pcr.GoodHash H) (f : Fault) (maxResp : Nat) (c c' : Conn) (req r : Bytes)
    (hsmall : ∀ ch ∈ c.chains, ∀ ty, c.hash = some ty → ch.total ty.len < 65536)
    (h : getCertificate H f maxResp c req = (c', some r)) :
    (∃ e, r = errorReply c e) ∨
    (req.getD 0 0 = c.version ∧ Ready c ∧ slotOf req < 8 ∧ ∃ ch ty, c.chains[(slotOf req).toNat]? = some ch ∧ c.hash = some ty ∧ Full ch ∧
      let d := window (ch.bytes H ty) (offOf req) (min (lenOf req) (maxResp - 8))
      r = response c.version (slotOf req) ((ch.bytes H ty).length - offOf req - d.length) d ∧ r.length ≤ maxResp ∧
      c'.m1m2 = (if c.session = .none then c.m1m2 ++ req.take 8 ++ r else c.m1m2) ∧ c'.chains = c.chains ∧ c'.hash = c.hash ∧ Ready c') := by
  rcases served_sound hH h with h | ⟨h1, h2, h3, h4, h5, h6, ch, ty, h7, h8, h9, h10, h11⟩
  · exact .inl h
  · right
    refine ⟨h2, h3, h4, ch, ty, h7, h8, h9, ?_, ?_, ?_, ?_, ?_, ?_⟩
    · rw [bytes_length hH]
      have ht := hsmall ch (List.mem_of_getElem? h7) ty h8
      rw [remOf_small ht (by rw [window_length, bytes_length hH]; omega)] at h10
      exact h10
    · rw [h10]
      simp only [response, List.length_append, toLE_length, window_length, List.length_cons, List.length_nil]
      omega
    · rw [h11]
      simp only [plus]
      split <;> rfl
    · rw [h11]; rfl
    · rw [h11]; rfl
    · rw [h11]
      exact ⟨h3.normal, by show 3 ≤ max c.state 5; omega, h3.cap, h3.session⟩

theorem parse_response {v slot : UInt8} {rem : Nat} {d : Bytes} (hr : rem < 65536) (hd : d.length < 65536) :
    Spec.parse (response v slot rem d) = some (d, rem) := by
  simp only [response, toLE, List.cons_append, List.nil_append, Spec.parse, UInt8.toNat_ofNat']
  have e1 : d.length % 2 ^ 8 + 256 * (d.length / 256 % 2 ^ 8) = d.length := by omega
  have e2 : rem % 2 ^ 8 + 256 * (rem / 256 % 2 ^ 8) = rem := by omega
  rw [e1, e2]
  simp

theorem request_off {v slot : UInt8} {off len : Nat} : offOf (Spec.request v slot off len) = off % 65536 ∧
    lenOf (Spec.request v slot off len) = len % 65536 ∧ (Spec.request v slot off len).length = 8 ∧
    (Spec.request v slot off len).getD 0 0 = v ∧ slotOf (Spec.request v slot off len) = slot &&& 0xf := by
  refine ⟨?_, ?_, rfl, rfl, rfl⟩
  · show leNat (toLE 2 off) = _
    rw [leNat_toLE]
  · show leNat (toLE 2 len) = _
    rw [leNat_toLE]

/-- What the two requests leave alone. -/
structure Same (c c' : Conn) : Prop where
  version : c'.version = c.version
  chains : c'.chains = c.chains
  hash : c'.hash = c.hash
  ready : Ready c'

theorem fetch_aux {H : Pcr.Hash} (hH : Pcr.GoodHash H) {maxResp : Nat} (hm : 8 < maxResp) {slot : UInt8} (hs : slot < 8) {ch : Chain}
    {ty : Pcr.HashType} (hf : Full ch) (ht : ch.total ty.len < 65536) :
    ∀ (ls : List Nat) (k : Nat) (c : Conn), (∀ l ∈ ls, 0 < l ∧ l < 65536) → Ready c → c.chains[slot.toNat]? = some ch → c.hash = some ty →
    k < ch.total ty.len →
    (Spec.fetch (getCertificate H {} maxResp) c.version slot ls ((ch.bytes H ty).take k) c = none ∧ ls.length < ch.total ty.len - k) ∨
    Spec.fetch (getCertificate H {} maxResp) c.version slot ls ((ch.bytes H ty).take k) c = some (ch.bytes H ty)
  | [], k, c, _, _, _, _, hk => .inl ⟨rfl, by simp only [List.length_nil]; omega⟩
  | l :: ls, k, c, hl, hr, hc, hh, hk => by
    obtain ⟨l1, l2⟩ := hl l (by simp)
    have hbl := bytes_length hH ty ch
    have hkl : ((ch.bytes H ty).take k).length = k := by rw [List.length_take]; omega
    have hsm : slot &&& 0xf = slot := by
      have : ∀ s : UInt8, s < 8 → s &&& 0xf = s := by decide +kernel
      exact this slot hs
    obtain ⟨q1, q2, q3, q4, q5⟩ := request_off (v := c.version) (slot := slot) (off := k) (len := l)
    rw [hsm] at q5
    rw [Nat.mod_eq_of_lt (by omega)] at q1 q2
    obtain ⟨c', r, e, hne⟩ := served_complete (H := H) hH (maxResp := maxResp) (c := c) (req := Spec.request c.version slot k l)
      (by omega) q4 hr (by rw [q5]; exact hs) hm (by omega) (by rw [q5]; exact hc) hh hf
    rcases served_sound hH e with ⟨x, h⟩ | ⟨_, _, _, _, _, _, ch', ty', h7, h8, _, h10, h11⟩
    · exact absurd h (hne x)
    · rw [q5, hc] at h7
      cases h7
      rw [hh] at h8
      cases h8
      rw [q1, q2, q5] at h10
      unfold Spec.fetch
      rw [hkl, e]
      simp only
      have hwl : (window (ch.bytes H ty) k (min l (maxResp - 8))).length = min (min l (maxResp - 8)) (ch.total ty.len - k) := by
        rw [window_length, hbl]
      rw [h10, parse_response (by rw [remOf_small ht (by omega)]; omega) (by omega)]
      have hcat : (ch.bytes H ty).take k ++ window (ch.bytes H ty) k (min l (maxResp - 8)) =
          (ch.bytes H ty).take (k + min l (maxResp - 8)) := by
        rw [List.take_add]; rfl
      rw [remOf_small ht (by omega), hwl]
      cases hrem : ch.total ty.len - k - min (min l (maxResp - 8)) (ch.total ty.len - k) with
      | zero =>
        right
        simp only [hcat]
        rw [List.take_of_length_le (by omega)]
      | succ n =>
        simp only [hcat]
        have hv : c'.version = c.version := by rw [h11]; rfl
        have ih := fetch_aux hH hm hs hf ht ls (k + min l (maxResp - 8)) c' (fun x hx => hl x (by simp [hx]))
          (by rw [h11]; exact ⟨hr.normal, by show 3 ≤ max c.state 5; omega, hr.cap, hr.session⟩)
          (by rw [h11]; exact hc) (by rw [h11]; exact hh) (by omega)
        rw [hv] at ih
        rcases ih with ⟨i1, i2⟩ | i1
        · left
          refine ⟨i1, ?_⟩
          simp only [List.length_cons]; omega
        · exact .inr i1

/-- **C136, whole chain.** A requester that reads a slot in portions of any sizes gets exactly the chain, and gets it after at most as many
requests as it has bytes. -/
theorem fetch_exact_partial {H : Pcr.Hash} (hH : Pcr.GoodHash H) (maxResp : Nat) (hm : 8 < maxResp) (slot : UInt8) (hs : slot < 8) (c : Conn)
    (hr : Ready c) (ch : Chain) (hc : c.chains[slot.toNat]? = some ch) (ty : Pcr.HashType) (hh : c.hash = some ty) (hf : Full ch)
    (ht : ch.total ty.len < 65536) (ls : List Nat) (hl : ∀ l ∈ ls, 0 < l ∧ l < 65536) :
    (∀ out, Spec.fetch (getCertificate H {} maxResp) c.version slot ls [] c = some out → out = ch.bytes H ty) ∧
    (ch.total ty.len ≤ ls.length → Spec.fetch (getCertificate H {} maxResp) c.version slot ls [] c = some (ch.bytes H ty)) := by
  have h0 : 0 < ch.total ty.len := by unfold Spec.Chain.total; omega
  have h := fetch_aux hH hm hs hf ht ls 0 c hl hr hc hh h0
  rw [List.take_zero] at h
  rcases h with ⟨h1, h2⟩ | h1
  · exact ⟨fun out ho => (by rw [h1] at ho; cases ho), fun hx => by omega⟩
  · exact ⟨fun out ho => (by rw [h1] at ho; cases ho; rfl), fun _ => h1⟩

/-! ### Digests -/

theorem loop_some {H : Pcr.Hash} (hH : Pcr.GoodHash H) {f : Fault} {ty : Pcr.HashType} : ∀ (cs : List Chain) (i : Nat) (mask : UInt8) (r : Bytes × UInt8),
    digestLoop H f ty i cs mask = some r →
    r.1 = (cs.map fun ch => H ty (ch.bytes H ty)).flatten ∧ r.2 = cs.foldl (fun (m : UInt8) _ => m <<< 1 ||| 1) mask ∧ ∀ ch ∈ cs, Full ch
  | [], i, mask, r, h => by cases h; exact ⟨rfl, rfl, nofun⟩
  | ch :: cs, i, mask, r, h => by
    unfold digestLoop at h
    rcases getDigest_eq hH (f.hash i) (f.hash2 i) ty ch with ⟨g1, _, _, g⟩ | ⟨_, e, g⟩
    · rw [g] at h
      simp only [Option.map_eq_some_iff] at h
      obtain ⟨x, hx, rfl⟩ := h
      obtain ⟨h1, h2, h3⟩ := loop_some hH cs _ _ x hx
      refine ⟨by simp [h1], by simp [h2], fun y hy => ?_⟩
      rcases List.mem_cons.1 hy with rfl | hy
      · exact g1
      · exact h3 y hy
    · rw [g] at h; cases h

theorem loop_full {H : Pcr.Hash} (hH : Pcr.GoodHash H) {ty : Pcr.HashType} : ∀ (cs : List Chain) (i : Nat) (mask : UInt8),
    (∀ ch ∈ cs, Full ch) → ∃ r, digestLoop H {} ty i cs mask = some r
  | [], i, mask, _ => ⟨_, rfl⟩
  | ch :: cs, i, mask, hf => by
    unfold digestLoop
    obtain ⟨x, hx⟩ := loop_full hH (ty := ty) cs (i + 1) (mask <<< 1 ||| 1) (fun y hy => hf y (by simp [hy]))
    rcases getDigest_eq hH false false ty ch with ⟨_, _, _, g⟩ | ⟨g, _⟩
    · have g : getDigest H (({} : Fault).hash i) (({} : Fault).hash2 i) ty ch ty.len = .ok (H ty (ch.bytes H ty)) := g
      rw [g]
      simp only [hx, Option.map_some]
      exact ⟨_, rfl⟩
    · exact absurd ⟨hf ch (by simp), rfl, rfl⟩ g

theorem mask_eq (cs : List Chain) (h : cs.length ≤ 8) : cs.foldl (fun (m : UInt8) _ => m <<< 1 ||| 1) 0 = UInt8.ofNat (2 ^ cs.length - 1) := by
  have key : ∀ (cs : List Chain) (k : Nat), k + cs.length ≤ 8 →
      cs.foldl (fun (m : UInt8) _ => m <<< 1 ||| 1) (UInt8.ofNat (2 ^ k - 1)) = UInt8.ofNat (2 ^ (k + cs.length) - 1) := by
    intro cs
    induction cs with
    | nil => intro k _; rfl
    | cons c cs ih =>
      intro k hk
      simp only [List.length_cons] at hk
      have e : UInt8.ofNat (2 ^ k - 1) <<< 1 ||| 1 = UInt8.ofNat (2 ^ (k + 1) - 1) := by
        have : ∀ k : Fin 8, UInt8.ofNat (2 ^ k.val - 1) <<< 1 ||| 1 = UInt8.ofNat (2 ^ (k.val + 1) - 1) := by decide +kernel
        exact this ⟨k, by omega⟩
      rw [List.foldl_cons, e, ih (k + 1) (by omega), List.length_cons]
      congr 3; omega
  have := key cs 0 (by omega)
  simpa using this

/-- **C136, digests.** A response to GET_DIGESTS that is not an error has, for each of the (at most eight) slots, the hash of exactly the chain that
GET_CERTIFICATE gives, and fits the message. Outside of a session the transcript then consists of request and response. -/
theorem digests_exact {H : Pcr.Hash} (hH : Pcr.GoodHash H) (f : Fault) (maxResp : Nat) (c c' : Conn) (req r : Bytes)
    (h : getDigests H f maxResp c req = (c', some r)) :
    (∃ e, r = errorReply c e) ∨
    (req.getD 0 0 = c.version ∧ Ready c ∧ ∃ ty, c.hash = some ty ∧ (∀ ch ∈ c.chains.take 8, Full ch) ∧
      r = [hdr c.version, 1, 0, UInt8.ofNat (2 ^ (min 8 c.chains.length) - 1)] ++
        ((c.chains.take 8).map fun ch => H ty (ch.bytes H ty)).flatten ∧ r.length ≤ maxResp ∧
      c'.m1m2 = (if c.session = .none then req.take 4 ++ r else []) ∧ c'.chains = c.chains ∧ c'.hash = c.hash ∧ Ready c') := by
  unfold getDigests at h
  cases hk : checks c req 4 with
  | some x => rw [hk] at h; cases h; exact .inl ⟨_, rfl⟩
  | none =>
    rw [hk] at h
    obtain ⟨k1, k2, k3⟩ := checks_none.1 hk
    simp only at h
    cases ha : addM1M2 f.update1 { c with l1l2 := [], m1m2 := [] } (req.take 4) with
    | none => rw [ha] at h; cases h; exact .inl ⟨_, rfl⟩
    | some c1 =>
      have e1 := add_ok ha
      rw [ha] at h
      simp only at h
      cases ht : c1.hash with
      | none => rw [ht] at h; cases h; left; exact ⟨5, by rw [e1]; rfl⟩
      | some ty =>
        rw [ht] at h
        simp only at h
        have ec : c1.chains = c.chains := by rw [e1]; rfl
        have et : c.hash = some ty := by rw [← ht, e1]; rfl
        rw [ec] at h
        by_cases hl : 4 + ty.len * min 8 c.chains.length > maxResp
        · rw [if_pos hl] at h; cases h; left; exact ⟨5, by rw [e1]; rfl⟩
        · rw [if_neg hl] at h
          have etk : c.chains.take (min 8 c.chains.length) = c.chains.take 8 := by
            rcases Nat.le_total 8 c.chains.length with h | h
            · rw [Nat.min_eq_left h]
            · rw [Nat.min_eq_right h, List.take_of_length_le h, List.take_of_length_le (Nat.le_refl _)]
          rw [etk] at h
          cases hd : digestLoop H f ty 0 (c.chains.take 8) 0 with
          | none => rw [hd] at h; cases h; left; exact ⟨5, by rw [e1]; rfl⟩
          | some x =>
            obtain ⟨ds, mask⟩ := x
            rw [hd] at h
            simp only at h
            obtain ⟨l1, l2, l3⟩ := loop_some hH _ _ _ _ hd
            simp only at l1 l2
            rw [mask_eq _ (by rw [List.length_take]; omega), List.length_take] at l2
            cases hb : addM1M2 f.update2 c1 ([hdr (req.getD 0 0), 0x01, 0, mask] ++ ds) with
            | none => rw [hb] at h; cases h; left; exact ⟨5, by rw [e1]; rfl⟩
            | some c2 =>
              have e2 := add_ok hb
              rw [hb] at h
              simp only [Prod.mk.injEq, Option.some.injEq] at h
              obtain ⟨h1, h2⟩ := h
              right
              have hr : r = [hdr c.version, 1, 0, UInt8.ofNat (2 ^ (min 8 c.chains.length) - 1)] ++
                  ((c.chains.take 8).map fun ch => H ty (ch.bytes H ty)).flatten := by
                rw [← h2, k2, l2, l1]
              have hlen : ∀ l : List Chain, ((l.map fun ch => H ty (ch.bytes H ty)).flatten).length = ty.len * l.length := by
                intro l
                induction l with
                | nil => rfl
                | cons a l ih =>
                  have := hH ty (a.bytes H ty)
                  simp only [List.map_cons, List.flatten_cons, List.length_append, ih, List.length_cons, Nat.mul_add, this]
                  omega
              refine ⟨k2, k3, ty, et, l3, hr, ?_, ?_, ?_, ?_, ?_⟩
              · rw [hr, List.length_append, hlen, List.length_take]
                simp only [List.length_cons, List.length_nil]; omega
              · rw [← h1, e2, h2, e1]
                simp only [plus]
                split
                · simp
                · rfl
              · rw [← h1, e2, e1]; rfl
              · rw [← h1, e2, e1]; rfl
              · rw [← h1, e2, e1]
                refine ⟨k3.normal, ?_, k3.cap, k3.session⟩
                show 3 ≤ if c.state < 4 then 4 else c.state
                have := k3.negotiated
                split <;> omega

/-- **C136, digests served.** Without failures GET_DIGESTS is answered if the response fits. -/
theorem digests_served {H : Pcr.Hash} (hH : Pcr.GoodHash H) (maxResp : Nat) (c : Conn) (req : Bytes) (h4 : 4 ≤ req.length)
    (hv : req.getD 0 0 = c.version) (hr : Ready c) (ty : Pcr.HashType) (ht : c.hash = some ty) (hf : ∀ ch ∈ c.chains.take 8, Full ch)
    (hm : 4 + ty.len * min 8 c.chains.length ≤ maxResp) :
    ∃ c' r, getDigests H {} maxResp c req = (c', some r) ∧ ∀ e, r ≠ errorReply c e := by
  unfold getDigests
  rw [checks_none.2 ⟨h4, hv, hr⟩]
  simp only [add_good]
  rw [show (plus { c with l1l2 := [], m1m2 := [] } (req.take 4)).hash = some ty from ht]
  simp only
  rw [show (plus { c with l1l2 := [], m1m2 := [] } (req.take 4)).chains = c.chains from rfl, if_neg (Nat.not_lt.2 hm)]
  obtain ⟨x, hx⟩ := loop_full hH (ty := ty) (c.chains.take (min 8 c.chains.length)) 0 0
    (fun ch h => hf ch ((List.take_subset_take_left _ (Nat.min_le_left 8 c.chains.length)) h))
  rw [hx]
  refine ⟨_, _, rfl, fun e he => ?_⟩
  simp [errorReply] at he

/-- **C136, refused.** Requests outside of the negotiated state, of another version, too short, or for a slot without certificates get an error and
leave the transcripts as they are. -/
theorem refused (H : Pcr.Hash) (f : Fault) (maxResp : Nat) (c : Conn) (req : Bytes)
    (h : req.length < 8 ∨ req.getD 0 0 ≠ c.version ∨ ¬ Ready c ∨ c.chains.length ≤ (slotOf req).toNat ∨ 8 ≤ slotOf req) :
    ∃ c' e, getCertificate H f maxResp c req = (c', some (errorReply c e)) ∧ c'.m1m2 = c.m1m2 ∧ c'.l1l2 = c.l1l2 := by
  unfold getCertificate
  cases hk : checks c req 8 with
  | some x =>
    refine ⟨x.1, x.2, rfl, ?_⟩
    unfold checks at hk
    repeat' split at hk
    all_goals first
      | (cases hk; exact ⟨rfl, rfl⟩)
      | cases hk
  | none =>
    obtain ⟨k1, k2, k3⟩ := checks_none.1 hk
    simp only
    by_cases hs : req.getD 2 0 &&& 0xf ≥ 8
    · rw [if_pos hs]; exact ⟨_, _, rfl, rfl, rfl⟩
    · rw [if_neg hs]
      rcases h with h | h | h | h | h
      · omega
      · exact absurd k2 h
      · exact absurd k3 h
      · rw [show req.getD 2 0 &&& 0xf = slotOf req from rfl, List.getElem?_eq_none h]
        exact ⟨_, _, rfl, rfl, rfl⟩
      · exact absurd h hs

/-! ### A concrete case and what is missing -/

/-- A chain of four certificates. -/
def exChain : Chain := { root := some [1, 2, 3], intermediate := some [4], deviceId := [5, 6], alias := [7, 8, 9] }

def exConn : Conn :=
  { version := 0x12, resp := .normal, state := 3, certCap := true, hash := some (.sha2 .sha256), chains := [exChain], session := .none, m1m2 := [0xaa],
    l1l2 := [0xbb] }

/-- Portions of 12, 16 (what fits), 3 and 14 bytes give the 45 bytes. -/
example : Ready exConn ∧ Full exChain ∧ exChain.total (Pcr.HashType.sha2 .sha256).len = 45 ∧
    Spec.fetch (getCertificate Pcr.exHash {} 24) 0x12 0 [12, 40, 3, 16] [] exConn = some (exChain.bytes Pcr.exHash (.sha2 .sha256)) ∧
    Spec.fetch (getCertificate Pcr.exHash {} 24) 0x12 0 [12, 4] [] exConn = none :=
  ⟨⟨rfl, by decide, rfl, .inl rfl⟩, ⟨nofun, nofun⟩, by decide +kernel, by decide +kernel, by decide +kernel⟩

example : (getDigests Pcr.exHash {} 100 exConn [0x12, 0x81, 0, 0]).2 =
    some ([0x12, 1, 0, 1] ++ Pcr.exHash (.sha2 .sha256) (exChain.bytes Pcr.exHash (.sha2 .sha256))) := by decide +kernel

/-- The limit of 64 KiB in `fetch_exact_partial` is needed: of every chain of 65536 + k bytes a requester that asks for k bytes first is told that
nothing remains. -/
theorem long_chain_cut {H : Pcr.Hash} (hH : Pcr.GoodHash H) (maxResp k : Nat) (slot : UInt8) (hs : slot < 8) (c : Conn) (hr : Ready c) (ch : Chain)
    (hc : c.chains[slot.toNat]? = some ch) (ty : Pcr.HashType) (hh : c.hash = some ty) (hf : Full ch) (ht : ch.total ty.len = 65536 + k)
    (hk : 0 < k) (hk' : k < 65536) (hm : k + 8 ≤ maxResp) :
    Spec.fetch (getCertificate H {} maxResp) c.version slot [k] [] c = some ((ch.bytes H ty).take k) ∧
    (ch.bytes H ty).take k ≠ ch.bytes H ty := by
  have hbl := bytes_length hH ty ch
  have hsm : slot &&& 0xf = slot := by
    have : ∀ s : UInt8, s < 8 → s &&& 0xf = s := by decide +kernel
    exact this slot hs
  obtain ⟨q1, q2, q3, q4, q5⟩ := request_off (v := c.version) (slot := slot) (off := 0) (len := k)
  rw [hsm] at q5
  rw [Nat.mod_eq_of_lt (by omega)] at q1 q2
  obtain ⟨c', r, e, hne⟩ := served_complete (H := H) hH (maxResp := maxResp) (c := c) (req := Spec.request c.version slot 0 k)
    (by omega) q4 hr (by rw [q5]; exact hs) (by omega) (by omega) (by rw [q5]; exact hc) hh hf
  constructor
  · rcases served_sound hH e with ⟨x, h⟩ | ⟨_, _, _, _, _, _, ch', ty', h7, h8, _, h10, h11⟩
    · exact absurd h (hne x)
    · rw [q5, hc] at h7
      cases h7
      rw [hh] at h8
      cases h8
      rw [q1, q2, q5, Nat.min_eq_left (by omega)] at h10
      have hwl : (window (ch.bytes H ty) 0 k).length = k := by rw [window_length, hbl]; omega
      have hrem : remOf (ch.total ty.len) 0 (window (ch.bytes H ty) 0 k).length = 0 := by
        unfold remOf
        rw [hwl, ht]
        have : ((65536 + k) % 65536 + 2 ^ 32 - k) % 2 ^ 32 = 0 := by omega
        simp only [this, Nat.lt_irrefl, if_false, Nat.zero_mod]
      unfold Spec.fetch
      simp only [List.length_nil]
      rw [e]
      simp only
      rw [h10, parse_response (by rw [hrem]; omega) (by omega), hrem]
      simp [window]
  · intro h
    have := congrArg List.length h
    rw [List.length_take] at this
    omega

/-- A request that fails after it has been added stays in the transcript: a length of zero. -/
theorem failed_request_kept : ∃ c req, (getCertificate Pcr.exHash {} 100 c req).2 = some (errorReply c 5) ∧
    (getCertificate Pcr.exHash {} 100 c req).1.m1m2 = c.m1m2 ++ req :=
  ⟨exConn, [0x12, 0x82, 0, 0, 0, 0, 0, 0], by decide +kernel, by decide +kernel⟩

/-- An offset behind the chain is answered with an empty portion, not with an error. -/
theorem beyond_end_answered : ∃ c, (getCertificate Pcr.exHash {} 100 c [0x12, 0x82, 0, 0, 0, 1, 5, 0]).2 = some [0x12, 2, 0, 0, 0, 0, 0, 0] :=
  ⟨exConn, by decide +kernel⟩

/-- GET_DIGESTS within a session drops what the transcript outside had. -/
theorem session_resets : ∃ c req, c.session = .found true ∧ c.m1m2 ≠ [] ∧ (getDigests Pcr.exHash {} 100 c req).1.m1m2 = [] :=
  ⟨{ exConn with session := .found true }, [0x12, 0x81, 0, 0], rfl, by decide, by decide +kernel⟩

/-- A largest response below eight bytes is exceeded. -/
theorem small_buffer_exceeded : ∃ c req, (getCertificate Pcr.exHash {} 7 c req).2 = none :=
  ⟨exConn, [0x12, 0x82, 0, 0, 0, 0, 5, 0], by decide +kernel⟩

end Verif.SpdmCert
