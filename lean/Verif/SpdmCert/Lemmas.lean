import Verif.SpdmCert.Model
import Verif.BufferUtil.Props
/-! Helper lemmas for `SpdmCert`. -/
namespace Verif.SpdmCert
open Verif
open Spec (Chain)

theorem toLE2_mod (n : Nat) : toLE 2 (n % 65536) = toLE 2 n := by
  simp only [toLE, List.cons.injEq, and_true]
  constructor <;> apply UInt8.toNat_inj.1 <;> simp only [UInt8.toNat_ofNat'] <;> omega

/-- Certificates that must be there. -/
def Full (c : Chain) : Prop := c.deviceId ≠ [] ∧ c.alias ≠ []

/-- The header. -/
def head (H : Pcr.Hash) (ty : Pcr.HashType) (c : Chain) : Bytes := toLE 2 (c.total ty.len) ++ [0, 0] ++ H ty c.top

theorem bytes_eq (H : Pcr.Hash) (ty : Pcr.HashType) (c : Chain) : c.bytes H ty = head H ty c ++ c.certs.flatten := rfl

theorem bytes_length {H : Pcr.Hash} (hH : Pcr.GoodHash H) (ty : Pcr.HashType) (c : Chain) : (c.bytes H ty).length = c.total ty.len := by
  have := hH ty c.top
  simp only [Spec.Chain.bytes, List.length_append, toLE_length, Spec.Chain.total, List.length_cons, List.length_nil]
  omega

theorem prepare_eq {H : Pcr.Hash} (hH : Pcr.GoodHash H) (fail : Bool) (ty : Pcr.HashType) (c : Chain) :
    (Full c ∧ fail = false ∧ prepareHeader H fail ty c = .ok (head H ty c, c.total ty.len % 65536)) ∨
    (¬ (Full c ∧ fail = false) ∧ ∃ e, prepareHeader H fail ty c = .err e) := by
  unfold prepareHeader
  by_cases h : c.deviceId.length = 0 ∨ c.alias.length = 0
  · rw [if_pos h]
    right
    refine ⟨fun ⟨⟨h1, h2⟩, _⟩ => ?_, _, rfl⟩
    simp only [List.length_eq_zero_iff] at h
    rcases h with h | h
    · exact h1 h
    · exact h2 h
  · rw [if_neg h]
    cases fail with
    | true => right; exact ⟨by simp, _, rfl⟩
    | false =>
      left
      simp only [List.length_eq_zero_iff, not_or] at h
      refine ⟨h, rfl, ?_⟩
      obtain ⟨root, inter, dev, ali⟩ := c
      simp only [Bool.false_eq_true, if_false, Res.ok.injEq, Prod.mk.injEq]
      have key : ∀ n x, n = (Spec.Chain.mk root inter dev ali).total ty.len % 65536 → x = H ty (Spec.Chain.mk root inter dev ali).top →
          toLE 2 n ++ [0, 0] ++ x = head H ty ⟨root, inter, dev, ali⟩ ∧ n = (Spec.Chain.mk root inter dev ali).total ty.len % 65536 := by
        intro n x hn hx
        rw [hn, hx, toLE2_mod]
        exact ⟨rfl, rfl⟩
      have hlen : ∀ x, (H ty x).length = ty.len := fun x => hH ty x
      cases root <;> cases inter <;> refine key _ _ ?_ rfl <;>
          simp only [hlen, Spec.Chain.total, Spec.Chain.certs, Option.toList, List.flatten_cons, List.flatten_nil, List.length_append,
            List.nil_append, List.cons_append, List.append_nil, List.length_nil] <;> omega

theorem getChain_eq {H : Pcr.Hash} (hH : Pcr.GoodHash H) (fail : Bool) (ty : Pcr.HashType) (c : Chain) (off len : Nat) :
    (Full c ∧ fail = false ∧ 0 < len ∧ getChain H fail ty c off len = .ok (window (c.bytes H ty) off len, c.total ty.len % 65536)) ∨
    (¬ (Full c ∧ fail = false ∧ 0 < len) ∧ ∃ e, getChain H fail ty c off len = .err e) := by
  unfold getChain
  by_cases h : len = 0
  · rw [if_pos h]; right; exact ⟨by omega, _, rfl⟩
  · rw [if_neg h]
    rcases prepare_eq hH fail ty c with ⟨h1, h2, h3⟩ | ⟨h1, e, h3⟩
    · left
      refine ⟨h1, h2, by omega, ?_⟩
      rw [h3]
      simp only [Res.bind, Res.ok.injEq, Prod.mk.injEq, and_true]
      have := BufferUtil.copyAll_window (head H ty c :: c.certs) ⟨off, len, []⟩
      rw [List.flatten_cons, ← bytes_eq, List.nil_append] at this
      simp only at this
      rw [← this]
      obtain ⟨root, inter, dev, ali⟩ := c
      cases root <;> cases inter <;> rfl
    · right
      rw [h3]
      exact ⟨fun ⟨a, b, _⟩ => h1 ⟨a, b⟩, e, rfl⟩

theorem getDigest_eq {H : Pcr.Hash} (hH : Pcr.GoodHash H) (fail fail2 : Bool) (ty : Pcr.HashType) (c : Chain) :
    (Full c ∧ fail = false ∧ fail2 = false ∧ getDigest H fail fail2 ty c ty.len = .ok (H ty (c.bytes H ty))) ∨
    (¬ (Full c ∧ fail = false ∧ fail2 = false) ∧ ∃ e, getDigest H fail fail2 ty c ty.len = .err e) := by
  unfold getDigest
  rcases prepare_eq hH fail ty c with ⟨h1, h2, h3⟩ | ⟨h1, e, h3⟩
  · rw [h3]
    cases fail2 with
    | true => right; exact ⟨by simp, _, rfl⟩
    | false =>
      left
      refine ⟨h1, h2, rfl, ?_⟩
      simp only [Res.bind, Bool.false_eq_true, if_false, Nat.lt_irrefl, Res.ok.injEq]
      congr 1
      rw [bytes_eq]
      obtain ⟨root, inter, dev, ali⟩ := c
      cases root <;> cases inter <;> simp [Spec.Chain.certs]
  · right
    rw [h3]
    exact ⟨fun ⟨a, b, _⟩ => h1 ⟨a, b⟩, e, rfl⟩

/-- The connection is at a point where the requests are allowed. -/
structure Ready (c : Conn) : Prop where
  normal : c.resp = .normal
  negotiated : 3 ≤ c.state
  cap : c.certCap = true
  session : c.session = .none ∨ c.session = .found true

theorem checks_none {c : Conn} {req : Bytes} {n : Nat} :
    checks c req n = none ↔ n ≤ req.length ∧ req.getD 0 0 = c.version ∧ Ready c := by
  unfold checks
  by_cases h1 : req.length < n
  · rw [if_pos h1]
    exact ⟨nofun, fun h => absurd h.1 (by omega)⟩
  · rw [if_neg h1]
    by_cases h2 : req.getD 0 0 ≠ c.version
    · rw [if_pos h2]
      exact ⟨nofun, fun h => absurd h.2.1 h2⟩
    · rw [if_neg h2]
      simp only [ne_eq, Decidable.not_not] at h2
      cases hr : c.resp with
      | normal =>
        simp only
        by_cases h3 : c.state < 3
        · rw [if_pos h3]
          exact ⟨nofun, fun h => absurd h.2.2.negotiated (by omega)⟩
        · rw [if_neg h3]
          cases h4 : c.certCap with
          | false => exact ⟨nofun, fun h => absurd h.2.2.cap (by rw [h4]; decide)⟩
          | true =>
            simp only [Bool.true_eq_false, if_false]
            cases h5 : c.session with
            | none => exact ⟨fun _ => ⟨by omega, h2, hr, by omega, h4, .inl h5⟩, fun _ => rfl⟩
            | missing => exact ⟨nofun, fun h => by rcases h.2.2.session with h | h <;> rw [h5] at h <;> cases h⟩
            | found e =>
              cases e with
              | false => exact ⟨nofun, fun h => by rcases h.2.2.session with h | h <;> rw [h5] at h <;> cases h⟩
              | true => exact ⟨fun _ => ⟨by omega, h2, hr, by omega, h4, .inr h5⟩, fun _ => rfl⟩
      | busy => exact ⟨nofun, fun h => by have := h.2.2.normal; rw [hr] at this; cases this⟩
      | needResync => exact ⟨nofun, fun h => by have := h.2.2.normal; rw [hr] at this; cases this⟩
      | encap => exact ⟨nofun, fun h => by have := h.2.2.normal; rw [hr] at this; cases this⟩
      | other => exact ⟨nofun, fun h => by have := h.2.2.normal; rw [hr] at this; cases this⟩

/-- The transcript with a message added. -/
def plus (c : Conn) (x : Bytes) : Conn := { c with m1m2 := if c.session = .none then c.m1m2 ++ x else c.m1m2 }

theorem add_ok {fail : Bool} {c c' : Conn} {x : Bytes} (h : addM1M2 fail c x = some c') : c' = plus c x := by
  unfold addM1M2 at h
  unfold plus
  split at h
  · rename_i hs
    split at h
    · cases h
    · cases h; rw [if_pos hs]
  · rename_i hs
    cases h; rw [if_neg hs]

theorem add_good (c : Conn) (x : Bytes) : addM1M2 false c x = some (plus c x) := by
  unfold addM1M2 plus
  split
  · rename_i hs; rfl
  · rename_i hs; rfl

end Verif.SpdmCert
