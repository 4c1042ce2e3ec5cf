import Verif.MeasObs.Lemmas
/-! Measurements of manifests, recovery images and hosts: property theorems (C148). -/
namespace Verif.MeasObs
open Verif Pcr Spec

/-- The manifest gives these facts; the platform identifier ends at its first NUL. -/
def Reads : Option Manifest → Option Facts → Prop
  | none, none => True
  | some m, some f => m.hash = .ok f.hash ∧ m.id = .ok f.version ∧ ∃ p, m.platform = .ok p ∧ f.platform = p.takeWhile (· ≠ 0)
  | _, _ => False

/-! ### One measurement -/

private theorem measure_ok {H : Hash} (hH : GoodHash H) {f : Fail} {st : List Bank} {t : Nat} (ht : t < 65536) {d : Except Int Bytes}
    (h : (measure H f st t d).2 = .ok ()) : ∃ x a m, d = .ok x ∧ lookup st t = some (a, m) ∧ m.isConstant = false ∧ (measure H f st t d).1 = put st t (updated H a m x) := by
  cases d with
  | error e => cases h
  | ok x =>
    cases hl : lookup st t with
    | none =>
      have := (update_none (H := H) f ht hl x).2
      simp only [measure] at h
      cases hu : (update H f st t x).2 with
      | ok u => exact absurd hu this
      | err e => rw [hu] at h; cases h
      | oob => rw [hu] at h; cases h
    | some am =>
      obtain ⟨a, m⟩ := am
      have e := update_some hH f ht hl x
      simp only [measure, e] at h ⊢
      by_cases c1 : f.1 = true ∨ f.2 = true
      · rw [if_pos c1] at h; cases h
      rw [if_neg c1] at h ⊢
      by_cases c2 : m.isConstant = true
      · rw [if_pos c2] at h; cases h
      rw [if_neg c2]
      exact ⟨x, a, m, rfl, rfl, by simpa using c2, rfl⟩

private theorem measure_cases {H : Hash} (hH : GoodHash H) (f : Fail) (st : List Bank) {t : Nat} (ht : t < 65536) (d : Except Int Bytes) :
    ((measure H f st t d).1 = st ∧ (measure H f st t d).2 ≠ .ok ()) ∨
    ∃ x a m, d = .ok x ∧ lookup st t = some (a, m) ∧ (measure H f st t d).1 = put st t (updated H a m x) ∧ (measure H f st t d).2 = .ok () := by
  cases d with
  | error e => exact .inl ⟨rfl, by simp [measure]⟩
  | ok x =>
    cases hl : lookup st t with
    | none =>
      have := update_none (H := H) f ht hl x
      refine .inl ⟨this.1, fun h => ?_⟩
      obtain ⟨_, _, _, _, h', _⟩ := measure_ok hH ht h
      rw [hl] at h'; cases h'
    | some am =>
      obtain ⟨a, m⟩ := am
      have e := update_some hH f ht hl x
      simp only [measure, e]
      by_cases c1 : f.1 = true ∨ f.2 = true
      · rw [if_pos c1]; exact .inl ⟨rfl, by simp [lift]⟩
      rw [if_neg c1]
      by_cases c2 : m.isConstant = true
      · rw [if_pos c2]; exact .inl ⟨rfl, by simp [lift]⟩
      rw [if_neg c2]
      exact .inr ⟨x, a, m, rfl, rfl, rfl, rfl⟩

private theorem holds_put {H : Hash} {st : List Bank} {t : Nat} {a : Algo} {m : Meas} (h : lookup st t = some (a, m)) (x : Bytes) :
    Holds H (put st t (updated H a m x)) t x := ⟨a, _, lookup_put_self h, rfl⟩

private theorem holds_of_lookup {H : Hash} {st st' : List Bank} {t : Nat} {x : Bytes} (h : lookup st' t = lookup st t) (g : Holds H st t x) : Holds H st' t x := by
  obtain ⟨a, m, h1, h2⟩ := g
  exact ⟨a, m, h.trans h1, h2⟩

private theorem toLE4 (v : Nat) : toLE 4 v = [UInt8.ofNat v, UInt8.ofNat (v / 2 ^ 8), UInt8.ofNat (v / 2 ^ 16), UInt8.ofNat (v / 2 ^ 24)] := by
  simp only [toLE, Nat.div_div_eq_div_mul]

private theorem facts_of {active : Option Manifest} {x y z : Bytes} (h1 : digestOf active = .ok x) (h2 : idOf active = .ok y) (h3 : platformOf active = .ok z) :
    ∃ fs, Reads active fs ∧ x = hashData fs ∧ y = idData fs ∧ z = platformData fs := by
  cases active with
  | none =>
    refine ⟨none, trivial, ?_, ?_, ?_⟩
    · cases h1; rfl
    · cases h2; rfl
    · cases h3; rfl
  | some m =>
    simp only [digestOf, idOf, platformOf] at h1 h2 h3
    cases hi : m.id with
    | error e => rw [hi] at h2; cases h2
    | ok v =>
      cases hp : m.platform with
      | error e => rw [hp] at h3; cases h3
      | ok p =>
        rw [hi] at h2; rw [hp] at h3
        cases h2; cases h3
        exact ⟨some ⟨x, v, p.takeWhile (· ≠ 0)⟩, ⟨h1, hi, p, hp, rfl⟩, rfl, by rw [toLE4]; rfl, rfl⟩

/-! ### Manifests -/

/-- C148: if the measurement of a manifest succeeds, the three measurements are those of its hash, its version and its platform
identifier, or those that say that there is none. No other measurement changes. -/
theorem record_exact {H : Hash} (hH : GoodHash H) (f : Nat → Fail) (st : List Bank) (mt it pt : Nat) (active : Option Manifest)
    (hm : mt < 65536) (hi : it < 65536) (hp : pt < 65536) (hu : mt ≠ it ∧ mt ≠ pt ∧ it ≠ pt)
    (h : (record H f st mt it pt active).2 = .ok ()) :
    ∃ fs, Reads active fs ∧ Holds H (record H f st mt it pt active).1 mt (hashData fs) ∧
      Holds H (record H f st mt it pt active).1 it (idData fs) ∧ Holds H (record H f st mt it pt active).1 pt (platformData fs) ∧
      ∀ t, t ≠ mt → t ≠ it → t ≠ pt → lookup (record H f st mt it pt active).1 t = lookup st t := by
  unfold record at h ⊢
  rcases e1 : measure H (f 0) st mt (digestOf active) with ⟨st1, r1⟩
  rw [e1] at h
  cases r1 with
  | err e => cases h
  | oob => cases h
  | ok u =>
    simp only at h ⊢
    have m1 := measure_ok (f := f 0) (st := st) (d := digestOf active) hH hm (by rw [e1])
    rw [e1] at m1
    obtain ⟨x, a1, q1, hx, l1, -, s1⟩ := m1
    rcases e2 : measure H (f 1) st1 it (idOf active) with ⟨st2, r2⟩
    rw [e2] at h
    cases r2 with
    | err e => cases h
    | oob => cases h
    | ok u =>
      simp only at h ⊢
      have m2 := measure_ok (f := f 1) (st := st1) (d := idOf active) hH hi (by rw [e2])
      rw [e2] at m2
      obtain ⟨y, a2, q2, hy, l2, -, s2⟩ := m2
      obtain ⟨z, a3, q3, hz, l3, -, s3⟩ := measure_ok (f := f 2) (st := st2) (d := platformOf active) hH hp h
      obtain ⟨fs, hr, rfl, rfl, rfl⟩ := facts_of hx hy hz
      simp only at s1 s2
      subst s1; subst s2
      refine ⟨fs, hr, ?_, ?_, ?_, ?_⟩
      · rw [s3]
        exact holds_of_lookup (lookup_put_ne (Ne.symm hu.2.1)) (holds_of_lookup (lookup_put_ne (Ne.symm hu.1)) (holds_put l1 _))
      · rw [s3]
        exact holds_of_lookup (lookup_put_ne (Ne.symm hu.2.2)) (holds_put l2 _)
      · rw [s3]
        exact holds_put l3 _
      · intro t g1 g2 g3
        rw [s3, lookup_put_ne (Ne.symm g3), lookup_put_ne (Ne.symm g2), lookup_put_ne (Ne.symm g1)]

private theorem measure_good {H : Hash} (hH : GoodHash H) {f : Fail} (hf : f = (false, false)) {st : List Bank} {t : Nat} (ht : t < 65536) {x : Bytes}
    {a : Algo} {m : Meas} (hl : lookup st t = some (a, m)) (hc : m.isConstant = false) :
    measure H f st t (.ok x) = (put st t (updated H a m x), .ok ()) := by
  have e := update_some hH f ht hl x
  rw [hc, if_neg (by simp [hf])] at e
  simp only [measure]
  rw [e]; rfl

/-- C148: the measurement of a manifest succeeds if the manifest can be read, the hash engine works and the measurements are open. -/
theorem record_succeeds {H : Hash} (hH : GoodHash H) (f : Nat → Fail) (st : List Bank) (mt it pt : Nat) (active : Option Manifest) (fs : Option Facts)
    (hm : mt < 65536) (hi : it < 65536) (hp : pt < 65536) (hu : mt ≠ it ∧ mt ≠ pt ∧ it ≠ pt) (hf : ∀ n, f n = (false, false))
    (hr : Reads active fs) (om : Open st mt) (oi : Open st it) (op : Open st pt) : (record H f st mt it pt active).2 = .ok () := by
  have h : (∃ x, digestOf active = .ok x) ∧ (∃ x, idOf active = .ok x) ∧ ∃ x, platformOf active = .ok x := by
    cases active with
    | none => exact ⟨⟨_, rfl⟩, ⟨_, rfl⟩, ⟨_, rfl⟩⟩
    | some m =>
      cases fs with
      | none => cases hr
      | some g =>
        obtain ⟨h1, h2, p, h3, -⟩ := hr
        exact ⟨⟨_, h1⟩, ⟨1 :: toLE 4 g.version, by simp only [idOf, h2]⟩, ⟨cString p, by simp only [platformOf, h3]⟩⟩
  obtain ⟨⟨x, hx⟩, ⟨y, hy⟩, ⟨z, hz⟩⟩ := h
  obtain ⟨a1, m1, l1, c1⟩ := om
  obtain ⟨a2, m2, l2, c2⟩ := oi
  obtain ⟨a3, m3, l3, c3⟩ := op
  unfold record
  rw [hx, hy, hz, measure_good hH (hf 0) hm l1 c1]
  simp only
  rw [measure_good hH (hf 1) hi ((lookup_put_ne hu.1).trans l2) c2]
  simp only
  rw [measure_good hH (hf 2) hp ((lookup_put_ne hu.2.2).trans ((lookup_put_ne hu.2.1).trans l3)) c3]

/-- C148: whatever fails, only the three measurements change, and if the first one is as before the other two are as well. -/
theorem record_frame {H : Hash} (hH : GoodHash H) (f : Nat → Fail) (st : List Bank) (mt it pt : Nat) (active : Option Manifest)
    (hm : mt < 65536) (hi : it < 65536) (hp : pt < 65536) :
    (∀ t, t ≠ mt → t ≠ it → t ≠ pt → lookup (record H f st mt it pt active).1 t = lookup st t) ∧
    ((measure H (f 0) st mt (digestOf active)).2 ≠ .ok () → (record H f st mt it pt active).1 = st) := by
  unfold record
  rcases e1 : measure H (f 0) st mt (digestOf active) with ⟨st1, r1⟩
  have m1 := measure_cases hH (f 0) st hm (digestOf active)
  rw [e1] at m1
  rcases m1 with ⟨s1, n1⟩ | ⟨x, a1, q1, -, l1, s1, o1⟩
  · simp only at s1 n1
    subst s1
    cases r1 with
    | ok u => exact absurd rfl n1
    | err e => exact ⟨fun _ _ _ _ => rfl, fun _ => rfl⟩
    | oob => exact ⟨fun _ _ _ _ => rfl, fun _ => rfl⟩
  · simp only at s1 o1
    subst o1
    refine ⟨fun t g1 g2 g3 => ?_, fun h => absurd rfl h⟩
    simp only
    have k1 : lookup st1 t = lookup st t := by rw [s1, lookup_put_ne (Ne.symm g1)]
    rcases e2 : measure H (f 1) st1 it (idOf active) with ⟨st2, r2⟩
    have m2 := measure_cases hH (f 1) st1 hi (idOf active)
    rw [e2] at m2
    have k2 : lookup st2 t = lookup st t := by
      rcases m2 with ⟨s2, -⟩ | ⟨y, a2, q2, -, l2, s2, -⟩
      · exact (congrArg (lookup · t) s2).trans k1
      · exact (congrArg (lookup · t) s2).trans ((lookup_put_ne (Ne.symm g2)).trans k1)
    cases r2 with
    | err e => exact k2
    | oob => exact k2
    | ok u =>
      simp only
      rcases measure_cases hH (f 2) st2 hp (platformOf active) with ⟨s3, -⟩ | ⟨z, a3, q3, -, l3, s3, -⟩
      · exact (congrArg (lookup · t) s3).trans k2
      · exact (congrArg (lookup · t) s3).trans ((lookup_put_ne (Ne.symm g3)).trans k2)

/-- C148: the identifier tells no manifest from one, and any two versions apart. -/
theorem id_distinct (x y : Option Facts) (hx : ∀ f, x = some f → f.version < 2 ^ 32) (hy : ∀ f, y = some f → f.version < 2 ^ 32) :
    idData x = idData y ↔ x.map (·.version) = y.map (·.version) := by
  cases x with
  | none => cases y with
    | none => simp
    | some g => simp [idData]
  | some f => cases y with
    | none => simp [idData]
    | some g =>
      have h1 := hx f rfl
      have h2 := hy g rfl
      constructor
      · intro h
        simp only [idData, List.cons.injEq, and_true, true_and] at h
        obtain ⟨e0, e1, e2, e3⟩ := h
        have e0 := congrArg UInt8.toNat e0
        have e1 := congrArg UInt8.toNat e1
        have e2 := congrArg UInt8.toNat e2
        have e3 := congrArg UInt8.toNat e3
        simp only [UInt8.toNat_ofNat'] at e0 e1 e2 e3
        simp only [Option.map_some, Option.some.injEq]
        omega
      · intro h
        simp only [Option.map_some, Option.some.injEq] at h
        simp only [idData, h]

/-- The types of `manifest_pcr_init` are accepted exactly if they are different and in the store. -/
theorem init_iff (st : List Bank) (mt it pt : Nat) (hm : mt < 65536) (hi : it < 65536) (hp : pt < 65536) :
    init st mt it pt = .ok () ↔ (mt ≠ it ∧ mt ≠ pt ∧ it ≠ pt) ∧ (lookup st mt).isSome ∧ (lookup st it).isSome ∧ (lookup st pt).isSome := by
  have key : ∀ t, t < 65536 → (checkType st t = .ok () ↔ (lookup st t).isSome = true) := by
    intro t ht
    have e : pcrOf t = t / 256 := by unfold pcrOf; omega
    unfold checkType lookup
    rw [e]
    by_cases hl : t / 256 ≥ st.length
    · rw [if_pos hl, List.getElem?_eq_none hl]; simp
    · rw [if_neg hl, List.getElem?_eq_getElem (show t / 256 < st.length by omega)]
      have ei : checkIndex (st[t / 256]'(by omega)) (idxOf t) = if t % 256 ≥ (st[t / 256]'(by omega)).list.length then .err .invalidIndex else .ok () := rfl
      simp only [ei, Option.bind_some, Option.isSome_map]
      by_cases g : t % 256 ≥ (st[t / 256]'(by omega)).list.length
      · rw [if_pos g, List.getElem?_eq_none g]; simp
      · rw [if_neg g, List.getElem?_eq_getElem (by omega)]; simp
  rw [← key mt hm, ← key it hi, ← key pt hp]
  unfold init
  by_cases hu : mt = it ∨ mt = pt ∨ it = pt
  · rw [if_pos hu]
    simp only [reduceCtorEq, false_iff]
    rintro ⟨⟨a, b, c⟩, -⟩
    rcases hu with h | h | h
    · exact a h
    · exact b h
    · exact c h
  · rw [if_neg hu]
    have hu' : mt ≠ it ∧ mt ≠ pt ∧ it ≠ pt := ⟨fun h => hu (.inl h), fun h => hu (.inr (.inl h)), fun h => hu (.inr (.inr h))⟩
    cases checkType st mt <;> cases checkType st it <;> simp [hu']

/-- Two banks of four measurements. -/
def exStore : List Bank := [Pcr.init 4 .sha256, Pcr.init 4 .sha384]

/-- A manifest. -/
def exManifest (v : Nat) : Manifest := ⟨.ok (List.replicate 48 (UInt8.ofNat v)), .ok v, .ok [0x61, 0x62]⟩

example : init exStore 1 0x102 3 = .ok () ∧ (record exHash (fun _ => (false, false)) exStore 1 0x102 3 (some (exManifest 7))).2 = .ok () ∧
    Open exStore 1 ∧ Open exStore 0x102 ∧ Open exStore 3 ∧ Reads (some (exManifest 7)) (some ⟨List.replicate 48 7, 7, [0x61, 0x62]⟩) :=
  ⟨rfl, rfl, ⟨_, _, rfl, rfl⟩, ⟨_, _, rfl, rfl⟩, ⟨_, _, rfl, rfl⟩, rfl, rfl, _, rfl, rfl⟩

/-- The measurements are not those of one manifest after a failure: if the second update fails, the hash is that of the new
manifest and the version that of the old one, manifest_pcr.c:150-182; the observers drop the status. -/
theorem counterexample_mixed : ∃ (f : Nat → Fail) (st : List Bank),
    Holds exHash st 1 (hashData (some ⟨List.replicate 48 7, 7, [0x61, 0x62]⟩)) ∧ Holds exHash st 2 (idData (some ⟨List.replicate 48 7, 7, [0x61, 0x62]⟩)) ∧
    Holds exHash (onActivated exHash f st 1 2 3 (some (exManifest 9))) 1 (hashData (some ⟨List.replicate 48 9, 9, [0x61, 0x62]⟩)) ∧
    Holds exHash (onActivated exHash f st 1 2 3 (some (exManifest 9))) 2 (idData (some ⟨List.replicate 48 7, 7, [0x61, 0x62]⟩)) ∧
    ¬ Holds exHash (onActivated exHash f st 1 2 3 (some (exManifest 9))) 2 (idData (some ⟨List.replicate 48 9, 9, [0x61, 0x62]⟩)) := by
  refine ⟨fun n => (n == 1, false), (record exHash (fun _ => (false, false)) exStore 1 2 3 (some (exManifest 7))).1,
    ⟨_, _, rfl, rfl⟩, ⟨_, _, rfl, rfl⟩, ⟨_, _, rfl, rfl⟩, ⟨_, _, rfl, rfl⟩, ?_⟩
  rintro ⟨a, m, h1, h2⟩
  cases h1
  exact absurd h2 (by decide)

/-- A manifest that becomes active is not always measured: if its hash cannot be read, the store goes on to describe the old one,
manifest_pcr.c:141-147, and nobody is told, pfm_observer_pcr.c:16. -/
theorem counterexample_stale (H : Hash) (f : Nat → Fail) (st : List Bank) (mt it pt : Nat) (m : Manifest) (e : Int) (h : m.hash = .error e) :
    onActivated H f st mt it pt (some m) = st := by
  simp only [onActivated, record, digestOf, h, measure]

/-! ### Recovery images -/

/-- C148: the measurement of a recovery image is that of its hash, or of zeros if there is none; if its hash cannot be read or the
hash engine fails it stays as it was. No other measurement changes. -/
theorem recovery_exact {H : Hash} (hH : GoodHash H) (f : Fail) (st : List Bank) (t : Nat) (active : Option (Except Int Bytes)) (ht : t < 65536) (ho : Open st t) :
    (∀ t', t' ≠ t → lookup (onRecoveryImage H f st t active) t' = lookup st t') ∧
    (f = (false, false) → active = none → Holds H (onRecoveryImage H f st t active) t (List.replicate 32 0)) ∧
    (∀ h, f = (false, false) → active = some (.ok h) → Holds H (onRecoveryImage H f st t active) t h) ∧
    (f ≠ (false, false) ∨ (∃ e, active = some (.error e)) → onRecoveryImage H f st t active = st) := by
  obtain ⟨a, m, hl, hc⟩ := ho
  have key : ∀ d, update H f st t d = if f.1 ∨ f.2 then (st, .err .hash) else (put st t (updated H a m d), .ok ()) := by
    intro d; rw [update_some hH f ht hl d, hc]; rfl
  have fr : ∀ d t', t' ≠ t → lookup (update H f st t d).1 t' = lookup st t' := by
    intro d t' h
    rw [key]
    by_cases c : f.1 = true ∨ f.2 = true
    · rw [if_pos c]
    · rw [if_neg c]; exact lookup_put_ne (Ne.symm h)
  have gd : ∀ d, f = (false, false) → Holds H (update H f st t d).1 t d := by
    intro d h
    rw [key, if_neg (by simp [h])]; exact holds_put hl d
  have bd : ∀ d, f ≠ (false, false) → (update H f st t d).1 = st := by
    intro d h
    rw [key, if_pos]
    rcases f with ⟨f1, f2⟩
    cases f1 <;> cases f2 <;> simp at h ⊢
  cases active with
  | none =>
    refine ⟨fr _, fun h _ => gd _ h, fun _ _ h => (nomatch h), ?_⟩
    rintro (h | ⟨e, h⟩)
    · exact bd _ h
    · cases h
  | some r =>
    cases r with
    | error e => exact ⟨fun _ _ => rfl, fun _ h => (nomatch h), fun _ _ h => (nomatch h), fun _ => rfl⟩
    | ok x =>
      refine ⟨fr _, fun _ h => (nomatch h), fun h hf he => ?_, ?_⟩
      · cases he; exact gd _ hf
      · rintro (h | ⟨e, h⟩)
        · exact bd _ h
        · cases h

example : Open exStore 0x103 := ⟨_, _, rfl, rfl⟩

/-! ### Hosts -/

private theorem updated_open (H : Hash) (a : Algo) (m : Meas) (x : Bytes) : (updated H a m x).isConstant = false := by
  have : mkConfig true true false &&& flagConstant = 0 := by decide
  simp [Meas.isConstant, updated, this]

private theorem host_step {H : Hash} (hH : GoodHash H) (f : Fail) {t : Nat} (ht : t < 65536) (h : Host) (e : HostEvent) (ho : Open h.st t) :
    (hostEvent H f t h e).state = e.code.getD h.state ∧ Open (hostEvent H f t h e).st t ∧
    (f = (false, false) → ∀ c, e.code = some c → Holds H (hostEvent H f t h e).st t (toLE 4 c)) ∧
    (e.code = none → hostEvent H f t h e = h) ∧
    (∀ t', t' ≠ t → lookup (hostEvent H f t h e).st t' = lookup h.st t') := by
  obtain ⟨a, m, hl, hc⟩ := ho
  have gen : ∀ c, (hostUpdate H f t h c).state = c ∧ Open (hostUpdate H f t h c).st t ∧
      (f = (false, false) → Holds H (hostUpdate H f t h c).st t (toLE 4 c)) ∧
      (∀ t', t' ≠ t → lookup (hostUpdate H f t h c).st t' = lookup h.st t') := by
    intro c
    have key : (hostUpdate H f t h c).st = (if f.1 ∨ f.2 then (h.st, (.err .hash : Res Err Unit)) else (put h.st t (updated H a m (toLE 4 c)), .ok ())).1 := by
      simp only [hostUpdate]; rw [update_some hH f ht hl _, hc]; rfl
    refine ⟨rfl, ?_, ?_, ?_⟩
    · rw [key]
      by_cases g : f.1 = true ∨ f.2 = true
      · rw [if_pos g]; exact ⟨a, m, hl, hc⟩
      · rw [if_neg g]; exact ⟨a, _, lookup_put_self hl, updated_open ..⟩
    · intro hf
      rw [key, if_neg (by simp [hf])]; exact holds_put hl _
    · intro t' hn
      rw [key]
      by_cases g : f.1 = true ∨ f.2 = true
      · rw [if_pos g]
      · rw [if_neg g]; exact lookup_put_ne (Ne.symm hn)
  have wrap : ∀ c, e.code = some c → hostEvent H f t h e = hostUpdate H f t h c →
      (hostEvent H f t h e).state = e.code.getD h.state ∧ Open (hostEvent H f t h e).st t ∧
      (f = (false, false) → ∀ c, e.code = some c → Holds H (hostEvent H f t h e).st t (toLE 4 c)) ∧
      (e.code = none → hostEvent H f t h e = h) ∧ (∀ t', t' ≠ t → lookup (hostEvent H f t h e).st t' = lookup h.st t') := by
    intro c hc he
    obtain ⟨g1, g2, g3, g4⟩ := gen c
    rw [he, hc]
    exact ⟨g1, g2, fun hf c' hc' => by cases hc'; exact g3 hf, fun h => (nomatch h), g4⟩
  cases e with
  | bypass => exact wrap 1 rfl rfl
  | active => exact wrap 0 rfl rfl
  | recovery => exact wrap 2 rfl rfl
  | dirty d =>
    cases d with
    | true => exact wrap 3 rfl rfl
    | false => exact ⟨rfl, ⟨a, m, hl, hc⟩, fun _ _ h => (nomatch h), fun _ => rfl, fun _ _ => rfl⟩

private theorem hostState_cons (s : Nat) (e : HostEvent) (es : List HostEvent) : hostState s (e :: es) = hostState (e.code.getD s) es := by
  unfold hostState
  cases hc : e.code with
  | none => simp [List.filterMap_cons, hc]
  | some c =>
    simp only [List.filterMap_cons, hc, Option.getD_some, List.getLast?_cons]

private theorem host_run {H : Hash} (hH : GoodHash H) {t : Nat} (ht : t < 65536) : ∀ (es : List (Fail × HostEvent)) (h : Host), Open h.st t →
    (hostRun H t h es).state = hostState h.state (es.map (·.2)) ∧ Open (hostRun H t h es).st t ∧
    (∀ t', t' ≠ t → lookup (hostRun H t h es).st t' = lookup h.st t') ∧
    (Holds H h.st t (toLE 4 h.state) → (∀ e ∈ es, e.1 = (false, false)) → Holds H (hostRun H t h es).st t (toLE 4 (hostRun H t h es).state))
  | [], h, ho => ⟨rfl, ho, fun _ _ => rfl, fun g _ => g⟩
  | e :: es, h, ho => by
    obtain ⟨s1, s2, s3, s4, s5⟩ := host_step hH e.1 ht h e.2 ho
    obtain ⟨r1, r2, r3, r4⟩ := host_run hH ht es (hostEvent H e.1 t h e.2) s2
    have eq : hostRun H t h (e :: es) = hostRun H t (hostEvent H e.1 t h e.2) es := rfl
    rw [eq]
    refine ⟨?_, r2, fun t' hn => (r3 t' hn).trans (s5 t' hn), fun g hf => ?_⟩
    · rw [r1, s1, List.map_cons, hostState_cons]
    · refine r4 ?_ (fun e' he' => hf e' (List.mem_cons_of_mem _ he'))
      cases hc : e.2.code with
      | none => rw [s4 hc]; exact g
      | some c =>
        rw [s1, hc]
        exact s3 (hf e (List.mem_cons_self ..)) c hc

/-- C148: after any history of events of a host, the state that is kept is that of the last event, and no other measurement has
changed; if the hash engine always works the measurement is that of this state. -/
theorem host_history {H : Hash} (hH : GoodHash H) (t : Nat) (ht : t < 65536) (h : Host) (f : Fail) (es : List (Fail × HostEvent)) (ho : Open h.st t)
    (hi : (hostInit H f t h).2 = .ok ()) :
    (hostRun H t (hostInit H f t h).1 es).state = hostState h.state (es.map (·.2)) ∧
    (∀ t', t' ≠ t → lookup (hostRun H t (hostInit H f t h).1 es).st t' = lookup h.st t') ∧
    ((∀ e ∈ es, e.1 = (false, false)) → Holds H (hostRun H t (hostInit H f t h).1 es).st t (toLE 4 (hostState h.state (es.map (·.2))))) := by
  obtain ⟨a, m, hl, hc⟩ := ho
  have key := update_some hH f ht hl (toLE 4 h.state)
  rw [hc] at key
  simp only [hostInit] at hi
  rw [key] at hi
  by_cases g : f.1 = true ∨ f.2 = true
  · rw [if_pos g] at hi; cases hi
  rw [if_neg g] at key
  have e : (hostInit H f t h).1 = ⟨put h.st t (updated H a m (toLE 4 h.state)), h.state⟩ := by
    simp only [hostInit]; rw [key]; rfl
  obtain ⟨r1, -, r3, r4⟩ := host_run hH ht es (hostInit H f t h).1 (by rw [e]; exact ⟨a, _, lookup_put_self hl, updated_open ..⟩)
  rw [e] at r1 r3 r4 ⊢
  refine ⟨r1, fun t' hn => (r3 t' hn).trans (lookup_put_ne (Ne.symm hn)), fun hf => ?_⟩
  have := r4 (holds_put hl _) hf
  rwa [r1] at this

/-- C148: an event that is measured without failure makes the measurement right, whatever failed before. -/
theorem host_last {H : Hash} (hH : GoodHash H) (t : Nat) (ht : t < 65536) (h : Host) (es : List (Fail × HostEvent)) (ho : Open h.st t)
    (e : HostEvent) (c : Nat) (hc : e.code = some c) :
    Holds H (hostRun H t h (es ++ [((false, false), e)])).st t (toLE 4 c) := by
  obtain ⟨-, r2, -⟩ := host_run hH ht es h ho
  have := (host_step hH (false, false) ht (hostRun H t h es) e r2).2.2.1 rfl c hc
  simpa only [hostRun, List.foldl_append, List.foldl_cons, List.foldl_nil] using this

example : (hostInit exHash (false, false) 2 ⟨exStore, pcrInit⟩).2 = .ok () ∧ Open exStore 2 ∧
    hostState pcrInit [.active, .dirty true, .dirty false] = 3 := ⟨rfl, ⟨_, _, rfl, rfl⟩, rfl⟩

/-- If the hash engine fails at an event, the measurement stays that of the state before: here a host that is measured as validated
has gone into bypass mode, host_processor_observer_pcr.c:25-31. -/
theorem counterexample_host : ∃ (es : List (Fail × HostEvent)),
    (hostRun exHash 2 (hostInit exHash (false, false) 2 ⟨exStore, pcrInit⟩).1 es).state = 1 ∧
    Holds exHash (hostRun exHash 2 (hostInit exHash (false, false) 2 ⟨exStore, pcrInit⟩).1 es).st 2 (toLE 4 0) :=
  ⟨[((false, false), .active), ((true, false), .bypass)], rfl, _, _, rfl, rfl⟩

/-- The type is not checked when the observer of a host is initialised: with an index beyond the bank a measurement outside it is
read, host_processor_observer_pcr.c:118 and pcr.c:398-407. -/
theorem counterexample_host_init : (hostInit exHash (false, false) 4 ⟨exStore, pcrInit⟩).2 = .oob := rfl

end Verif.MeasObs
