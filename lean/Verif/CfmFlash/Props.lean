import Verif.CfmFlash.Decode
import Verif.BufferUtil.Props
/-! Property C142 of `cfm_flash.c`: what is read from a CFM is what it says. -/
namespace Verif.CfmFlash
open Verif
open Spec (Elem Child Comp Digests Check IdCheck Behind Has digestLen)

/-! ### Components -/

/-- A component as it is reported. -/
def viewDevice (c : Comp) : Device := ⟨c.slot, c.protocol, c.transcript, c.hash, c.id⟩

theorem device_bytes (c : Comp) (hc : c.ok) : device c.bytes = viewDevice c ∧ c.bytes.length = 8 := by
  obtain ⟨h1, h2, h3, _⟩ := hc
  have hb : c.bytes = [c.slot, c.protocol, UInt8.ofNat (c.transcript + 8 * c.hash), 0] ++ toLE 4 c.id := rfl
  refine ⟨?_, by rw [hb, List.length_append, toLE_length]; rfl⟩
  have hw : window c.bytes 4 4 = toLE 4 c.id := by
    have := window_mid [c.slot, c.protocol, UInt8.ofNat (c.transcript + 8 * c.hash), 0] (toLE 4 c.id) []
    rw [toLE_length, List.append_nil] at this
    exact this
  unfold device viewDevice
  rw [hw, leNat_toLE, show c.bytes.getD 0 0 = c.slot from rfl, show c.bytes.getD 1 0 = c.protocol from rfl,
    show c.bytes.getD 2 0 = UInt8.ofNat (c.transcript + 8 * c.hash) from rfl, u8nat _ (by omega), show c.id % 256 ^ 4 = c.id from Nat.mod_eq_of_lt h3]
  congr 1 <;> omega

theorem component_step (id : Nat) (c : Comp) (hc : c.ok) (r : List Elem) (i : Nat) :
    component id (c.elem :: r) i = if c.id = id then .ok (viewDevice c, i + 1) else component id r (i + 1) := by
  have hd := device_bytes c hc
  have e : c.elem = ⟨0x70, 0xff, c.bytes⟩ := rfl
  rw [component, e]
  simp only [hd.1, hd.2]
  rw [if_neg (fun h => h rfl), if_neg (fun h => h rfl), if_neg (by omega), if_neg (show ¬ (viewDevice c).transcript > 2 from Nat.not_lt.mpr hc.1),
    if_neg (show ¬ (viewDevice c).hash > 2 from Nat.not_lt.mpr hc.2.1)]
  rfl

theorem component_skip (id : Nat) (r : List Elem) : ∀ (pre : List Elem) (i : Nat), (∀ e ∈ pre, e.ty = 0x70 → ∃ c : Comp, c.ok ∧ c.id ≠ id ∧ e = c.elem) →
    component id (pre ++ r) i = component id r (i + pre.length) := by
  intro pre
  induction pre with
  | nil => intro i _; rfl
  | cons e pre ih =>
    intro i h
    have ih := ih (i + 1) (fun x hx => h x (List.mem_cons_of_mem _ hx))
    rw [List.cons_append, List.length_cons]
    by_cases ht : e.ty = 0x70
    · obtain ⟨c, hc, hid, rfl⟩ := h e (List.mem_cons_self ..) ht
      rw [component_step id c hc, if_neg hid, ih]
      congr 1; omega
    · rw [component, if_pos ht, ih]
      congr 1; omega

theorem has_at {es : List Elem} {c : Comp} (h : Has es c) (hc : c.ok) : ∃ entry post, component c.id es 0 = .ok (viewDevice c, entry) ∧ 0 < entry ∧
    At es entry c.children post ∧ Behind post ∧ c.children.length < es.length ∧ es.drop (entry - 1) = c.elem :: (flat c.children ++ post) := by
  obtain ⟨pre, post, rfl, hp, hb⟩ := h
  have hes : pre ++ c.elems ++ post = pre ++ (c.elem :: (flat c.children ++ post)) := by rw [List.append_assoc]; rfl
  refine ⟨pre.length + 1, post, ?_, Nat.succ_pos _, ?_, hb, ?_, ?_⟩
  · rw [hes, component_skip _ _ _ _ hp, component_step c.id c hc, if_pos rfl, Nat.zero_add]
  · unfold At
    rw [hes, ← List.drop_drop, List.drop_left]; rfl
  · have : ∀ cs : List Child, cs.length ≤ (flat cs).length := by
      intro cs
      induction cs with
      | nil => exact Nat.le_refl _
      | cons x cs ih => rw [flat_cons, List.length_cons, List.length_cons, List.length_append]; omega
    have := this c.children
    rw [hes, List.length_append, List.length_cons, List.length_append]; omega
  · rw [hes, Nat.add_sub_cancel, List.drop_left]

/-- A child whose element has the type of another kind. -/
theorem kind_pmr {h : Nat} {x : Child} (hx : x.ok h) (ht : x.ty = 0x71) : ∃ i v, x = .pmr i v := by
  cases x with
  | pmr i v => exact ⟨i, v, rfl⟩
  | manifest t => exact absurd ht (show t ≠ 0x71 by rcases hx.1 with h | h | h <;> rw [h] <;> decide)
  | _ => simp [Child.ty] at ht

theorem kind_pmrDigest {h : Nat} {x : Child} (hx : x.ok h) (ht : x.ty = 0x72) : ∃ i v, x = .pmrDigest i v := by
  cases x with
  | pmrDigest i v => exact ⟨i, v, rfl⟩
  | manifest t => exact absurd ht (show t ≠ 0x72 by rcases hx.1 with h | h | h <;> rw [h] <;> decide)
  | _ => simp [Child.ty] at ht

theorem kind_rootCa {h : Nat} {x : Child} (hx : x.ok h) (ht : x.ty = 0x7a) : ∃ v, x = .rootCa v := by
  cases x with
  | rootCa v => exact ⟨v, rfl⟩
  | manifest t => exact absurd ht (show t ≠ 0x7a by rcases hx.1 with h | h | h <;> rw [h] <;> decide)
  | _ => simp [Child.ty] at ht

theorem findSome_skip {α : Type} (f : Child → Option α) (a b : List Child) (h : ∀ y ∈ a, f y = none) : (a ++ b).findSome? f = b.findSome? f := by
  rw [List.findSome?_append, List.findSome?_eq_none_iff.mpr h]; rfl

theorem filterMap_skip {α : Type} (f : Child → Option α) (a b : List Child) (h : ∀ y ∈ a, f y = none) : (a ++ b).filterMap f = b.filterMap f := by
  rw [List.filterMap_append, List.filterMap_eq_nil_iff.mpr h]; rfl

theorem pmrLoop_exact (h : Nat) (es post : List Elem) (hb : Behind post) : ∀ (n : Nat) (cs : List Child) (entry : Nat), cs.length ≤ n → (∀ c ∈ cs, c.ok h) →
    At es entry cs post → pmrLoop es (cs.filter (fun c => c.ty = 0x72)).length entry = .ok (Spec.pmrIds cs) := by
  intro n
  induction n with
  | zero =>
    intro cs entry hl _ _
    have h0 : cs = [] := List.length_eq_zero_iff.mp (by omega)
    rw [h0]; rfl
  | succ n ih =>
    intro cs entry hl hok hat
    rcases split_first (fun c : Child => c.ty = 0x72) cs with hn | ⟨a, x, b, rfl, hx, ha⟩
    · have h1 : cs.filter (fun c => c.ty = 0x72) = [] := List.filter_eq_nil_iff.mpr fun c hc => by simpa using hn c hc
      have h2 : Spec.pmrIds cs = [] := List.filterMap_eq_nil_iff.mpr fun c hc => by
        cases c with
        | pmrDigest i v => exact absurd rfl (hn _ hc)
        | _ => rfl
      rw [h1, h2]; rfl
    · have hxo := hok x (List.mem_append_right _ (List.mem_cons_self ..))
      obtain ⟨i, ds, rfl⟩ := kind_pmrDigest hxo hx
      have h1 : ((a ++ Child.pmrDigest i ds :: b).filter (fun c => c.ty = 0x72)).length = (b.filter (fun c => c.ty = 0x72)).length + 1 := by
        rw [List.filter_append, List.filter_eq_nil_iff.mpr (fun c hc => by simpa using ha c hc), List.nil_append, List.filter_cons_of_pos (by simpa using hx), List.length_cons]
      have h2 : Spec.pmrIds (a ++ .pmrDigest i ds :: b) = i :: Spec.pmrIds b := by
        unfold Spec.pmrIds
        rw [filterMap_skip _ _ _ (fun y hy => ?_)]
        · rfl
        · cases y with
          | pmrDigest i v => exact absurd rfl (ha _ hy)
          | _ => rfl
      have ih := ih b _ (by rw [List.length_append, List.length_cons] at hl; omega) (fun c hc => hok c (List.mem_append_right _ (List.mem_cons_of_mem _ hc))) hat.after
      rw [h1, h2, pmrLoop, hat, flat_append, flat_cons, List.append_assoc, List.cons_append,
        find_child h a _ _ (fun c hc => hok c (List.mem_append_left _ hc)) 0x72 (by decide) (by decide) ha rfl]
      dsimp only
      have h4 : ¬ (Child.pmrDigest i ds).bytes.length < 4 := by
        show ¬ ([i, UInt8.ofNat ds.length, 0, 0] ++ ds.flatten).length < 4
        rw [List.length_append]; simp only [List.length_cons, List.length_nil]; omega
      rw [if_neg h4]
      rw [show (Child.pmrDigest i ds).below.length = 0 from rfl, Nat.add_zero] at ih
      rw [ih]; rfl

/-- **C142** A component is reported with its fields and the IDs of the PMRs that have digests. -/
theorem device_exact {es : List Elem} {c : Comp} (h : Has es c) (hc : c.ok) : getDevice es c.id = .ok (viewDevice c, Spec.pmrIds c.children) := by
  obtain ⟨entry, post, h1, _, hat, hb, _, _⟩ := has_at h hc
  unfold getDevice
  rw [h1]
  have h2 := pmrLoop_exact c.hash es post hb _ c.children entry (Nat.le_refl _) hc.2.2.2 hat
  show ((pmrLoop es (childCount 0x70 0xff 0x72 (es.drop entry)) entry).bind fun ids => Except.ok (viewDevice c, ids)) = _
  rw [hat, count_children c.hash post hb 0x72 _ hc.2.2.2, h2]; rfl

/-- **C142** No component is reported for an ID that no component has. -/
theorem device_unknown (es : List Elem) (id : Nat) (h : ∀ e ∈ es, e.ty = 0x70 → ∃ c : Comp, c.ok ∧ c.id ≠ id ∧ e = c.elem) : getDevice es id = .error .notFound := by
  have := component_skip id [] es 0 h
  rw [List.append_nil] at this
  unfold getDevice
  rw [this]; rfl

/-- Whatever the elements are: a component that is reported is the first element with that ID. -/
theorem device_sound (es : List Elem) (id : Nat) (d : Device) (n i : Nat) (h : component id es i = .ok (d, n)) :
    d.id = id ∧ ∃ a e b, es = a ++ e :: b ∧ n = i + a.length + 1 ∧ e.ty = 0x70 ∧ e.parent = 0xff ∧ 8 ≤ e.data.length ∧ d = device e.data ∧
      ∀ x ∈ a, x.ty = 0x70 → (device x.data).id ≠ id := by
  induction es generalizing i with
  | nil => cases h
  | cons e es ih =>
    have go : component id es (i + 1) = .ok (d, n) → (e.ty = 0x70 → (device e.data).id ≠ id) → d.id = id ∧ ∃ a e' b, e :: es = a ++ e' :: b ∧ n = i + a.length + 1 ∧
        e'.ty = 0x70 ∧ e'.parent = 0xff ∧ 8 ≤ e'.data.length ∧ d = device e'.data ∧ ∀ x ∈ a, x.ty = 0x70 → (device x.data).id ≠ id := by
      intro h he
      obtain ⟨h1, a, e', b, h2, h3, h4, h5, h6, h7, h8⟩ := ih (i + 1) h
      refine ⟨h1, e :: a, e', b, by rw [h2]; rfl, by rw [List.length_cons]; omega, h4, h5, h6, h7, fun x hx => ?_⟩
      rcases List.mem_cons.mp hx with rfl | hx
      · exact he
      · exact h8 x hx
    rw [component] at h
    by_cases h1 : e.ty = 0x70
    · rw [if_neg (fun hx => hx h1)] at h
      by_cases h2 : e.parent = 0xff
      · rw [if_neg (fun hx => hx h2)] at h
        by_cases h3 : e.data.length < 8
        · rw [if_pos h3] at h; cases h
        · rw [if_neg h3] at h
          by_cases h4 : (device e.data).transcript > 2
          · rw [if_pos h4] at h; cases h
          · rw [if_neg h4] at h
            by_cases h5 : (device e.data).hash > 2
            · rw [if_pos h5] at h; cases h
            · rw [if_neg h5] at h
              by_cases h6 : (device e.data).id = id
              · rw [if_pos h6] at h
                cases h
                exact ⟨h6, [], e, es, rfl, rfl, h1, h2, by omega, rfl, fun x hx => by cases hx⟩
              · rw [if_neg h6] at h
                exact go h (fun _ => h6)
      · rw [if_pos h2] at h; cases h
    · rw [if_pos h1] at h
      exact go h (fun hx => absurd hx h1)

/-! ### PMRs and root CAs -/

theorem writeAt_full (buf d : Bytes) (h : buf.length = d.length) : writeAt buf 0 d = d := by
  unfold writeAt
  rw [List.take_zero, List.nil_append, List.take_of_length_le (by omega), List.drop_eq_nil_of_le (by omega), List.append_nil]

theorem populate_exact (e : Elem) (hd : Bytes) (hh : hd.length = 4) (ds : List Bytes) (hash : Nat) (heap : Nat → UInt8) (he : e.data = hd ++ ds.flatten)
    (h2 : hash ≤ 2) (hne : ds ≠ []) (hx : ∀ x ∈ ds, x.length = digestLen hash) : populate e ds.length hash heap = .ok ds.flatten := by
  have hl := flatten_length _ _ hx
  have hpos : digestLen hash * ds.length ≠ 0 := by
    have := digestLen_pos hash
    have h0 : 0 < ds.length := by rcases Nat.eq_zero_or_pos ds.length with h | h; exact absurd (List.length_eq_zero_iff.mp h) hne; exact h
    have := Nat.mul_pos this h0
    omega
  have hw : window e.data 4 (digestLen hash * ds.length) = ds.flatten := by
    have := window_mid hd ds.flatten []
    rw [List.append_nil, hh, hl, Nat.mul_comm] at this
    rw [he]; exact this
  unfold populate
  rw [hashLen_ok _ h2]
  simp only [if_neg hpos]
  rw [hw, writeAt_full _ _ (by rw [List.length_map, List.length_range, hl, Nat.mul_comm])]

theorem pmrSearch_exact (h : Nat) (es post : List Elem) (hb : Behind post) (pmr : UInt8) (n : Nat) : ∀ (k : Nat) (cs : List Child) (entry : Nat) (buf : Bytes),
    cs.length < k → (∀ c ∈ cs, c.ok h) → At es entry cs post → buf.length = 68 →
    pmrSearch es pmr n k entry buf = match Spec.pmrValue pmr cs with | some v => .ok (v.take n) | none => .error .itemNotFound := by
  intro k
  induction k with
  | zero => intro cs _ _ hl; omega
  | succ k ih =>
    intro cs entry buf hl hok hat hbuf
    rcases split_first (fun c : Child => c.ty = 0x71) cs with hn | ⟨a, x, b, rfl, hx, ha⟩
    · have h2 : Spec.pmrValue pmr cs = none := List.findSome?_eq_none_iff.mpr fun c hc => by
        cases c with
        | pmr i v => exact absurd rfl (hn _ hc)
        | _ => rfl
      rw [pmrSearch, next_none hat hb hok hn, h2]; rfl
    · have hxo := hok x (List.mem_append_right _ (List.mem_cons_self ..))
      obtain ⟨i, v, rfl⟩ := kind_pmr hxo hx
      have hv : v.length = 64 := hxo
      have h2 : Spec.pmrValue pmr (a ++ .pmr i v :: b) = if i = pmr then some v else Spec.pmrValue pmr b := by
        unfold Spec.pmrValue
        rw [findSome_skip _ _ _ (fun y hy => ?_), List.findSome?_cons]
        · dsimp only
          split <;> simp_all
        · cases y with
          | pmr i v => exact absurd rfl (ha _ hy)
          | _ => rfl
      have hbytes : (Child.pmr i v).bytes = [i, 0, 0, 0] ++ v := rfl
      have hlen : (Child.pmr i v).bytes.length = 68 := by rw [hbytes, List.length_append, hv]; rfl
      have hw : writeAt buf 0 (window (Child.pmr i v).bytes 0 68) = (Child.pmr i v).bytes := by
        rw [window_all _ _ (by omega), writeAt_full _ _ (by omega)]
      have ih := ih b _ (Child.pmr i v).bytes (by rw [List.length_append, List.length_cons] at hl; omega)
        (fun c hc => hok c (List.mem_append_right _ (List.mem_cons_of_mem _ hc))) hat.after hlen
      rw [show (Child.pmr i v).below.length = 0 from rfl, Nat.add_zero] at ih
      rw [pmrSearch, next_found hat hb hok (by decide) (by decide) ha hx]
      dsimp only
      rw [hw, h2, ih, show (Child.pmr i v).bytes.getD 0 0 = i from rfl]
      by_cases hi : i = pmr
      · rw [if_pos hi, if_pos hi]
        rfl
      · rw [if_neg hi, if_neg hi]

/-- **C142** The initial value of a PMR is the one in the manifest, in the length of the hash, whatever was in memory before. -/
theorem pmr_exact {es : List Elem} {c : Comp} (h : Has es c) (hc : c.ok) (pmr : UInt8) (stack : Bytes) (hs : stack.length = 68) :
    getPmr es c.id pmr stack = match Spec.pmrValue pmr c.children with | some v => .ok (c.hash, v.take (digestLen c.hash)) | none => .error .itemNotFound := by
  obtain ⟨entry, post, h1, _, hat, hb, hl, _⟩ := has_at h hc
  unfold getPmr
  rw [h1]
  show (match hashLen c.hash with | none => _ | some n => _) = _
  rw [hashLen_ok _ hc.2.1]
  have h2 := pmrSearch_exact c.hash es post hb pmr (digestLen c.hash) es.length c.children entry
    (writeAt stack 0 (((es.drop (entry - 1)).headD ⟨0, 0, []⟩).data.take 8)) hl hc.2.2.2 hat (by rw [writeAt_length]; exact hs)
  show Except.bind (pmrSearch es pmr (digestLen c.hash) es.length entry _) _ = _
  rw [h2]
  cases Spec.pmrValue pmr c.children <;> rfl

theorem pmrDigestSearch_exact (h : Nat) (hh : h ≤ 2) (es post : List Elem) (hb : Behind post) (pmr : UInt8) (heap : Nat → UInt8) : ∀ (k : Nat) (cs : List Child) (entry : Nat),
    cs.length < k → (∀ c ∈ cs, c.ok h) → At es entry cs post →
    pmrDigestSearch es pmr h heap k entry = match Spec.pmrDigests pmr cs with | some ds => .ok ds.flatten | none => .error .itemNotFound := by
  intro k
  induction k with
  | zero => intro cs _ hl; omega
  | succ k ih =>
    intro cs entry hl hok hat
    rcases split_first (fun c : Child => c.ty = 0x72) cs with hn | ⟨a, x, b, rfl, hx, ha⟩
    · have h2 : Spec.pmrDigests pmr cs = none := List.findSome?_eq_none_iff.mpr fun c hc => by
        cases c with
        | pmrDigest i v => exact absurd rfl (hn _ hc)
        | _ => rfl
      rw [pmrDigestSearch, next_none hat hb hok hn, h2]; rfl
    · have hxo := hok x (List.mem_append_right _ (List.mem_cons_self ..))
      obtain ⟨i, ds, rfl⟩ := kind_pmrDigest hxo hx
      have h2 : Spec.pmrDigests pmr (a ++ .pmrDigest i ds :: b) = if i = pmr then some ds else Spec.pmrDigests pmr b := by
        unfold Spec.pmrDigests
        rw [findSome_skip _ _ _ (fun y hy => ?_), List.findSome?_cons]
        · dsimp only
          split <;> simp_all
        · cases y with
          | pmrDigest i v => exact absurd rfl (ha _ hy)
          | _ => rfl
      have hbytes : (Child.pmrDigest i ds).bytes = [i, UInt8.ofNat ds.length, 0, 0] ++ ds.flatten := rfl
      have h4 : ¬ (Child.pmrDigest i ds).bytes.length < 4 := by
        rw [hbytes, List.length_append]; simp only [List.length_cons, List.length_nil]; omega
      have ih := ih b _ (by rw [List.length_append, List.length_cons] at hl; omega) (fun c hc => hok c (List.mem_append_right _ (List.mem_cons_of_mem _ hc))) hat.after
      rw [show (Child.pmrDigest i ds).below.length = 0 from rfl, Nat.add_zero] at ih
      have hp := populate_exact ⟨(Child.pmrDigest i ds).ty, 0x70, (Child.pmrDigest i ds).bytes⟩ _ rfl ds h heap hbytes hh hxo.1 hxo.2.2
      rw [pmrDigestSearch, next_found hat hb hok (by decide) (by decide) ha hx]
      dsimp only
      rw [if_neg h4, h2, ih, show (Child.pmrDigest i ds).bytes.getD 0 0 = i from rfl, show (Child.pmrDigest i ds).bytes.getD 1 0 = UInt8.ofNat ds.length from rfl, u8nat _ hxo.2.1, hp]
      by_cases hi : i = pmr
      · rw [if_pos hi, if_pos hi]
      · rw [if_neg hi, if_neg hi]

/-- **C142** The digests allowed for a PMR are those in the manifest. -/
theorem pmr_digest_exact {es : List Elem} {c : Comp} (h : Has es c) (hc : c.ok) (pmr : UInt8) (heap : Nat → UInt8) :
    getPmrDigest es c.id pmr heap = match Spec.pmrDigests pmr c.children with | some ds => .ok (c.hash, ds.flatten) | none => .error .itemNotFound := by
  obtain ⟨entry, post, h1, _, hat, hb, hl, _⟩ := has_at h hc
  unfold getPmrDigest
  rw [h1]
  show Except.bind (pmrDigestSearch es pmr c.hash heap es.length entry) _ = _
  rw [pmrDigestSearch_exact c.hash hc.2.1 es post hb pmr heap es.length c.children entry hl hc.2.2.2 hat]
  cases Spec.pmrDigests pmr c.children <;> rfl

/-- **C142** The digests of the root CAs are those in the manifest. -/
theorem root_ca_exact {es : List Elem} {c : Comp} (h : Has es c) (hc : c.ok) (heap : Nat → UInt8) :
    getRootCa es c.id heap = match Spec.rootCas c.children with | some ds => .ok (c.hash, ds.flatten) | none => .error .itemNotFound := by
  obtain ⟨entry, post, h1, _, hat, hb, hl, _⟩ := has_at h hc
  unfold getRootCa
  rw [h1]
  have hok := hc.2.2.2
  show (match nextElem es 0x7a entry with | .error e => _ | .ok (e, _) => _) = _
  generalize c.children = cs at hok hat
  rcases split_first (fun c : Child => c.ty = 0x7a) cs with hn | ⟨a, x, b, rfl, hx, ha⟩
  · have h2 : Spec.rootCas cs = none := List.findSome?_eq_none_iff.mpr fun c hc => by
      cases c with
      | rootCa v => exact absurd rfl (hn _ hc)
      | _ => rfl
    rw [next_none hat hb hok hn, h2]; rfl
  · have hxo := hok x (List.mem_append_right _ (List.mem_cons_self ..))
    obtain ⟨ds, rfl⟩ := kind_rootCa hxo hx
    have h2 : Spec.rootCas (a ++ .rootCa ds :: b) = some ds := by
      unfold Spec.rootCas
      rw [findSome_skip _ _ _ (fun y hy => ?_), List.findSome?_cons]
      cases y with
      | rootCa v => exact absurd rfl (ha _ hy)
      | _ => rfl
    have hbytes : (Child.rootCa ds).bytes = [UInt8.ofNat ds.length, 0, 0, 0] ++ ds.flatten := rfl
    have h4 : ¬ (Child.rootCa ds).bytes.length < 4 := by
      rw [hbytes, List.length_append]; simp only [List.length_cons, List.length_nil]; omega
    have hp := populate_exact ⟨(Child.rootCa ds).ty, 0x70, (Child.rootCa ds).bytes⟩ _ rfl ds c.hash heap hbytes hc.2.1 hxo.1 hxo.2.2
    rw [next_found hat hb hok (by decide) (by decide) ha hx]
    dsimp only
    rw [if_neg h4, h2, show (Child.rootCa ds).bytes.getD 0 0 = UInt8.ofNat ds.length from rfl, u8nat _ hxo.2.1]
    show Except.bind (populate _ ds.length c.hash heap) _ = _
    rw [hp]; rfl

/-! ### The list of components -/

theorem supportedLoop_exact (length : Nat) : ∀ (es : List Elem) (c : BufferUtil.Cursor), (∀ e ∈ es, e.ty = 0x70 → ∃ c : Comp, c.ok ∧ e = c.elem) →
    c.out.length + c.destLength = length →
    let r := c.out ++ window ((es.filter (fun e => e.ty = 0x70)).flatMap fun e => window e.data 4 4) c.offset c.destLength
    supportedLoop length es c = if r.length = 0 ∧ length ≠ 0 then .error .notFound else .ok r := by
  intro es
  induction es with
  | nil =>
    intro c _ hl
    dsimp only
    rw [List.filter_nil, List.flatMap_nil, window_nil, List.append_nil, supportedLoop.eq_def]
    dsimp only
    by_cases h : length ≤ c.out.length
    · rw [if_pos h, if_neg (by omega)]
    · rw [if_neg h]
      by_cases h0 : c.out.length = 0
      · rw [if_neg (fun hx => hx h0), if_pos ⟨h0, by omega⟩]
      · rw [if_pos h0, if_neg (fun hx => h0 hx.1)]
  | cons e es ih =>
    intro c hc hl
    have ih := fun c hl => ih c (fun x hx => hc x (List.mem_cons_of_mem _ hx)) hl
    dsimp only at ih ⊢
    rw [supportedLoop.eq_def]
    dsimp only
    by_cases h : length ≤ c.out.length
    · have hz : c.destLength = 0 := by omega
      rw [if_pos h, hz, window_zero_len, List.append_nil, if_neg (by omega)]
    · rw [if_neg h]
      by_cases ht : e.ty = 0x70
      · obtain ⟨d, hd, rfl⟩ := hc e (List.mem_cons_self ..) ht
        have hb := BufferUtil.bufferCopy_spec (window d.elem.data 4 4) c
        dsimp only at hb
        obtain ⟨hb1, hb2, hb3, _⟩ := hb
        have hd8 : d.elem.data.length = 8 := (device_bytes d hd).2
        rw [if_neg (fun hx => hx ht), if_neg (fun hx => hx rfl), if_neg (by omega), ih, hb1, hb2, hb3, List.filter_cons_of_pos (by simpa using ht), List.flatMap_cons,
          window_append, List.append_assoc]
        rw [hb1, hb2, List.length_append, window_length]; omega
      · rw [if_pos ht, ih c hl, List.filter_cons_of_neg (by simpa using ht)]

/-- **C142** The list of components: the requested part of the IDs of all components, in the order of the manifest. An empty part is an error. -/
theorem supported_exact (es : List Elem) (cs : List Comp) (hcs : ∀ c ∈ cs, c.ok) (h : es.filter (fun e => e.ty = 0x70) = cs.map Comp.elem) (offset length : Nat) (hl : 0 < length) :
    supported es offset length =
      if window (cs.flatMap fun c => toLE 4 c.id) offset length = [] then .error .notFound else .ok (window (cs.flatMap fun c => toLE 4 c.id) offset length) := by
  have h1 := supportedLoop_exact length es ⟨offset, length, []⟩ (fun e he ht => by
    have : e ∈ es.filter (fun e => e.ty = 0x70) := List.mem_filter.mpr ⟨he, by simpa using ht⟩
    rw [h] at this
    obtain ⟨c, hc, rfl⟩ := List.mem_map.mp this
    exact ⟨c, hcs c hc, rfl⟩) (Nat.zero_add _)
  dsimp only at h1
  have h2 : ((es.filter (fun e => e.ty = 0x70)).flatMap fun e => window e.data 4 4) = cs.flatMap fun c => toLE 4 c.id := by
    rw [h, List.flatMap_map]
    congr 1
  unfold supported
  rw [h1, h2, List.nil_append]
  by_cases h0 : window (cs.flatMap fun c => toLE 4 c.id) offset length = []
  · rw [if_pos h0, if_pos ⟨by rw [h0]; rfl, by omega⟩]
  · rw [if_neg h0, if_neg (fun hx => h0 (List.length_eq_zero_iff.mp hx.1))]

/-! ### Measurements -/

/-- A measurement as it is reported. -/
def view (dflt : Nat) : Child → Cont
  | .digest p i ss => .digest p i (ss.map (viewSet dflt))
  | .data p i cs => .data p i cs
  | .aggregated m p h ss => .aggregated m p h (ss.map (viewSet h))
  | _ => .digest 0 0 []

theorem count_below {α : Type} (ty child : UInt8) (f : α → Bytes) (h1 : ty ≠ 0x70) (h2 : child ≠ 0x70) (r : List Elem) (hr : childCount ty 0x70 child r = 0) : ∀ cs : List α,
    childCount ty 0x70 child (cs.map (fun c => (⟨child, ty, f c⟩ : Elem)) ++ r) = cs.length := by
  intro cs
  induction cs with
  | nil => exact hr
  | cons c cs ih =>
    rw [List.map_cons, List.cons_append, childCount, if_neg (fun hx => hx.elim h1 h2), if_pos ⟨rfl, rfl⟩, ih, List.length_cons]

theorem count_rest (ty child : UInt8) (h1 : ty ≠ 0xff) (b : List Child) (post : List Elem) (hb : Behind post) : childCount ty 0x70 child (flat b ++ post) = 0 := by
  cases b with
  | nil => exact count_behind ty 0x70 child h1 (.inr rfl) post hb
  | cons x b => rw [flat_cons, List.cons_append, childCount, if_pos (.inl rfl)]

theorem checks_exact (es r : List Elem) : ∀ (cs : List Check) (entry : Nat), (∀ c ∈ cs, c.ok) → es.drop entry = cs.map (fun c => (⟨0x75, 0x74, c.bytes⟩ : Elem)) ++ r →
    checks es cs.length entry = .ok (cs, entry + cs.length) := by
  intro cs
  induction cs with
  | nil => intro entry _ _; rfl
  | cons c cs ih =>
    intro entry hok hd
    rw [List.map_cons, List.cons_append] at hd
    have hd' : es.drop (entry + 1) = cs.map (fun c => (⟨0x75, 0x74, c.bytes⟩ : Elem)) ++ r := by rw [← List.drop_drop, hd]; rfl
    rw [List.length_cons, checks, hd, find_here 0x75 0x74 _ _ _ (show (0x74 : UInt8) ≠ 0xff by decide) rfl rfl]
    dsimp only
    rw [check_exact _ c rfl (hok c (List.mem_cons_self ..))]
    dsimp only
    rw [ih (entry + 1) (fun x hx => hok x (List.mem_cons_of_mem _ hx)) hd']
    show Except.ok (c :: cs, entry + 1 + cs.length) = _
    rw [Nat.add_assoc, Nat.add_comm 1]

theorem meas_ty {x : Child} (h : x.isMeasurement = true) : x.ty = 0x73 ∨ x.ty = 0x74 ∨ x.ty = 0x7b := by
  cases x with
  | digest => exact .inl rfl
  | data => exact .inr (.inl rfl)
  | aggregated => exact .inr (.inr rfl)
  | _ => cases h

theorem nextOf_found {h entry : Nat} (hh : h ≤ 2) {es post : List Elem} {a b : List Child} {x : Child} (hat : At es entry (a ++ x :: b) post) (hb : Behind post)
    (hok : ∀ c ∈ a ++ x :: b, c.ok h) (hm : x.isMeasurement = true) (hn : ∀ c ∈ a, c.ty ≠ x.ty) :
    nextOf es h x.ty entry = .ok (view h x, entry + (flat a).length + 1 + x.below.length) := by
  have hxo := hok x (List.mem_append_right _ (List.mem_cons_self ..))
  cases x with
  | digest p i ss =>
    have hne := next_found hat hb hok (ty := 0x73) (by decide) (by decide) hn rfl
    obtain ⟨h1, h2, h3⟩ := hxo
    have hd := digestSets_exact false h hh ⟨(Child.digest p i ss).ty, 0x70, (Child.digest p i ss).bytes⟩ ss [p, i, UInt8.ofNat ss.length, 0] rfl h3 nofun
    have h0 : ss.length ≠ 0 := fun h => h1 (List.length_eq_zero_iff.mp h)
    have h4 : ¬ (Child.digest p i ss).bytes.length < 4 := by
      show ¬ ([p, i, UInt8.ofNat ss.length, 0] ++ _).length < 4
      rw [List.length_append]; simp only [List.length_cons, List.length_nil]; omega
    show nextDigest es h entry = _
    unfold nextDigest
    rw [hne]
    dsimp only [bind, Except.bind]
    rw [if_neg h4, show (Child.digest p i ss).bytes.getD 2 0 = UInt8.ofNat ss.length from rfl, u8nat _ h2, if_neg h0]
    rw [show (4 : Nat) = [p, i, UInt8.ofNat ss.length, (0 : UInt8)].length from rfl, hd]
    rfl
  | data p i cs =>
    have hne := next_found hat hb hok (ty := 0x74) (by decide) (by decide) hn rfl
    obtain ⟨h1, h2⟩ := hxo
    have h0 : cs.length ≠ 0 := fun h => h1 (List.length_eq_zero_iff.mp h)
    have hbe := hat.behind
    have hbl : (Child.data p i cs).below = cs.map (fun c => (⟨0x75, 0x74, c.bytes⟩ : Elem)) := rfl
    rw [hbl] at hbe
    show nextData es entry = _
    unfold nextData
    rw [hne]
    dsimp only [bind, Except.bind]
    rw [if_neg (show ¬ (Child.data p i cs).bytes.length < 4 from Nat.lt_irrefl 4)]
    rw [hbe, count_below 0x74 0x75 _ (by decide) (by decide) _ (count_rest _ _ (by decide) b post hb), if_neg h0]
    rw [checks_exact es _ cs _ h2 hbe, hbl, List.length_map]
    rfl
  | aggregated m p hs ss =>
    have hne := next_found hat hb hok (ty := 0x7b) (by decide) (by decide) hn rfl
    obtain ⟨h1, h2, h3, h4, h5⟩ := hxo
    have hby : (Child.aggregated m p hs ss).bytes = m ++ ([p, UInt8.ofNat hs, UInt8.ofNat ss.length, 0] ++ ss.flatMap Digests.bytes) := by
      show m ++ _ ++ _ = _
      rw [List.append_assoc]
    have hd := digestSets_exact true hs h2 ⟨(Child.aggregated m p hs ss).ty, 0x70, (Child.aggregated m p hs ss).bytes⟩ ss (m ++ [p, UInt8.ofNat hs, UInt8.ofNat ss.length, 0]) rfl
      (fun s hs => (h5 s hs).2) (fun _ s hs => (h5 s hs).1)
    have h0 : ss.length ≠ 0 := fun h => h3 (List.length_eq_zero_iff.mp h)
    have g : ∀ k, (Child.aggregated m p hs ss).bytes.getD (32 + k) 0 = ([p, UInt8.ofNat hs, UInt8.ofNat ss.length, 0] ++ ss.flatMap Digests.bytes).getD k 0 := by
      intro k
      rw [hby, List.getD_eq_getElem?_getD, List.getElem?_append_right (by omega), h1, Nat.add_sub_cancel_left, List.getD_eq_getElem?_getD]
    have g0 : (Child.aggregated m p hs ss).bytes.getD 32 0 = p := g 0
    have g1 : (Child.aggregated m p hs ss).bytes.getD 33 0 = UInt8.ofNat hs := g 1
    have g2 : (Child.aggregated m p hs ss).bytes.getD 34 0 = UInt8.ofNat ss.length := g 2
    have hl : 36 ≤ (Child.aggregated m p hs ss).bytes.length := by
      rw [hby, List.length_append, List.length_append, h1]; simp only [List.length_cons, List.length_nil]; omega
    have hw : window (Child.aggregated m p hs ss).bytes 0 32 = m := by
      have := window_mid [] m ([p, UInt8.ofNat hs, UInt8.ofNat ss.length, 0] ++ ss.flatMap Digests.bytes)
      rw [h1] at this
      rw [hby]; exact this
    have hz : ¬ ((Child.aggregated m p hs ss).bytes.length < 36 ∨ (Child.aggregated m p hs ss).bytes.getD 34 0 = 0) := by
      rintro (hx | hx)
      · omega
      · rw [g2] at hx
        have := u8nat _ h4
        rw [hx] at this
        exact h0 this.symm
    show nextAggregated es entry = _
    unfold nextAggregated
    rw [hne]
    dsimp only [bind, Except.bind]
    rw [if_neg hz, g1, u8nat hs (by omega), if_neg (by omega), g2, u8nat _ h4, g0, hw]
    rw [show (36 : Nat) = (m ++ [p, UInt8.ofNat hs, UInt8.ofNat ss.length, (0 : UInt8)]).length by rw [List.length_append, h1]; rfl, hd]
    rfl
  | _ => cases hm

theorem nextOf_none {h entry : Nat} {es post : List Elem} {cs : List Child} (hat : At es entry cs post) (hb : Behind post)
    (hok : ∀ c ∈ cs, c.ok h) {ty : UInt8} (ht : ty = 0x73 ∨ ty = 0x74 ∨ ty = 0x7b) (hn : ∀ c ∈ cs, c.ty ≠ ty) : nextOf es h ty entry = .error .entryNotFound := by
  have hne := next_none hat hb hok hn
  rcases ht with rfl | rfl | rfl
  · show nextDigest es h entry = _
    unfold nextDigest; rw [hne]; rfl
  · show nextData es entry = _
    unfold nextData; rw [hne]; rfl
  · show nextAggregated es entry = _
    unfold nextAggregated; rw [hne]; rfl

theorem meas_of_ty {h : Nat} {x : Child} (hx : x.ok h) (ht : x.ty = 0x73 ∨ x.ty = 0x74 ∨ x.ty = 0x7b) : x.isMeasurement = true := by
  cases x with
  | digest => rfl
  | data => rfl
  | aggregated => rfl
  | manifest t =>
    have ht : t = 0x73 ∨ t = 0x74 ∨ t = 0x7b := ht
    rcases hx.1 with h | h | h <;> rw [h] at ht <;> exact absurd ht (by decide)
  | _ => simp [Child.ty] at ht

theorem select_eq (c : Ctx) : select c =
    if c.first73 ≥ c.entry then
      if c.first74 < c.first73 ∧ c.first74 ≥ c.entry then (if c.first7b < c.first74 ∧ c.first7b ≥ c.entry then some 0x7b else some 0x74)
      else (if c.first7b < c.first73 ∧ c.first7b ≥ c.entry then some 0x7b else some 0x73)
    else if c.first74 ≥ c.entry then (if c.first7b < c.first74 ∧ c.first7b ≥ c.entry then some 0x7b else some 0x74)
    else if c.first7b ≥ c.entry then some 0x7b else none := by
  have hs : ∀ (p : UInt8 × Nat) (n : Nat), (∀ x ∈ some p, n < x.2) ↔ n < p.2 := fun p n => ⟨fun h => h p rfl, fun h x hx => by cases hx; exact h⟩
  have hn : ∀ n : Nat, (∀ x ∈ (none : Option (UInt8 × Nat)), n < x.2) ↔ True := fun n => ⟨fun _ => trivial, fun _ x hx => by cases hx⟩
  unfold select
  dsimp only
  by_cases h1 : c.first73 ≥ c.entry
  · simp only [if_pos h1, hs]
    by_cases h2 : c.first74 < c.first73 ∧ c.first74 ≥ c.entry
    · simp only [if_pos h2, hs]
      split <;> rfl
    · simp only [if_neg h2, hs]
      split <;> rfl
  · simp only [if_neg h1, hn, true_and]
    by_cases h2 : c.first74 ≥ c.entry
    · simp only [if_pos h2, hs]
      split <;> rfl
    · simp only [if_neg h2, hn, true_and]
      split <;> rfl

theorem select_ty {c : Ctx} {ty : UInt8} (h : select c = some ty) : ty = 0x73 ∨ ty = 0x74 ∨ ty = 0x7b := by
  rw [select_eq] at h
  repeat' split at h
  all_goals first
    | (cases h; exact .inl rfl)
    | (cases h; exact .inr (.inl rfl))
    | (cases h; exact .inr (.inr rfl))
    | cases h

theorem nextOf_cases {h entry : Nat} (hh : h ≤ 2) {es post : List Elem} {cs : List Child} (hat : At es entry cs post) (hb : Behind post)
    (hok : ∀ c ∈ cs, c.ok h) {ty : UInt8} (ht : ty = 0x73 ∨ ty = 0x74 ∨ ty = 0x7b) :
    nextOf es h ty entry = .error .entryNotFound ∨ ∃ a x b, cs = a ++ x :: b ∧ x.isMeasurement = true ∧
      nextOf es h ty entry = .ok (view h x, entry + (flat a).length + 1 + x.below.length) := by
  rcases split_first (fun c : Child => c.ty = ty) cs with hn | ⟨a, x, b, rfl, hx, ha⟩
  · exact .inl (nextOf_none hat hb hok ht hn)
  · have hm := meas_of_ty (hok x (List.mem_append_right _ (List.mem_cons_self ..))) (by rw [hx]; exact ht)
    have := nextOf_found hh hat hb hok hm (by rw [hx]; exact ha)
    rw [hx] at this
    exact .inr ⟨a, x, b, rfl, hm, this⟩

theorem step_any {es post : List Elem} {cs : List Child} {c : Ctx} (hh : c.hash ≤ 2) (hat : At es c.entry cs post) (hb : Behind post)
    (hok : ∀ x ∈ cs, x.ok c.hash) (hc : c.cur = 0x73 ∨ c.cur = 0x74 ∨ c.cur = 0x7b) :
    step es c = .error .entryNotFound ∨ ∃ a x b c', cs = a ++ x :: b ∧ x.isMeasurement = true ∧ step es c = .ok (view c.hash x, c') ∧ At es c'.entry b post ∧
      c'.hash = c.hash ∧ (c'.cur = 0x73 ∨ c'.cur = 0x74 ∨ c'.cur = 0x7b) := by
  unfold step
  rcases nextOf_cases hh hat hb hok hc with h1 | ⟨a, x, b, rfl, hm, h1⟩
  · rw [h1]
    dsimp only
    rw [if_pos rfl]
    cases hs : select c with
    | none => exact .inl rfl
    | some ty =>
      dsimp only
      rcases nextOf_cases hh hat hb hok (select_ty hs) with h2 | ⟨a, x, b, rfl, hm, h2⟩
      · rw [h2]; exact .inl rfl
      · rw [h2]; exact .inr ⟨a, x, b, _, rfl, hm, rfl, hat.after, rfl, select_ty hs⟩
  · rw [h1]
    exact .inr ⟨a, x, b, _, rfl, hm, rfl, hat.after, rfl, hc⟩

theorem collect_any {es post : List Elem} (hb : Behind post) : ∀ (k : Nat) (cs : List Child) (c : Ctx), cs.length < k → c.hash ≤ 2 → At es c.entry cs post →
    (∀ x ∈ cs, x.ok c.hash) → (c.cur = 0x73 ∨ c.cur = 0x74 ∨ c.cur = 0x7b) →
    ∃ l, collect es k c = some (.ok l) ∧ l.Sublist ((cs.filter Child.isMeasurement).map (view c.hash)) := by
  intro k
  induction k with
  | zero => intro cs c hl; omega
  | succ k ih =>
    intro cs c hl hh hat hok hc
    rcases step_any hh hat hb hok hc with h1 | ⟨a, x, b, c', rfl, hm, h1, h2, h3, h4⟩
    · refine ⟨[], ?_, List.nil_sublist _⟩
      rw [collect, h1]; rfl
    · obtain ⟨l, h5, h6⟩ := ih b c' (by rw [List.length_append, List.length_cons] at hl; omega) (by omega) h2
        (fun y hy => by rw [h3]; exact hok y (List.mem_append_right _ (List.mem_cons_of_mem _ hy))) h4
      refine ⟨view c.hash x :: l, ?_, ?_⟩
      · rw [collect, h1]
        dsimp only
        rw [h5]; rfl
      · rw [h3] at h6
        rw [List.filter_append, List.filter_cons_of_pos hm, List.map_append, List.map_cons]
        exact (h6.cons_cons _).trans (List.sublist_append_right _ _)

/-- **C142** In whatever order the measurements are: those that are reported are measurements of the component, each at most once, in order and as the manifest says. -/
theorem measurements_sound {es : List Elem} {c : Comp} (h : Has es c) (hc : c.ok) (k : Nat) (hk : es.length ≤ k) :
    (∃ e, measurements es c.id k = some (.error e) ∧ e = .childNotFound) ∨
      ∃ l, measurements es c.id k = some (.ok l) ∧ l.Sublist ((c.children.filter Child.isMeasurement).map (view c.hash)) := by
  obtain ⟨entry, post, h1, _, hat, hb, hl, _⟩ := has_at h hc
  unfold measurements start
  rw [h1]
  dsimp only [bind, Except.bind]
  split
  · rename_i e he
    split at he
    · cases he; exact .inl ⟨_, rfl, rfl⟩
    · cases he
  · rename_i x hx
    split at hx
    · cases hx
    · rename_i ty hs
      cases hx
      exact .inr (collect_any hb k c.children _ (by omega) hc.2.1 hat hc.2.2.2 (select_ty hs))

/-- The first entries in the context are those of the children. -/
def Firsts (c : Ctx) (cs : List Child) (post : List Elem) (e0 : Nat) : Prop :=
  c.first73 = childFirst 0x70 0xff 0x73 (flat cs ++ post) e0 ∧ c.first74 = childFirst 0x70 0xff 0x74 (flat cs ++ post) e0 ∧
    c.first7b = childFirst 0x70 0xff 0x7b (flat cs ++ post) e0

/-- The entry in the context for a type. -/
def firstOf (c : Ctx) (k : UInt8) : Nat := if k = 0x73 then c.first73 else if k = 0x74 then c.first74 else c.first7b

theorem firstOf_eq {c : Ctx} {cs : List Child} {post : List Elem} {e0 : Nat} (h : Firsts c cs post e0) {k : UInt8} (hk : k = 0x73 ∨ k = 0x74 ∨ k = 0x7b) :
    firstOf c k = childFirst 0x70 0xff k (flat cs ++ post) e0 := by
  rcases hk with rfl | rfl | rfl
  · exact h.1
  · exact h.2.1
  · exact h.2.2

theorem first_before {h : Nat} {dn rest : List Child} {post : List Elem} (hok : ∀ x ∈ dn ++ rest, x.ok h) {k : UInt8} (hk : ∃ y ∈ dn, y.ty = k) (e0 : Nat) :
    childFirst 0x70 0xff k (flat (dn ++ rest) ++ post) e0 < e0 + (flat dn).length := by
  rcases split_first (fun c : Child => c.ty = k) dn with hn | ⟨a, x, b, rfl, hx, ha⟩
  · obtain ⟨y, hy, ht⟩ := hk
    exact absurd ht (hn y hy)
  · have ha' : ∀ c ∈ a, c.ok h := fun c hc => hok c (List.mem_append_left _ (List.mem_append_left _ hc))
    have hx' : x.ok h := hok x (List.mem_append_left _ (List.mem_append_right _ (List.mem_cons_self ..)))
    rw [List.append_assoc, flat_append, List.cons_append, flat_cons, List.append_assoc, List.cons_append, first_child h a x _ ha' hx' k ha hx, flat_append, flat_cons,
      List.length_append, List.length_cons]
    omega

theorem first_later {h : Nat} {dn a b : List Child} {x : Child} {post : List Elem} (hok : ∀ y ∈ dn ++ (a ++ x :: b), y.ok h) {k : UInt8} (hd : ∀ y ∈ dn, y.ty ≠ k)
    (ha : ∀ y ∈ a, y.ty ≠ k) (hx : x.ty = k) (e0 : Nat) :
    childFirst 0x70 0xff k (flat (dn ++ (a ++ x :: b)) ++ post) e0 = e0 + (flat dn).length + (flat a).length := by
  rw [← List.append_assoc, flat_append, flat_cons, List.append_assoc, List.cons_append,
    first_child h (dn ++ a) x _ (fun c hc => hok c (by rw [← List.append_assoc]; exact List.mem_append_left _ hc))
      (hok x (List.mem_append_right _ (List.mem_append_right _ (List.mem_cons_self ..)))) k
      (fun y hy => (List.mem_append.mp hy).elim (hd y) (ha y)) hx, flat_append, List.length_append, Nat.add_assoc]

theorem select_min {c : Ctx} {t : UInt8} (ht : t = 0x73 ∨ t = 0x74 ∨ t = 0x7b) (h1 : c.entry ≤ firstOf c t)
    (h2 : ∀ k, k = 0x73 ∨ k = 0x74 ∨ k = 0x7b → k ≠ t → firstOf c k < c.entry ∨ firstOf c t < firstOf c k) : select c = some t := by
  have e1 : firstOf c 0x73 = c.first73 := rfl
  have e2 : firstOf c 0x74 = c.first74 := rfl
  have e3 : firstOf c 0x7b = c.first7b := rfl
  rw [select_eq]
  rcases ht with rfl | rfl | rfl
  · have a := h2 0x74 (by decide) (by decide)
    have b := h2 0x7b (by decide) (by decide)
    rw [e1] at h1 a b; rw [e2] at a; rw [e3] at b
    rw [if_pos h1, if_neg (by omega), if_neg (by omega)]
  · have a := h2 0x73 (by decide) (by decide)
    have b := h2 0x7b (by decide) (by decide)
    rw [e2] at h1 a b; rw [e1] at a; rw [e3] at b
    rw [if_pos h1, if_neg (by omega : ¬ (c.first7b < c.first74 ∧ c.first7b ≥ c.entry))]
    by_cases h : c.first73 ≥ c.entry
    · rw [if_pos h, if_pos (by omega)]
    · rw [if_neg h]
  · have a := h2 0x73 (by decide) (by decide)
    have b := h2 0x74 (by decide) (by decide)
    rw [e3] at h1 a b; rw [e1] at a; rw [e2] at b
    by_cases h : c.first73 ≥ c.entry
    · rw [if_pos h]
      by_cases h' : c.first74 < c.first73 ∧ c.first74 ≥ c.entry
      · rw [if_pos h', if_pos (by omega)]
      · rw [if_neg h', if_pos (by omega)]
    · rw [if_neg h]
      by_cases h' : c.first74 ≥ c.entry
      · rw [if_pos h', if_pos (by omega)]
      · rw [if_neg h', if_pos h1]

theorem select_next {h e0 : Nat} {c : Ctx} {dn a b : List Child} {x : Child} {post : List Elem} (hb : Behind post) (he0 : 0 < e0) (hok : ∀ y ∈ dn ++ (a ++ x :: b), y.ok h)
    (hf : Firsts c (dn ++ (a ++ x :: b)) post e0) (he : c.entry = e0 + (flat dn).length) (hm : x.isMeasurement = true) (ha : ∀ y ∈ a, y.isMeasurement = false)
    (hd : ∀ y ∈ dn, y.ty ≠ x.ty) : select c = some x.ty := by
  have hoa : ∀ y ∈ a, y.ok h := fun y hy => hok y (List.mem_append_right _ (List.mem_append_left _ hy))
  have hna : ∀ k, k = 0x73 ∨ k = 0x74 ∨ k = 0x7b → ∀ y ∈ a, y.ty ≠ k := by
    intro k hk y hy ht
    have := meas_of_ty (hoa y hy) (by rw [ht]; exact hk)
    rw [ha y hy] at this; cases this
  have hxt := meas_ty hm
  have h1 := first_later (post := post) hok hd (hna x.ty hxt) rfl e0
  refine select_min hxt ?_ fun k hk hkx => ?_
  · rw [firstOf_eq hf hxt, h1, he]; omega
  · rw [firstOf_eq hf hxt, firstOf_eq hf hk, h1, he]
    by_cases hkd : ∃ y ∈ dn, y.ty = k
    · exact .inl (first_before hok hkd e0)
    · have hkd' : ∀ y ∈ dn, y.ty ≠ k := fun y hy ht => hkd ⟨y, hy, ht⟩
      rcases split_first (fun c : Child => c.ty = k) b with hn | ⟨b1, y, b2, rfl, hy, hb1⟩
      · refine .inl ?_
        rw [first_none h post hb _ hok k]
        · omega
        · intro y hy
          rcases List.mem_append.mp hy with hy | hy
          · exact hkd' y hy
          · rcases List.mem_append.mp hy with hy | hy
            · exact hna k hk y hy
            · rcases List.mem_cons.mp hy with rfl | hy
              · exact fun h => hkx h.symm
              · exact hn y hy
      · refine .inr ?_
        have e : dn ++ (a ++ x :: (b1 ++ y :: b2)) = dn ++ ((a ++ x :: b1) ++ y :: b2) := by simp only [List.append_assoc, List.cons_append]
        rw [e] at hok ⊢
        rw [first_later hok hkd' _ hy e0, flat_append, flat_cons, List.length_append, List.length_cons]
        · omega
        · intro z hz
          rcases List.mem_append.mp hz with hz | hz
          · exact hna k hk z hz
          · rcases List.mem_cons.mp hz with rfl | hz
            · exact fun h => hkx h.symm
            · exact hb1 z hz

theorem filter_none (l : List Child) (h : ∀ y ∈ l, y.isMeasurement = false) : l.filter Child.isMeasurement = [] :=
  List.filter_eq_nil_iff.mpr fun y hy => by rw [h y hy]; exact Bool.false_ne_true

theorem flat_length_elems (dn a : List Child) (x : Child) : (flat (dn ++ (a ++ [x]))).length = (flat dn).length + (flat a).length + 1 + x.below.length := by
  rw [flat_append, flat_append, flat_cons, List.length_append, List.length_append, List.length_cons, List.length_append]
  show _ + (_ + (_ + 0 + 1)) = _
  omega

theorem collect_grouped {h e0 : Nat} (hh : h ≤ 2) (he0 : 0 < e0) {es post : List Elem} (hb : Behind post) : ∀ (k : Nat) (dn rest : List Child) (c : Ctx), rest.length < k →
    (∀ x ∈ dn ++ rest, x.ok h) → Spec.Grouped ((dn ++ rest).filter Child.isMeasurement) → c.hash = h → At es c.entry rest post → c.entry = e0 + (flat dn).length →
    Firsts c (dn ++ rest) post e0 → (c.cur = 0x73 ∨ c.cur = 0x74 ∨ c.cur = 0x7b) →
    ((∃ d1 y d2, dn = d1 ++ y :: d2 ∧ y.isMeasurement = true ∧ y.ty = c.cur ∧ ∀ z ∈ d2, z.isMeasurement = false) ∨
      ∀ a x b, rest = a ++ x :: b → x.isMeasurement = true → (∀ z ∈ a, z.isMeasurement = false) → x.ty = c.cur) →
    collect es k c = some (.ok ((rest.filter Child.isMeasurement).map (view h))) := by
  intro k
  induction k with
  | zero => intro dn rest c hl; omega
  | succ k ih =>
    intro dn rest c hl hok hg hch hat he hf hcur hlast
    have hokr : ∀ x ∈ rest, x.ok h := fun x hx => hok x (List.mem_append_right _ hx)
    rcases split_first (fun c : Child => c.isMeasurement = true) rest with hn | ⟨a, x, b, rfl, hm, ha⟩
    · -- no measurement is left
      have hn' : ∀ y ∈ rest, y.isMeasurement = false := fun y hy => by simpa using hn y hy
      have hty : ∀ k, k = 0x73 ∨ k = 0x74 ∨ k = 0x7b → nextOf es c.hash k c.entry = .error .entryNotFound := by
        intro k hk
        rw [hch]
        refine nextOf_none hat hb hokr hk fun y hy ht => hn y hy (meas_of_ty (hokr y hy) (by rw [ht]; exact hk))
      have hs : step es c = .error .entryNotFound := by
        unfold step
        rw [hty _ hcur]
        dsimp only
        rw [if_pos rfl]
        cases hs : select c with
        | none => rfl
        | some ty =>
          dsimp only
          rw [hty _ (select_ty hs)]
      rw [collect, hs, filter_none rest hn']; rfl
    · have ha' : ∀ y ∈ a, y.isMeasurement = false := fun y hy => by simpa using ha y hy
      have hxt := meas_ty hm
      have hna : ∀ k, k = 0x73 ∨ k = 0x74 ∨ k = 0x7b → ∀ y ∈ a, y.ty ≠ k := by
        intro k hk y hy ht
        exact ha y hy (meas_of_ty (hokr y (List.mem_append_left _ hy)) (by rw [ht]; exact hk))
      have hfound := nextOf_found hh hat hb hokr hm (hna x.ty hxt)
      rw [← hch] at hfound
      have hstep : step es c = .ok (view h x, { c with entry := c.entry + (flat a).length + 1 + x.below.length, cur := x.ty }) := by
        unfold step
        by_cases hc : c.cur = x.ty
        · rw [hc, hfound, hch]
        · rcases hlast with ⟨d1, y, d2, hdn, hym, hyt, hd2⟩ | hlast
          · have hfd2 := filter_none d2 hd2
            have hfa := filter_none a ha'
            have hrest : ∀ z ∈ a ++ x :: b, z.ty ≠ c.cur := by
              intro z hz ht
              rcases List.mem_append.mp hz with hz | hz
              · exact hna _ hcur z hz ht
              · rcases List.mem_cons.mp hz with rfl | hz
                · exact hc ht.symm
                · obtain ⟨b1, b2, rfl⟩ := List.append_of_mem hz
                  have hzm := meas_of_ty (hokr z (List.mem_append_right _ (List.mem_cons_of_mem _ hz))) (by rw [ht]; exact hcur)
                  have := hg (d1.filter Child.isMeasurement) y (x :: b1.filter Child.isMeasurement) z (b2.filter Child.isMeasurement) (by
                    rw [hdn]
                    simp only [List.filter_append, List.filter_cons_of_pos hym, List.filter_cons_of_pos hm, List.filter_cons_of_pos hzm, hfd2, hfa, List.nil_append,
                      List.append_assoc, List.cons_append]) (hyt.trans ht.symm) x (List.mem_cons_self ..)
                  exact hc (hyt.symm.trans this.symm)
            have hdone : ∀ w ∈ dn, w.ty ≠ x.ty := by
              intro w hw ht
              have hwm := meas_of_ty (hok w (List.mem_append_left _ hw)) (by rw [ht]; exact hxt)
              rw [hdn] at hw
              rcases List.mem_append.mp hw with hw | hw
              · obtain ⟨w1, w2, rfl⟩ := List.append_of_mem hw
                have := hg (w1.filter Child.isMeasurement) w (w2.filter Child.isMeasurement ++ [y]) x (b.filter Child.isMeasurement) (by
                    rw [hdn]
                    simp only [List.filter_append, List.filter_cons_of_pos hym, List.filter_cons_of_pos hm, List.filter_cons_of_pos hwm, hfd2, hfa, List.nil_append,
                      List.append_assoc, List.cons_append]) ht y (List.mem_append_right _ (List.mem_cons_self ..))
                exact hc (hyt.symm.trans (this.trans ht))
              · rcases List.mem_cons.mp hw with rfl | hw
                · exact hc (hyt.symm.trans ht)
                · rw [hd2 w hw] at hwm; cases hwm
            rw [hch, nextOf_none hat hb hokr hcur hrest]
            dsimp only
            rw [if_pos rfl, select_next hb he0 hok hf he hm ha' hdone]
            dsimp only
            rw [← hch, hfound]
          · exact absurd (hlast a x b rfl hm ha').symm hc
      have e : dn ++ (a ++ x :: b) = (dn ++ (a ++ [x])) ++ b := by simp only [List.append_assoc, List.cons_append, List.nil_append]
      have ih := ih (dn ++ (a ++ [x])) b { c with entry := c.entry + (flat a).length + 1 + x.below.length, cur := x.ty }
        (by rw [List.length_append, List.length_cons] at hl; omega) (by rw [← e]; exact hok) (by rw [← e]; exact hg) hch hat.after
        (by show c.entry + (flat a).length + 1 + x.below.length = _; rw [flat_length_elems, he]; omega) (by rw [← e]; exact hf) hxt
        (.inl ⟨dn ++ a, x, [], by rw [List.append_assoc], hm, rfl, fun z hz => by cases hz⟩)
      rw [collect, hstep]
      dsimp only
      rw [ih, List.filter_append, filter_none a ha', List.filter_cons_of_pos hm]
      rfl

/-- **C142** If the measurements of a kind follow each other, all measurements of the component are reported, in order and as the manifest says. -/
theorem measurements_exact_partial {es : List Elem} {c : Comp} (h : Has es c) (hc : c.ok) (hg : Spec.Grouped (c.children.filter Child.isMeasurement)) (k : Nat) (hk : es.length ≤ k) :
    measurements es c.id k = some (if c.children.filter Child.isMeasurement = [] then .error .childNotFound
      else .ok ((c.children.filter Child.isMeasurement).map (view c.hash))) := by
  obtain ⟨entry, post, h1, he0, hat, hb, hl, _⟩ := has_at h hc
  have hok := hc.2.2.2
  unfold measurements start
  rw [h1]
  dsimp only [bind, Except.bind]
  rw [hat]
  generalize hx : (⟨(viewDevice c).hash, entry, childFirst 0x70 0xff 0x73 (flat c.children ++ post) entry, childFirst 0x70 0xff 0x74 (flat c.children ++ post) entry,
    childFirst 0x70 0xff 0x7b (flat c.children ++ post) entry, 0x73⟩ : Ctx) = x
  have hf : Firsts x ([] ++ c.children) post entry := by rw [← hx]; exact ⟨rfl, rfl, rfl⟩
  have hxe : x.entry = entry := by rw [← hx]
  have hxh : x.hash = c.hash := by rw [← hx]; rfl
  rcases split_first (fun c : Child => c.isMeasurement = true) c.children with hn | ⟨a, y, b, hch, hm, ha⟩
  · have hn' : c.children.filter Child.isMeasurement = [] := List.filter_eq_nil_iff.mpr hn
    have hs : select x = none := by
      have h0 : ∀ k, k = 0x73 ∨ k = 0x74 ∨ k = 0x7b → firstOf x k = 0 := by
        intro k hk
        rw [firstOf_eq hf hk]
        exact first_none c.hash post hb _ hok k (fun y hy ht => hn y hy (meas_of_ty (hok y hy) (by rw [ht]; exact hk))) entry
      have h3 : x.first73 = 0 := h0 0x73 (by decide)
      have h4 : x.first74 = 0 := h0 0x74 (by decide)
      have h5 : x.first7b = 0 := h0 0x7b (by decide)
      rw [select_eq, h3, h4, h5, hxe, if_neg (by omega), if_neg (by omega), if_neg (by omega)]
    rw [hs, hn']
    rfl
  · have ha' : ∀ z ∈ a, z.isMeasurement = false := fun z hz => by simpa using ha z hz
    have hs : select x = some y.ty := by
      rw [hch] at hf hok
      exact select_next (dn := []) hb he0 hok hf (by rw [hxe]; rfl) hm ha' (fun z hz => by cases hz)
    have hne : c.children.filter Child.isMeasurement ≠ [] := by
      rw [hch, List.filter_append, List.filter_cons_of_pos hm]
      simp
    rw [hs, if_neg hne]
    dsimp only
    have hx' : (⟨(viewDevice c).hash, entry, childFirst 0x70 0xff 0x73 (flat c.children ++ post) entry, childFirst 0x70 0xff 0x74 (flat c.children ++ post) entry,
        childFirst 0x70 0xff 0x7b (flat c.children ++ post) entry, y.ty⟩ : Ctx) = { x with cur := y.ty } := by rw [← hx]
    rw [hx']
    refine collect_grouped hc.2.1 he0 hb k [] c.children { x with cur := y.ty } (by omega) hok hg hxh (by rw [← hxe] at hat; exact hat) (by rw [← hxe]; rfl) hf (meas_ty hm) (.inr ?_)
    intro a' x' b' hch' hm' ha''
    show x'.ty = y.ty
    rw [hch] at hch'
    rcases List.append_eq_append_iff.mp hch' with ⟨l, h2, h3⟩ | ⟨l, h2, h3⟩
    · cases l with
      | nil => simp only [List.nil_append, List.cons.injEq] at h3; rw [h3.1]
      | cons z l =>
        rw [List.cons_append, List.cons.injEq] at h3
        have := ha'' y (by rw [h2, h3.1]; exact List.mem_append_right _ (List.mem_cons_self ..))
        rw [hm] at this; cases this
    · cases l with
      | nil => simp only [List.nil_append, List.cons.injEq] at h3; rw [h3.1]
      | cons z l =>
        rw [List.cons_append, List.cons.injEq] at h3
        have := ha' x' (by rw [h2, h3.1]; exact List.mem_append_right _ (List.mem_cons_self ..))
        rw [hm'] at this; cases this

/-! ### Allowed manifests -/

theorem idChecks_exact (es r : List Elem) (ty : UInt8) (ht : ty ≠ 0xff) : ∀ (cs : List IdCheck) (entry : Nat), (∀ c ∈ cs, c.ok) →
    es.drop entry = cs.map (fun c => (⟨0x79, ty, c.bytes⟩ : Elem)) ++ r → idChecks es ty cs.length entry = .ok (cs, entry + cs.length) := by
  intro cs
  induction cs with
  | nil => intro entry _ _; rfl
  | cons c cs ih =>
    intro entry hok hd
    rw [List.map_cons, List.cons_append] at hd
    have hd' : es.drop (entry + 1) = cs.map (fun c => (⟨0x79, ty, c.bytes⟩ : Elem)) ++ r := by rw [← List.drop_drop, hd]; rfl
    rw [List.length_cons, idChecks, hd, find_here 0x79 ty _ _ _ ht rfl rfl]
    dsimp only
    rw [idCheck_exact _ c rfl (hok c (List.mem_cons_self ..))]
    dsimp only
    rw [ih (entry + 1) (fun x hx => hok x (List.mem_cons_of_mem _ hx)) hd']
    show Except.ok (c :: cs, entry + 1 + cs.length) = _
    rw [Nat.add_assoc, Nat.add_comm 1]

theorem takeWhile_all (n : Bytes) (h : 0 ∉ n) : n.takeWhile (· ≠ 0) = n := by
  induction n with
  | nil => rfl
  | cons b n ih =>
    rw [List.takeWhile_cons_of_pos, ih (fun hx => h (List.mem_cons_of_mem _ hx))]
    simp only [ne_eq, decide_not, Bool.not_eq_eq_eq_not, Bool.not_true, decide_eq_false_iff_not]
    exact fun hx => h (hx ▸ List.mem_cons_self ..)

theorem platform_exact (t i : UInt8) (n : Bytes) (ks : List IdCheck) (stack : Bytes) (hs : stack.length = 258) (hn : n.length < 256) (h0 : 0 ∉ n) :
    let buf := writeAt stack 0 (window (Child.manifest t i n ks).bytes 0 258)
    buf.getD 0 0 = i ∧ platformOf buf = n := by
  have hw : window (Child.manifest t i n ks).bytes 0 258 = [i, UInt8.ofNat n.length] ++ (n ++ (Spec.pad (2 + n.length)).take (256 - n.length)) := by
    show ((([i, UInt8.ofNat n.length] ++ n) ++ Spec.pad (2 + n.length)).drop 0).take 258 = _
    rw [List.drop_zero, List.take_append, List.take_of_length_le (by rw [List.length_append]; simp only [List.length_cons, List.length_nil]; omega), List.append_assoc]
    congr 3
    rw [List.length_append]; simp only [List.length_cons, List.length_nil]; omega
  have hbuf : writeAt stack 0 (window (Child.manifest t i n ks).bytes 0 258) =
      [i, UInt8.ofNat n.length] ++ (n ++ ((Spec.pad (2 + n.length)).take (256 - n.length) ++ stack.drop (window (Child.manifest t i n ks).bytes 0 258).length)) := by
    have hl : (window (Child.manifest t i n ks).bytes 0 258).length ≤ 258 := by rw [window_length]; omega
    unfold writeAt
    rw [List.take_zero, List.nil_append, List.take_of_length_le (by omega), Nat.zero_add]
    conv => lhs; rw [hw]
    rw [hw]
    simp only [List.append_assoc]
  dsimp only
  rw [hbuf]
  refine ⟨rfl, ?_⟩
  unfold platformOf
  show (window _ 2 (UInt8.ofNat n.length).toNat).takeWhile (· ≠ 0) = n
  rw [u8nat _ hn]
  have := window_mid [i, UInt8.ofNat n.length] n ((Spec.pad (2 + n.length)).take (256 - n.length) ++ stack.drop (window (Child.manifest t i n ks).bytes 0 258).length)
  rw [show [i, UInt8.ofNat n.length].length = 2 from rfl] at this
  rw [this, takeWhile_all n h0]

theorem kind_manifest {h : Nat} {x : Child} {ty : UInt8} (hx : x.ok h) (hty : ty = 0x76 ∨ ty = 0x77 ∨ ty = 0x78) (ht : x.ty = ty) : ∃ i n ks, x = .manifest ty i n ks := by
  cases x with
  | manifest t i n ks => exact ⟨i, n, ks, by rw [← ht]; rfl⟩
  | _ => rw [← ht] at hty; simp [Child.ty] at hty

theorem nextManifest_found {h entry : Nat} {es post : List Elem} {a b : List Child} {ty i : UInt8} {n : Bytes} {ks : List IdCheck} (id : Nat) (stack : Bytes) (hs : stack.length = 258)
    (hat : At es entry (a ++ .manifest ty i n ks :: b) post) (hb : Behind post) (he : entry ≠ 0)
    (hok : ∀ c ∈ a ++ .manifest ty i n ks :: b, c.ok h) (hn : ∀ c ∈ a, c.ty ≠ ty) :
    nextManifest es id ty stack entry = .ok (⟨i, n, ks⟩, entry + (flat a).length + 1 + ks.length) := by
  obtain ⟨h1, h2, h3, h4, h5⟩ := hok _ (List.mem_append_right _ (List.mem_cons_self ..))
  have ht : ty ≠ 0x75 ∧ ty ≠ 0x79 ∧ ty ≠ 0x70 ∧ ty ≠ 0xff := by rcases h1 with h | h | h <;> rw [h] <;> decide
  have hne := next_found hat hb hok (ty := ty) ht.1 ht.2.1 hn rfl
  have h0 : ks.length ≠ 0 := fun h => h4 (List.length_eq_zero_iff.mp h)
  have hbe := hat.behind
  rw [show (Child.manifest ty i n ks).below = ks.map (fun c => (⟨0x79, ty, c.bytes⟩ : Elem)) from rfl] at hbe
  have hp := platform_exact ty i n ks stack hs h2 h3
  dsimp only at hp
  unfold nextManifest
  rw [if_neg he]
  dsimp only [bind, Except.bind]
  rw [hne]
  dsimp only
  rw [hbe, count_below ty 0x79 _ ht.2.2.1 (by decide) _ (count_rest _ _ ht.2.2.2 b post hb), if_neg h0, idChecks_exact es _ ty ht.2.2.2 ks _ h5 hbe]
  dsimp only
  rw [hp.1, hp.2]

theorem manifests_at {h : Nat} {es post : List Elem} {ty : UInt8} (hty : ty = 0x76 ∨ ty = 0x77 ∨ ty = 0x78) (id : Nat) (stack : Bytes) (hs : stack.length = 258) (hb : Behind post) :
    ∀ (k : Nat) (cs : List Child) (entry : Nat), cs.length < k → entry ≠ 0 → At es entry cs post → (∀ c ∈ cs, c.ok h) →
    manifests es id ty stack k entry = some (.ok ((Spec.manifestsOf ty cs).map fun m => ⟨m.1, m.2.1, m.2.2⟩)) := by
  intro k
  induction k with
  | zero => intro cs _ hl; omega
  | succ k ih =>
    intro cs entry hl he hat hok
    rcases split_first (fun c : Child => c.ty = ty) cs with hn | ⟨a, x, b, rfl, hx, ha⟩
    · have h2 : Spec.manifestsOf ty cs = [] := List.filterMap_eq_nil_iff.mpr fun c hc => by
        cases c with
        | manifest t i n ks => exact if_neg (hn _ hc)
        | _ => rfl
      have h3 : nextManifest es id ty stack entry = .error .entryNotFound := by
        unfold nextManifest
        rw [if_neg he]
        dsimp only [bind, Except.bind]
        rw [next_none hat hb hok hn]
      rw [manifests, h3, h2]; rfl
    · obtain ⟨i, n, ks, rfl⟩ := kind_manifest (hok x (List.mem_append_right _ (List.mem_cons_self ..))) hty hx
      have h2 : Spec.manifestsOf ty (a ++ .manifest ty i n ks :: b) = (i, n, ks) :: Spec.manifestsOf ty b := by
        unfold Spec.manifestsOf
        rw [filterMap_skip _ _ _ (fun y hy => ?_), List.filterMap_cons]
        · dsimp only
          rw [if_pos rfl]
        · cases y with
          | manifest t i n ks => exact if_neg (ha _ hy)
          | _ => rfl
      have hat' := hat.after
      rw [show (Child.manifest ty i n ks).below.length = ks.length from List.length_map ..] at hat'
      rw [manifests, nextManifest_found id stack hs hat hb he hok ha]
      dsimp only
      rw [ih b _ (by rw [List.length_append, List.length_cons] at hl; omega) (by omega) hat' (fun c hc => hok c (List.mem_append_right _ (List.mem_cons_of_mem _ hc))), h2]
      rfl

/-- **C142** All allowed PFMs, CFMs or PCDs of a component are reported, in order and as the manifest says, whatever was in memory before. -/
theorem manifests_exact {es : List Elem} {c : Comp} (h : Has es c) (hc : c.ok) (ty : UInt8) (hty : ty = 0x76 ∨ ty = 0x77 ∨ ty = 0x78) (stack : Bytes) (hs : stack.length = 258)
    (k : Nat) (hk : es.length ≤ k) :
    manifests es c.id ty stack k 0 = some (.ok ((Spec.manifestsOf ty c.children).map fun m => ⟨m.1, m.2.1, m.2.2⟩)) := by
  obtain ⟨entry, post, h1, he0, hat, hb, hl, _⟩ := has_at h hc
  rw [← manifests_at hty c.id stack hs hb k c.children entry (by omega) (by omega) hat hc.2.2.2]
  have : nextManifest es c.id ty stack 0 = nextManifest es c.id ty stack entry := by
    unfold nextManifest
    rw [if_pos rfl, h1, if_neg (by omega)]
    rfl
  cases k with
  | zero => omega
  | succ k => rw [manifests, manifests, this]

/-! ### Non-vacuity -/

theorem getElem?_mid {α : Type} (a b : List α) (x : α) (n : Nat) (h : n = a.length) : (a ++ x :: b)[n]? = some x := by
  rw [h, List.getElem?_append_right (Nat.le_refl _), Nat.sub_self]; rfl

theorem grouped_of_index (ms : List Child) (h : ∀ i j k : Fin ms.length, i < j → j < k →
    ms[i.val]?.map Child.ty = ms[k.val]?.map Child.ty → ms[j.val]?.map Child.ty = ms[i.val]?.map Child.ty) : Spec.Grouped ms := by
  rintro a x b y c rfl hxy z hz
  obtain ⟨b1, b2, rfl⟩ := List.append_of_mem hz
  have hl : (a ++ x :: (b1 ++ z :: b2) ++ y :: c).length = a.length + b1.length + b2.length + c.length + 3 := by
    simp only [List.length_append, List.length_cons]; omega
  have e1 : (a ++ x :: (b1 ++ z :: b2) ++ y :: c)[a.length]? = some x := by
    rw [List.append_assoc, List.cons_append]; exact getElem?_mid _ _ _ _ rfl
  have e2 : (a ++ x :: (b1 ++ z :: b2) ++ y :: c)[a.length + 1 + b1.length]? = some z := by
    have : a ++ x :: (b1 ++ z :: b2) ++ y :: c = (a ++ [x] ++ b1) ++ z :: (b2 ++ y :: c) := by simp
    rw [this]
    exact getElem?_mid _ _ _ _ (by simp only [List.length_append, List.length_cons, List.length_nil])
  have e3 : (a ++ x :: (b1 ++ z :: b2) ++ y :: c)[a.length + 1 + b1.length + 1 + b2.length]? = some y := by
    have : a ++ x :: (b1 ++ z :: b2) ++ y :: c = (a ++ [x] ++ b1 ++ [z] ++ b2) ++ y :: c := by simp
    rw [this]
    exact getElem?_mid _ _ _ _ (by simp only [List.length_append, List.length_cons, List.length_nil])
  have := h ⟨a.length, by omega⟩ ⟨a.length + 1 + b1.length, by omega⟩ ⟨a.length + 1 + b1.length + 1 + b2.length, by omega⟩ (Fin.mk_lt_mk.mpr (by omega)) (Fin.mk_lt_mk.mpr (by omega))
    (by dsimp only; rw [e1, e3]; exact congrArg some hxy)
  dsimp only at this
  rw [e1, e2] at this
  exact Option.some.inj this

/-- A component with a bit of everything. -/
def exComp : Comp :=
  ⟨0, 1, 0, 0, 7, [.rootCa [List.replicate 32 5], .pmr 1 (List.replicate 64 2), .pmrDigest 1 [List.replicate 32 3, List.replicate 32 4],
    .digest 0 1 [⟨1, none, [List.replicate 32 6]⟩, ⟨2, some 1, [List.replicate 48 7]⟩], .digest 0 2 [⟨1, none, [List.replicate 32 8]⟩],
    .data 0 3 [⟨1, false, [0xff, 0xff], [(1, [1, 2]), (2, [3, 4, 5])]⟩], .aggregated (List.replicate 32 1) 2 1 [⟨1, none, [List.replicate 48 9]⟩],
    .manifest 0x76 0 [65, 66] [⟨0, false, [1, 2]⟩, ⟨4, true, [3]⟩]]⟩

theorem exComp_ok : exComp.ok := by
  refine ⟨by decide, by decide, by decide, ?_⟩
  intro x hx
  simp only [exComp, List.mem_cons, List.not_mem_nil, or_false] at hx
  rcases hx with rfl | rfl | rfl | rfl | rfl | rfl | rfl | rfl <;>
    simp [Child.ok, Digests.ok, Check.ok, IdCheck.ok, exComp, digestLen]
  rintro a b (⟨rfl, rfl⟩ | ⟨rfl, rfl⟩) <;> simp

/-- Another component before it, a platform element and the end behind it. -/
def exElems : List Elem := [⟨0, 0xff, [2, 0, 0, 0, 65, 66, 0, 0]⟩, (⟨1, 2, 1, 2, 9, []⟩ : Comp).elem, ⟨0x71, 0x70, [9]⟩] ++ exComp.elems ++ [⟨1, 0xff, []⟩]

theorem exHas : Has exElems exComp := by
  refine ⟨_, _, rfl, ?_, ⟨[⟨1, 0xff, []⟩], [], rfl, by decide, .inl rfl⟩⟩
  intro e he ht
  simp only [List.mem_cons, List.not_mem_nil, or_false] at he
  rcases he with rfl | rfl | rfl
  · cases ht
  · exact ⟨_, ⟨by decide, by decide, by decide, fun x hx => by cases hx⟩, by decide, rfl⟩
  · cases ht

example : getDevice exElems 7 = .ok (⟨0, 1, 0, 0, 7⟩, [1]) := device_exact exHas exComp_ok
example : getPmr exElems 7 1 (List.replicate 68 0) = .ok (0, List.replicate 32 2) := pmr_exact exHas exComp_ok 1 _ (by decide)
example : getRootCa exElems 7 (fun _ => 0) = .ok (0, List.replicate 32 5) := root_ca_exact exHas exComp_ok _
example : supported exElems 2 4 = .ok [0, 0, 7, 0] := rfl
example : (exComp.children.filter Child.isMeasurement).length = 4 ∧ (exComp.children.filter Child.isMeasurement).map Child.ty = [0x73, 0x73, 0x74, 0x7b] := by decide

example : measurements exElems 7 20 = some (.ok ((exComp.children.filter Child.isMeasurement).map (view 0))) := by
  have := measurements_exact_partial exHas exComp_ok (grouped_of_index _ (by decide)) 20 (by decide)
  rw [if_neg (by decide)] at this
  exact this

example : manifests exElems 7 0x76 (List.replicate 258 0) 20 0 = some (.ok [⟨0, [65, 66], [⟨0, false, [1, 2]⟩, ⟨4, true, [3]⟩]⟩]) :=
  manifests_exact exHas exComp_ok 0x76 (.inl rfl) _ List.length_replicate 20 (by decide)

/-! ### What is not so -/

/-- Two digests with a data check between them. -/
def mixed : Comp := ⟨0, 1, 0, 0, 7, [.digest 0 1 [⟨1, none, [List.replicate 32 6]⟩], .data 0 3 [⟨0, false, [], [(1, [1])]⟩], .digest 0 2 [⟨1, none, [List.replicate 32 8]⟩]]⟩

theorem mixed_ok : mixed.ok := by
  refine ⟨by decide, by decide, by decide, ?_⟩
  intro x hx
  simp only [mixed, List.mem_cons, List.not_mem_nil, or_false] at hx
  rcases hx with rfl | rfl | rfl <;> simp [Child.ok, Digests.ok, Check.ok, mixed, digestLen]

/-- The data check of a well-formed component is silently not reported if it is between two digests: the component is accepted without it. -/
theorem counterexample_interleaved : Has mixed.elems mixed ∧ mixed.ok ∧ (mixed.children.filter Child.isMeasurement).length = 3 ∧
    measurements mixed.elems 7 10 = some (.ok [.digest 0 1 [⟨1, 0, 1, List.replicate 32 6⟩], .digest 0 2 [⟨1, 0, 1, List.replicate 32 8⟩]]) := by
  refine ⟨⟨[], [], ?_, (fun e he => by cases he), [], [], rfl, (fun e he => by cases he), .inl rfl⟩, mixed_ok, by decide, ?_⟩
  · rw [List.nil_append, List.append_nil]
  · rfl

/-- A root CA element that is cut short: what was in the heap is taken for the digest of an allowed root CA. -/
theorem counterexample_root_ca_heap (heap : Nat → UInt8) :
    getRootCa [⟨0x70, 0xff, [0, 1, 0, 0, 7, 0, 0, 0]⟩, ⟨0x7a, 0x70, [1, 0, 0, 0]⟩] 7 heap = .ok (0, (List.range 32).map heap) := rfl

/-- The same for the digests of a PMR. -/
theorem counterexample_pmr_digest_heap (heap : Nat → UInt8) :
    getPmrDigest [⟨0x70, 0xff, [0, 1, 0, 0, 7, 0, 0, 0]⟩, ⟨0x72, 0x70, [3, 1, 0, 0]⟩] 7 3 heap = .ok (0, (List.range 32).map heap) := rfl

/-- A PMR element that is cut short: four bytes of the component element and then what was on the stack are the initial value. -/
theorem counterexample_pmr_stack (stack : Bytes) (h : stack.length = 68) :
    getPmr [⟨0x70, 0xff, [0, 1, 0, 0, 7, 0, 0, 0]⟩, ⟨0x71, 0x70, [3]⟩] 7 3 stack = .ok (0, [7, 0, 0, 0] ++ window stack 8 28) := by
  match stack, h with
  | _ :: _ :: _ :: _ :: _ :: _ :: _ :: _ :: t, _ =>
    show Except.ok (0, window (writeAt (writeAt _ 0 _) 0 _) 4 32) = _
    congr 2
    simp [writeAt, window]

/-- An allowed manifest without contents: index and platform are what was on the stack. -/
theorem counterexample_platform_stack (t : Bytes) :
    nextManifest [⟨0x70, 0xff, [0, 1, 0, 0, 7, 0, 0, 0]⟩, ⟨0x76, 0x70, []⟩, ⟨0x79, 0x76, [0, 1, 0, 0, 5, 0, 0, 0]⟩] 7 0x76 (9 :: 2 :: 65 :: 66 :: t) 0
      = .ok (⟨9, [65, 66], [⟨0, false, [5]⟩]⟩, 3) := by
  have : platformOf (writeAt (9 :: 2 :: 65 :: 66 :: t) 0 []) = [65, 66] := by
    simp [platformOf, writeAt, window]
  show Except.ok ((⟨_, platformOf (writeAt (9 :: 2 :: 65 :: 66 :: t) 0 []), _⟩ : Manifest), _) = _
  rw [this]; rfl

/-- One malformed component makes all components behind it unknown. -/
theorem counterexample_malformed_component (c : Comp) (r : List Elem) :
    getDevice (⟨0x70, 0xff, []⟩ :: c.elems ++ r) c.id = .error .malformed := rfl

end Verif.CfmFlash
