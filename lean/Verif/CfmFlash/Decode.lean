import Verif.CfmFlash.Lemmas
/-!
Helper lemmas: the contents of elements are read as they were written.
-/
namespace Verif.CfmFlash
open Verif
open Spec (Elem Child Comp Digests Check IdCheck Behind Has digestLen)

theorem u8nat (n : Nat) (h : n < 256) : (UInt8.ofNat n).toNat = n := by
  rw [UInt8.toNat_ofNat']; exact Nat.mod_eq_of_lt h

theorem hashLen_ok (h : Nat) (hh : h ≤ 2) : hashLen h = some (digestLen h) := by
  match h, hh with
  | 0, _ => rfl
  | 1, _ => rfl
  | 2, _ => rfl

theorem digestLen_pos (h : Nat) : 0 < digestLen h := by
  match h with
  | 0 => decide
  | 1 => decide
  | _ + 2 => exact (by decide : 0 < 64)

theorem digestLen_le (h : Nat) : digestLen h ≤ 64 := by
  match h with
  | 0 => decide
  | 1 => decide
  | _ + 2 => exact Nat.le_refl 64

theorem flatten_length (n : Nat) (ds : List Bytes) (h : ∀ x ∈ ds, x.length = n) : ds.flatten.length = ds.length * n := by
  induction ds with
  | nil => simp
  | cons d ds ih =>
    rw [List.flatten_cons, List.length_append, ih (fun x hx => h x (List.mem_cons_of_mem _ hx)), h d (List.mem_cons_self ..), List.length_cons, Nat.add_mul]
    omega

theorem window_mid {α : Type} (p x r : List α) : window (p ++ (x ++ r)) p.length x.length = x := by
  unfold window
  rw [List.drop_left, List.take_left]

theorem read_at (e : Elem) (p x r : Bytes) (h : e.data = p ++ (x ++ r)) (off len : Nat) (h1 : off = p.length) (h2 : len = x.length) : read e off len = some x := by
  subst h1; subst h2
  unfold read
  rw [h, window_mid, if_neg (Nat.lt_irrefl _)]

/-- A digest set as it is reported. -/
def viewSet (dflt : Nat) (d : Digests) : DigestSet := ⟨d.version, d.hash.getD dflt, d.digests.length, d.digests.flatten⟩

theorem leNat2 (n : Nat) (h : n < 65536) : leNat [UInt8.ofNat n, UInt8.ofNat (n / 256)] = n := by
  have := leNat_toLE 2 n
  rw [show toLE 2 n = [UInt8.ofNat n, UInt8.ofNat (n / 256)] from rfl] at this
  rw [this]; exact Nat.mod_eq_of_lt h

theorem digestSets_exact (agg : Bool) (dflt : Nat) (hd : dflt ≤ 2) (e : Elem) : ∀ (ss : List Digests) (p : Bytes), e.data = p ++ ss.flatMap Digests.bytes →
    (∀ s ∈ ss, s.ok dflt) → (agg = true → ∀ s ∈ ss, s.hash = none) → digestSets agg dflt e ss.length p.length = .ok (ss.map (viewSet dflt)) := by
  intro ss
  induction ss with
  | nil => intro p _ _ _; rfl
  | cons s ss ih =>
    intro p he hok ha
    obtain ⟨hv, hne, hlen, hh, hx⟩ := hok s (List.mem_cons_self ..)
    rw [List.flatMap_cons] at he
    have hfl := flatten_length _ _ hx
    rw [show s.bytes = [UInt8.ofNat s.version, UInt8.ofNat (s.version / 256), UInt8.ofNat s.digests.length,
      match s.hash with | none => 0 | some h => UInt8.ofNat (1 + 2 * h)] ++ s.digests.flatten from rfl] at he
    generalize hf : (match s.hash with | none => (0 : UInt8) | some h => UInt8.ofNat (1 + 2 * h)) = f at he
    have e1 := read_at e p [UInt8.ofNat s.version, UInt8.ofNat (s.version / 256), UInt8.ofNat s.digests.length, f] _ (by rw [he, List.append_assoc]) p.length 4 rfl rfl
    have e2 := read_at e (p ++ [UInt8.ofNat s.version, UInt8.ofNat (s.version / 256), UInt8.ofNat s.digests.length, f]) s.digests.flatten (ss.flatMap Digests.bytes)
      (by rw [he]; simp only [List.append_assoc]) (p.length + 4) (s.digests.length * digestLen (s.hash.getD dflt)) (by simp) hfl.symm
    have e3 := ih (p ++ ([UInt8.ofNat s.version, UInt8.ofNat (s.version / 256), UInt8.ofNat s.digests.length, f] ++ s.digests.flatten))
      (by rw [he]; simp only [List.append_assoc]) (fun x hx => hok x (List.mem_cons_of_mem _ hx)) (fun h x hx => ha h x (List.mem_cons_of_mem _ hx))
    have hl : (p ++ ([UInt8.ofNat s.version, UInt8.ofNat (s.version / 256), UInt8.ofNat s.digests.length, f] ++ s.digests.flatten)).length
        = p.length + 4 + s.digests.length * digestLen (s.hash.getD dflt) := by
      rw [List.length_append, List.length_append, hfl]; simp only [List.length_cons, List.length_nil]; omega
    rw [hl] at e3
    have hpos : s.digests.length ≠ 0 := fun h => hne (List.length_eq_zero_iff.mp h)
    have hflag : (f.toNat % 2 ≠ 0 ∧ agg = true → False) ∧ (if f.toNat % 2 ≠ 0 then f.toNat / 2 else dflt) = s.hash.getD dflt ∧ s.hash.getD dflt ≤ 2 := by
      rcases Option.eq_none_or_eq_some s.hash with h | ⟨h, hs⟩
      · rw [h] at hf ⊢
        rw [← hf]
        exact ⟨fun hc => hc.1 rfl, rfl, hd⟩
      · rw [hs] at hf ⊢
        have h2 := hh h hs
        have hf' : f.toNat = 1 + 2 * h := by rw [← hf]; exact u8nat _ (by omega)
        refine ⟨fun hc => ?_, ?_, h2⟩
        · have := ha hc.2 s (List.mem_cons_self ..)
          rw [hs] at this; cases this
        · rw [hf', if_pos (by omega), Option.getD_some]; omega
    rw [List.length_cons, digestSets, e1]
    simp only [List.getD_cons_succ, List.getD_cons_zero, u8nat _ hlen]
    rw [if_neg hflag.1, hflag.2.1, hashLen_ok _ hflag.2.2]
    simp only [if_neg hpos, e2, e3]
    rw [show window [UInt8.ofNat s.version, UInt8.ofNat (s.version / 256), UInt8.ofNat s.digests.length, f] 0 2 = [UInt8.ofNat s.version, UInt8.ofNat (s.version / 256)] from rfl,
      leNat2 _ hv]
    rfl

theorem align4_pad (n : Nat) (b : Bytes) (h : b.length = n) : (b ++ Spec.pad n).length = align4 n := by
  unfold Spec.pad align4
  rw [List.length_append, List.length_replicate, h]; omega

theorem values_exact (e : Elem) : ∀ (vs : List (Nat × Bytes)) (p : Bytes), e.data = p ++ vs.flatMap Spec.valueBytes →
    (∀ v ∈ vs, v.1 < 65536 ∧ v.2.length < 65536 ∧ v.2 ≠ []) → values e vs.length p.length = .ok vs := by
  intro vs
  induction vs with
  | nil => intro p _ _; rfl
  | cons v vs ih =>
    intro p he hok
    obtain ⟨h1, h2, h3⟩ := hok v (List.mem_cons_self ..)
    have h0 : v.2.length ≠ 0 := fun h => h3 (List.length_eq_zero_iff.mp h)
    rw [List.flatMap_cons] at he
    rw [show Spec.valueBytes v = [UInt8.ofNat v.1, UInt8.ofNat (v.1 / 256), UInt8.ofNat v.2.length, UInt8.ofNat (v.2.length / 256)] ++ v.2 ++ Spec.pad v.2.length from rfl] at he
    generalize hh : [UInt8.ofNat v.1, UInt8.ofNat (v.1 / 256), UInt8.ofNat v.2.length, UInt8.ofNat (v.2.length / 256)] = hd at he
    have hl : hd.length = 4 := by rw [← hh]; rfl
    have w1 : leNat (window hd 0 2) = v.1 := by rw [← hh]; exact leNat2 _ h1
    have w2 : leNat (window hd 2 2) = v.2.length := by rw [← hh]; exact leNat2 _ h2
    have e1 := read_at e p hd _ (by rw [he, List.append_assoc, List.append_assoc]) p.length 4 rfl hl.symm
    have e2 := read_at e (p ++ hd) v.2 (Spec.pad v.2.length ++ vs.flatMap Spec.valueBytes)
      (by rw [he]; simp only [List.append_assoc]) (p.length + 4) v.2.length (by rw [List.length_append, hl]) rfl
    have e3 := ih (p ++ (hd ++ (v.2 ++ Spec.pad v.2.length))) (by rw [he]; simp only [List.append_assoc]) (fun x hx => hok x (List.mem_cons_of_mem _ hx))
    rw [List.length_append, List.length_append, align4_pad _ _ rfl, hl, ← Nat.add_assoc] at e3
    rw [List.length_cons, values, e1]
    simp only [w1, w2, if_neg h0, e2, e3]
    rfl

theorem checkByte_op (op : Nat) (b : Bool) (h : op < 8) : (Spec.checkByte op b).toNat % 8 = op ∧ decide ((Spec.checkByte op b).toNat / 128 = 1) = b := by
  unfold Spec.checkByte
  cases b
  · rw [u8nat _ (by simp only [Bool.false_eq_true, if_false]; omega)]
    simp only [Bool.false_eq_true, if_false]
    exact ⟨by omega, decide_eq_false (by omega)⟩
  · rw [u8nat _ (by simp only [if_true]; omega)]
    simp only [if_true]
    exact ⟨by omega, decide_eq_true (by omega)⟩

theorem check_exact (e : Elem) (c : Check) (he : e.data = c.bytes) (hok : c.ok) : check e = .ok c := by
  obtain ⟨h1, h2, h3, h4, h5⟩ := hok
  have h0 : c.values.length ≠ 0 := fun h => h3 (List.length_eq_zero_iff.mp h)
  rw [show c.bytes = [Spec.checkByte c.op c.bigEndian, UInt8.ofNat c.values.length, UInt8.ofNat c.mask.length, UInt8.ofNat (c.mask.length / 256)] ++ (c.mask ++ Spec.pad c.mask.length)
    ++ c.values.flatMap Spec.valueBytes from rfl] at he
  have e3 := values_exact e c.values _ he h5
  generalize hh : [Spec.checkByte c.op c.bigEndian, UInt8.ofNat c.values.length, UInt8.ofNat c.mask.length, UInt8.ofNat (c.mask.length / 256)] = hd at he e3
  have hl : hd.length = 4 := by rw [← hh]; rfl
  have w0 : (hd.getD 0 0) = Spec.checkByte c.op c.bigEndian := by rw [← hh]; rfl
  have w1 : (hd.getD 1 0).toNat = c.values.length := by rw [← hh]; exact u8nat _ h4
  have w2 : leNat (window hd 2 2) = c.mask.length := by rw [← hh]; exact leNat2 _ h2
  have e1 := read_at e [] hd _ (by rw [he, List.append_assoc]; rfl) 0 4 rfl hl.symm
  have e2 : (if c.mask.length = 0 then some [] else read e 4 c.mask.length) = some c.mask := by
    split
    · rename_i h; rw [List.length_eq_zero_iff.mp h]
    · exact read_at e hd c.mask (Spec.pad c.mask.length ++ c.values.flatMap Spec.valueBytes) (by rw [he]; simp only [List.append_assoc]) 4 _ hl.symm rfl
  rw [List.length_append, align4_pad _ _ rfl, hl] at e3
  have hb := checkByte_op c.op c.bigEndian h1
  unfold check
  rw [e1]
  simp only [w0, w1, w2, e2, if_neg h0, e3, hb.1, hb.2]
  rfl

theorem ids_bytes (f : Nat → Bytes) (g : Bytes → Nat) (hl : ∀ n, (f n).length = 4) (hg : ∀ n, n < 2 ^ 32 → g (f n) = n) : ∀ (ids : List Nat), (∀ i ∈ ids, i < 2 ^ 32) →
    (List.range ids.length).map (fun i => g (window (ids.flatMap f) (4 * i) 4)) = ids := by
  intro ids
  induction ids with
  | nil => intro _; rfl
  | cons n ids ih =>
    intro h
    rw [List.length_cons, List.range_succ_eq_map, List.map_cons, List.map_map, List.flatMap_cons]
    have h0 : window (f n ++ ids.flatMap f) (4 * 0) 4 = f n := by
      have := window_mid [] (f n) (ids.flatMap f)
      rw [hl] at this; exact this
    rw [h0, hg n (h n (List.mem_cons_self ..))]
    congr 1
    refine Eq.trans ?_ (ih (fun i hi => h i (List.mem_cons_of_mem _ hi)))
    refine List.map_congr_left fun i _ => ?_
    show g (window (f n ++ ids.flatMap f) (4 * (i + 1)) 4) = _
    rw [show 4 * (i + 1) = (f n).length + 4 * i by rw [hl]; omega, ManifestFlash.window_after]

theorem idCheck_exact (e : Elem) (c : IdCheck) (he : e.data = c.bytes) (hok : c.ok) : idCheck e = .ok c := by
  obtain ⟨h1, h3, h4, h5⟩ := hok
  have h0 : c.ids.length ≠ 0 := fun h => h3 (List.length_eq_zero_iff.mp h)
  have hb := checkByte_op c.op c.bigEndian h1
  unfold Spec.IdCheck.bytes at he
  have hfl : ∀ n, ((if c.bigEndian then toBE 4 else toLE 4) n).length = 4 := by
    intro n; split
    · exact toBE_length 4 n
    · exact toLE_length 4 n
  have hlen : (c.ids.flatMap (if c.bigEndian then toBE 4 else toLE 4)).length = 4 * c.ids.length := by
    rw [List.flatMap_def, flatten_length 4, List.length_map]
    · omega
    · intro x hx
      obtain ⟨n, _, rfl⟩ := List.mem_map.mp hx
      exact hfl n
  have e1 := read_at e [] [Spec.checkByte c.op c.bigEndian, UInt8.ofNat c.ids.length, 0, 0] _ (by rw [he]; rfl) 0 4 rfl rfl
  have e2 := read_at e [Spec.checkByte c.op c.bigEndian, UInt8.ofNat c.ids.length, 0, 0] _ [] (by rw [he, List.append_nil]) 4 (4 * c.ids.length) rfl hlen.symm
  have e3 := ids_bytes (if c.bigEndian then toBE 4 else toLE 4) (if c.bigEndian then beNat else leNat) hfl (by
    intro n hn
    cases c.bigEndian
    · exact (leNat_toLE 4 n).trans (Nat.mod_eq_of_lt hn)
    · exact (beNat_toBE 4 n).trans (Nat.mod_eq_of_lt hn)) c.ids h5
  unfold idCheck
  rw [e1]
  simp only [List.getD_cons_succ, List.getD_cons_zero, u8nat _ h4, if_neg h0, e2, hb.1, hb.2, e3]

end Verif.CfmFlash
