import Verif.RiotDer.Prims
/-! Helper lemmas: object identifiers, and the certificate envelope. -/
namespace Verif.RiotDer
open Verif

theorem subIdHigh_zero : Spec.subIdHigh 0 = [] := by rw [Spec.subIdHigh]; simp

theorem digits_high (f v : Nat) (h0 : v ≠ 0) (h : v < 128 ^ f) :
    ((digits f v).reverse.map fun x => UInt8.ofNat (x + 128)) = Spec.subIdHigh v := by
  induction f generalizing v with
  | zero => simp at h; omega
  | succ f ih =>
    rw [Spec.subIdHigh, if_neg h0]
    simp only [digits, List.reverse_cons, List.map_append, List.map_cons, List.map_nil]
    by_cases hd : v / 128 = 0
    · rw [if_pos hd, hd, subIdHigh_zero, Nat.add_comm 128]; rfl
    · rw [if_neg hd, ih (v / 128) hd (by rw [Nat.pow_succ] at h; omega), Nat.add_comm 128]

theorem revDigits_eq (v : Nat) (h : v < 2 ^ 31) : revDigits (digits 5 v) = Spec.subId v := by
  unfold Spec.subId
  rw [show digits 5 v = v % 128 :: (if v / 128 = 0 then [] else digits 4 (v / 128)) from rfl]
  simp only [revDigits]
  by_cases hd : v / 128 = 0
  · rw [if_pos hd, hd, subIdHigh_zero]; rfl
  · rw [if_neg hd, digits_high 4 (v / 128) hd (by omega)]

theorem subIdHigh_length (f v : Nat) (h : v < 128 ^ f) : (Spec.subIdHigh v).length ≤ f := by
  induction f generalizing v with
  | zero => have : v = 0 := by simpa using h
            rw [this, subIdHigh_zero]; simp
  | succ f ih =>
    rw [Spec.subIdHigh]
    split
    · simp
    · have := ih (v / 128) (by rw [Nat.pow_succ] at h; omega)
      simp; omega

theorem subId_length (v : Nat) (h : v < 2 ^ 31) : (Spec.subId v).length ≤ 5 := by
  have := subIdHigh_length 4 (v / 128) (by omega)
  unfold Spec.subId; simp; omega

theorem subId_small {v : Nat} (h : v < 128) : Spec.subId v = [UInt8.ofNat v] := by
  unfold Spec.subId
  rw [show v / 128 = 0 by omega, subIdHigh_zero, show v % 128 = v by omega]; rfl

theorem oidArcs_exact (vs : List Nat) (h : ∀ v ∈ vs, v < 2 ^ 31) :
    Exact (oidArcs vs) (vs.map Spec.subId).flatten := by
  induction vs with
  | nil => intro c c' hp _ hc; simp only [oidArcs, Res.ok.injEq] at hc; subst hc; exact Grew.refl hp
  | cons v vs ih =>
    intro c c' hp hl hc
    simp only [oidArcs] at hc
    obtain ⟨c2, h2, h3⟩ := Res.bind_eq_ok.1 hc
    obtain ⟨c1, h1, h2⟩ := Res.bind_eq_ok.1 h2
    obtain ⟨rfl, _⟩ := chk_ok.1 h2
    rw [revDigits_eq v (h v (by simp))] at h1
    have g := put_exact _ _ _ hp hl h1
    simpa using g.trans (ih (fun x hx => h x (by simp [hx])) _ _ g.inb (by rw [g.len]; exact hl) h3)

theorem oidArcs_fits (vs : List Nat) (h : ∀ v ∈ vs, v < 2 ^ 31) :
    Fits 0 (oidArcs vs) (vs.map Spec.subId).flatten := by
  induction vs with
  | nil => intro c _ _ _; exact ⟨c, rfl⟩
  | cons v vs ih =>
    intro c hp hl hd
    rw [List.map_cons, List.flatten_cons, List.length_append] at hp
    obtain ⟨c1, h1⟩ := put_fits (c := c) (bs := Spec.subId v) (by omega)
    have g := put_exact _ _ _ (by omega) hl h1
    obtain ⟨c2, h2⟩ := ih (fun x hx => h x (by simp [hx])) c1 (by rw [g.pos, g.len]; omega)
      (by rw [g.len]; exact hl) (by rw [g.stack]; exact hd)
    refine ⟨c2, ?_⟩
    simp only [oidArcs]
    refine Res.bind_eq_ok.2 ⟨c1, Res.bind_eq_ok.2 ⟨c1, ?_, chk_ok.2 ⟨rfl, ?_⟩⟩, h2⟩
    · rw [revDigits_eq v (h v (by simp))]; exact h1
    · rw [g.len, g.pos]; omega

theorem take_poke (b : Bytes) (p n : Nat) (x : UInt8) (hp : p < n) (hn : n ≤ b.length) :
    (writeAt b p [x]).take n = b.take p ++ [x] ++ (b.take n).drop (p + 1) := by
  simp only [writeAt, List.length_cons, List.length_nil]
  rw [List.take_of_length_le (by simp; omega : ([x] : Bytes).length ≤ b.length - p)]
  rw [List.take_append, List.take_of_length_le (by simp; omega), List.drop_take]
  congr 2
  simp; omega

/-- An OID the builder can encode: two to fifteen arcs, the first two sharing one octet. -/
structure GoodOid (arcs : List Nat) : Prop where
  two : 2 ≤ arcs.length
  max : arcs.length < 16
  first : 40 * arcs[0]! + arcs[1]! < 128
  int : ∀ v ∈ arcs, v < 2 ^ 31

instance (arcs : List Nat) : Decidable (GoodOid arcs) :=
  if h : 2 ≤ arcs.length ∧ arcs.length < 16 ∧ 40 * arcs[0]! + arcs[1]! < 128 ∧ ∀ v ∈ arcs, v < 2 ^ 31
  then .isTrue ⟨h.1, h.2.1, h.2.2.1, h.2.2.2⟩
  else .isFalse fun g => h ⟨g.two, g.max, g.first, g.int⟩

theorem flatten_subId_length (vs : List Nat) (h : ∀ v ∈ vs, v < 2 ^ 31) :
    (vs.map Spec.subId).flatten.length ≤ 5 * vs.length := by
  induction vs with
  | nil => simp
  | cons v vs ih =>
    have := ih (fun x hx => h x (by simp [hx]))
    have := subId_length v (h v (by simp))
    rw [List.map_cons, List.flatten_cons, List.length_append, List.length_cons]; omega

theorem addOID_steps {arcs : List Nat} (hg : GoodOid arcs) {c : Ctx} (hp : c.pos ≤ c.buf.length)
    (hl : c.buf.length < 65536) :
    (∀ c', addOID arcs c = .ok c' → Grew c (Spec.oid arcs) c') ∧
    (c.pos + (Spec.oid arcs).length + 32 ≤ c.buf.length → c.stack.length ≤ maxNested →
      ∃ c', addOID arcs c = .ok c') := by
  obtain ⟨a, b, rest, rfl⟩ : ∃ a b rest, arcs = a :: b :: rest := by
    have := hg.two
    match arcs, this with
    | a :: b :: rest, _ => exact ⟨a, b, rest, rfl⟩
  have hf : 40 * a + b < 128 := hg.first
  have hr : ∀ v ∈ rest, v < 2 ^ 31 := fun v hv => hg.int v (by simp [hv])
  have hm : rest.length < 14 := by have := hg.max; simp at this; omega
  have hfb : UInt8.ofNat (a * 40 + (b :: rest).headD 0) = UInt8.ofNat (40 * a + b) := by
    rw [Nat.mul_comm a]; rfl
  have hcont : Spec.oidContent (a :: b :: rest) =
      [UInt8.ofNat (40 * a + b)] ++ (rest.map Spec.subId).flatten := by
    simp only [Spec.oidContent]; rw [subId_small hf]
  generalize hK : (rest.map Spec.subId).flatten = K at hcont
  have hKl : K.length ≤ 65 := by
    have := flatten_subId_length rest hr
    rw [hK] at this; omega
  have hoid : Spec.oid (a :: b :: rest) = [6, UInt8.ofNat (1 + K.length)] ++
      ([UInt8.ofNat (40 * a + b)] ++ K) := by
    unfold Spec.oid
    rw [hcont, tlv_small _ _ (by simp; omega)]
    rw [List.length_append]; rfl
  -- the run up to the length
  have run : ∀ c4, (∃ c1 c3, put [6] c = .ok c1 ∧
      put [UInt8.ofNat (40 * a + b)] { c1 with pos := c1.pos + 1 } = .ok c3 ∧ oidArcs rest c3 = .ok c4) →
      Grew c (Spec.oid (a :: b :: rest)) { c4 with
        buf := writeAt c4.buf (c.pos + 1) [UInt8.ofNat (c4.pos - 1 - (c.pos + 1))] } ∧
      c.pos + 1 < c4.buf.length := by
    rintro c4 ⟨c1, c3, h1, h3, h4⟩
    have g1 := put_exact _ _ _ hp hl h1
    have p1 : c1.pos = c.pos + 1 := g1.pos
    have hin2 : c1.pos + 1 ≤ c1.buf.length := by
      have := (put_ok.1 h3).1
      simp at this; omega
    have g3 := put_exact _ _ _ hin2 (by rw [g1.len]; exact hl) h3
    have g4 := oidArcs_exact rest hr c3 c4 g3.inb (by rw [g3.len]; show c1.buf.length < _; rw [g1.len]; exact hl) h4
    rw [hK] at g4
    have g := g3.trans g4
    have gp : c4.pos = c1.pos + 1 + (1 + K.length) := by rw [g.pos, List.length_append]; rfl
    have gl : c4.buf.length = c.buf.length := by rw [g.len]; exact g1.len
    have gi := g.inb
    refine ⟨⟨?_, ?_, ?_, ?_, ?_⟩, by omega⟩
    · show (writeAt _ _ _).take c4.pos = _
      rw [take_poke _ _ _ _ (by omega) gi, hoid]
      have e1 : c4.buf.take c4.pos = (c1.buf.take (c1.pos + 1)) ++ ([UInt8.ofNat (40 * a + b)] ++ K) := g.out
      have e2 : c1.buf.take c1.pos = c.out ++ [6] := g1.out
      have hlen1 : (c1.buf.take (c1.pos + 1)).length = c1.pos + 1 := by simp; omega
      have t1 : c4.buf.take (c.pos + 1) = c.out ++ [6] := by
        have := congrArg (List.take (c.pos + 1)) e1
        rw [List.take_take, show min (c.pos + 1) c4.pos = c.pos + 1 by omega,
          List.take_append_of_le_length (by omega), List.take_take,
          show min (c.pos + 1) (c1.pos + 1) = c1.pos by omega, e2] at this
        exact this
      rw [t1, e1, List.drop_left' (by omega)]
      rw [show c4.pos - 1 - (c.pos + 1) = 1 + K.length by omega]
      simp
    · show c4.pos = _
      rw [hoid]; simp; omega
    · exact g.stack.trans g1.stack
    · show (writeAt _ _ _).length = _
      rw [writeAt_length, gl]
    · show c4.pos ≤ (writeAt _ _ _).length
      rw [writeAt_length]; exact gi
  constructor
  · intro c' h
    unfold addOID at h
    simp only at h
    obtain ⟨d0, h0, hb⟩ := Res.bind_eq_ok.1 h
    obtain ⟨d1, h01, h02⟩ := Res.bind_eq_ok.1 h0
    have e1 := (asrt_ok.1 h01).1
    have e2 := (chk_ok.1 h02).1
    rw [e2, e1] at hb
    unfold oidBody at hb
    obtain ⟨c4, k4, h5⟩ := Res.bind_eq_ok.1 hb
    obtain ⟨c3, k3, h4⟩ := Res.bind_eq_ok.1 k4
    obtain ⟨c2, k2, h3⟩ := Res.bind_eq_ok.1 k3
    obtain ⟨c1, h1, h2⟩ := Res.bind_eq_ok.1 k2
    simp only [skip, Res.ok.injEq] at h2
    rw [← h2, hfb] at h3
    obtain ⟨G, hlt⟩ := run c4 ⟨c1, c3, h1, h3, h4⟩
    unfold poke at h5
    rw [if_pos hlt] at h5
    cases h5
    exact G
  · intro hfit hst
    rw [hoid] at hfit
    simp only [List.length_append, List.length_cons, List.length_nil] at hfit
    obtain ⟨c1, h1⟩ := put_fits (c := c) (bs := [6]) (by simp; omega)
    have g1 := put_exact _ _ _ hp hl h1
    have p1 : c1.pos = c.pos + 1 := g1.pos
    have l1 := g1.len
    obtain ⟨c3, h3⟩ := put_fits (c := { c1 with pos := c1.pos + 1 }) (bs := [UInt8.ofNat (40 * a + b)])
      (by simp; omega)
    have g3 := put_exact _ { c1 with pos := c1.pos + 1 } _ (show c1.pos + 1 ≤ c1.buf.length by omega)
      (show c1.buf.length < 65536 by omega) h3
    have p3 : c3.pos = c1.pos + 1 + 1 := g3.pos
    have l3 : c3.buf.length = c1.buf.length := g3.len
    obtain ⟨c4, h4⟩ := oidArcs_fits rest hr c3 (by rw [hK]; omega) (by omega)
      (by rw [g3.stack]; show c1.stack.length + 0 ≤ _; rw [g1.stack]; omega)
    obtain ⟨G, hlt⟩ := run c4 ⟨c1, c3, h1, h3, h4⟩
    refine ⟨{ c4 with buf := writeAt c4.buf (c.pos + 1) [UInt8.ofNat (c4.pos - 1 - (c.pos + 1))] }, ?_⟩
    unfold addOID
    simp only
    refine Res.bind_eq_ok.2 ⟨c, Res.bind_eq_ok.2 ⟨c, asrt_ok.2 ⟨rfl, by simpa using hg.max⟩,
      chk_ok.2 ⟨rfl, by omega⟩⟩, ?_⟩
    unfold oidBody
    refine Res.bind_eq_ok.2 ⟨c4, Res.bind_eq_ok.2 ⟨c3, Res.bind_eq_ok.2 ⟨_, Res.bind_eq_ok.2
      ⟨c1, h1, rfl⟩, by rw [hfb]; exact h3⟩, h4⟩, ?_⟩
    unfold poke
    rw [if_pos hlt]

theorem addOID_exact {arcs : List Nat} (hg : GoodOid arcs) : Exact (addOID arcs) (Spec.oid arcs) :=
  fun _ c' hp hl h => (addOID_steps hg hp hl).1 c' h

theorem addOID_fits {arcs : List Nat} (hg : GoodOid arcs) : Fits 0 (addOID arcs) (Spec.oid arcs) :=
  fun _ hp hl hd => (addOID_steps hg (by omega) hl).2 hp (by omega)

/-- The certificate envelope around what has been built so far. -/
theorem envelope {fs : List (Ctx → Out)} {b : Bytes} {c c' : Ctx} (hp : c.pos ≤ c.buf.length)
    (hl : c.buf.length < 65536) (hf : Exact (calls fs) b)
    (h : calls (tbsToCert :: (fs ++ [popNesting])) c = .ok c') :
    c.stack = [] ∧ c'.out = Spec.tlv 0x30 (c.out ++ b) ∧ c'.stack = [] ∧ c'.pos ≤ c'.buf.length ∧
      c'.buf.length = c.buf.length := by
  obtain ⟨c1, h1, h2⟩ := Res.bind_eq_ok.1 h
  unfold tbsToCert at h1
  obtain ⟨d0, h01, k1⟩ := Res.bind_eq_ok.1 h1
  obtain ⟨d1, h02, k2⟩ := Res.bind_eq_ok.1 k1
  obtain ⟨e1, hs⟩ := asrt_ok.1 h01
  obtain ⟨e2, hr⟩ := chk_ok.1 h02
  rw [e1] at e2 hr
  rw [e2] at k2
  replace h1 := Res.ok.inj k2
  have hl1 : c1.buf.length = c.buf.length := by rw [← h1]; simp [writeAt_length]
  have hp1 : c1.pos = c.pos + 1 := by rw [← h1]
  have hs1 : c1.stack = [1] := by rw [← h1]
  have ho1 : c1.out = [0x30] ++ c.out := by
    rw [← h1]
    show (writeAt (writeAt c.buf 1 (c.buf.take c.pos)) 0 [0x30]).take (c.pos + 1) = _
    have hlen : (c.buf.take c.pos).length = c.pos := by simp; omega
    rw [take_poke _ _ _ _ (by omega) (by rw [writeAt_length]; omega)]
    have := take_writeAt' c.buf (c.buf.take c.pos) 1 (by omega)
    rw [hlen, Nat.add_comm 1] at this
    rw [this, List.drop_left' (by simp; omega)]
    rfl
  rw [calls_append] at h2
  obtain ⟨c2, h5, h6⟩ := Res.bind_eq_ok.1 h2
  obtain ⟨c3, h3, h4⟩ := Res.bind_eq_ok.1 h6
  simp only [calls, Res.ok.injEq] at h4
  subst h4
  have g := hf c1 c2 (by omega) (by omega) h5
  have ho : c2.out = [0x30] ++ (c.out ++ b) := by rw [g.out, ho1]; simp
  obtain ⟨c4, e1, e2, e3, e4, e5, e6⟩ := pop_grew (s := 1) (rest := []) (pre := [0x30]) (b := c.out ++ b)
    (by rw [g.stack, hs1]) g.inb ho rfl (by rw [g.len]; omega) (pop_room h3)
  rw [e1] at h3
  simp only [Res.ok.injEq] at h3
  subst h3
  exact ⟨List.isEmpty_iff.1 hs, by rw [e2]; rfl, e4, e6, by rw [e5, g.len, hl1]⟩

end Verif.RiotDer
