import Verif.PcdFlash.Lemmas
/-!
C143: what is read from a PCD is what it says.
-/
namespace Verif.PcdFlash
open Verif
open Spec (Elem Times Rot Port I2c Pci Conn Kind Comp isComp)

/-! ### The RoT -/

theorem rotElement_exact (stack : Nat → UInt8) (r : Rot) (pre post : List Elem) (hpre : ∀ e ∈ pre, e.ty ≠ 0x40) :
    ∃ x, (r.times ≠ none → x = []) ∧ rotElement stack (pre ++ r.elem :: post) = .ok (pre.length, (if r.times = none then 1 else 2), r.bytes ++ x) := by
  have hf : find [0x40] 0xff (pre ++ r.elem :: post) 0 = .ok (0 + pre.length, r.elem) :=
    find_top [0x40] r.elem post (List.mem_singleton.mpr rfl) rfl pre 0 (fun e he h => hpre e he (List.mem_singleton.mp h))
  unfold rotElement
  rw [hf, Nat.zero_add]
  dsimp only
  cases ht : r.times with
  | none =>
    have hl : r.elem.data.length = 8 := by show r.bytes.length = 8; unfold Rot.bytes; rw [ht]; rfl
    have hfm : r.elem.fmt = 1 := by show (if r.times = none then (1 : UInt8) else 2) = 1; rw [ht]; rfl
    refine ⟨(local_ stack 40).drop 8, (fun h => absurd rfl h), ?_⟩
    rw [hl, hfm, if_neg (fun h => h.elim (fun h => by omega) (fun h => absurd h.1 (by decide))), if_pos rfl,
      window_all _ _ (by omega), writeAt_zero _ _ (by rw [hl, local_length]; omega), hl]
    rfl
  | some t =>
    have hl : r.elem.data.length = 40 := by show r.bytes.length = 40; unfold Rot.bytes; rw [ht]; rfl
    have hfm : r.elem.fmt = 2 := by show (if r.times = none then (1 : UInt8) else 2) = 2; rw [ht]; rfl
    refine ⟨[], (fun _ => rfl), ?_⟩
    rw [hl, hfm, if_neg (fun h => h.elim (fun h => absurd h.1 (by decide)) (fun h => by omega)), if_neg (by simp),
      window_all _ _ (by omega), writeAt_zero _ _ (by rw [hl, local_length]; omega), hl, List.drop_eq_nil_of_le (by rw [local_length]; omega)]
    rfl

/-- **C143** The configuration of the RoT is that of the PCD; if that has no times, the defaults hold. -/
theorem rot_exact (stack : Nat → UInt8) (r : Rot) (ht : ∀ t, r.times = some t → t.ok) (pre post : List Elem) (hpre : ∀ e ∈ pre, e.ty ≠ 0x40) :
    rotInfo stack (pre ++ r.elem :: post) = .ok ⟨!r.acRot, r.ports, r.components, r.addr, r.eid, r.bridgeAddr, r.bridgeEid, r.time⟩ := by
  obtain ⟨x, hx, h⟩ := rotElement_exact stack r pre post hpre
  unfold rotInfo
  rw [h]
  obtain ⟨ac, po, co, ad, ei, ba, be, ts⟩ := r
  have ha : decide ((if ac then (1 : UInt8) else 0).toNat % 2 = 0) = !ac := by cases ac <;> rfl
  cases ts with
  | none =>
    dsimp only
    rw [if_pos rfl, if_pos rfl]
    show Except.ok (⟨decide ((if ac then (1 : UInt8) else 0).toNat % 2 = 0), po, co, ad, ei, ba, be, Times.dflt⟩ : RotInfo) = _
    rw [ha]; rfl
  | some t =>
    obtain ⟨h1, h2, h3, h4, h5, h6, h7⟩ := ht t rfl
    dsimp only
    rw [if_neg (by simp)]
    show Except.ok (⟨decide ((if ac then (1 : UInt8) else 0).toNat % 2 = 0), po, co, ad, ei, ba, be,
      ⟨leNat (toLE 4 t.success), leNat (toLE 4 t.fail), leNat (toLE 4 t.discovery), leNat (toLE 4 t.ctrl), leNat (toLE 4 t.table), leNat (toLE 4 t.bridge), leNat (toLE 4 t.notReady),
        t.retries⟩⟩ : RotInfo) = _
    rw [ha, le4 _ h1, le4 _ h2, le4 _ h3, le4 _ h4, le4 _ h5, le4 _ h6, le4 _ h7]; rfl

/-- **C143** A PCD that says nothing about the RoT. -/
theorem rot_missing (stack : Nat → UInt8) (es : List Elem) (h : ∀ e ∈ es, e.ty ≠ 0x40) (id : UInt8) :
    rotInfo stack es = .error .notFound ∧ getPort stack es id = .error .notFound := by
  have hf : find [0x40] 0xff es 0 = .error .notFound := find_none _ _ _ (fun e he hx => h e he (List.mem_singleton.mp hx))
  have : rotElement stack es = .error .notFound := by unfold rotElement; rw [hf]
  unfold rotInfo getPort
  rw [this]
  exact ⟨rfl, rfl⟩

/-- The bytes of the RoT element do not depend on the stack where they are used. -/
theorem rotElement_stack (s s' : Nat → UInt8) (es : List Elem) (h : ∀ e ∈ es, e.ty = 0x40 → e.fmt ≠ 0) :
    (∃ e, rotElement s es = .error e ∧ rotElement s' es = .error e) ∨
    (∃ i f b b', rotElement s es = .ok (i, f, b) ∧ rotElement s' es = .ok (i, f, b') ∧ (f = 1 ∨ b = b') ∧ ∀ k, k < 8 → b.getD k 0 = b'.getD k 0) := by
  unfold rotElement
  cases hf : find [0x40] 0xff es 0 with
  | error e => exact .inl ⟨e, rfl, rfl⟩
  | ok p =>
    obtain ⟨i, e⟩ := p
    obtain ⟨-, he, hty, -⟩ := find_sound _ _ _ _ _ _ hf
    have h0 := h e (List.mem_of_getElem? he) (List.mem_singleton.mp hty)
    dsimp only
    by_cases hc : (e.fmt = 1 ∧ min e.data.length 40 < 8) ∨ (2 ≤ e.fmt ∧ min e.data.length 40 < 40)
    · rw [if_pos hc, if_pos hc]; exact .inl ⟨_, rfl, rfl⟩
    · rw [if_neg hc, if_neg hc]
      have hw : (window e.data 0 40).length = min 40 e.data.length := by rw [window_length, Nat.sub_zero]
      refine .inr ⟨_, _, _, _, rfl, rfl, ?_, ?_⟩
      · by_cases h1 : e.fmt = 1
        · exact .inl h1
        · have h2 : 2 ≤ e.fmt := by
            rw [UInt8.le_iff_toNat_le]
            have a : e.fmt.toNat ≠ 0 := fun x => h0 (UInt8.toNat_inj.mp x)
            have b : e.fmt.toNat ≠ 1 := fun x => h1 (UInt8.toNat_inj.mp x)
            show 2 ≤ e.fmt.toNat
            omega
          have : 40 ≤ e.data.length := by
            rcases Nat.lt_or_ge (min e.data.length 40) 40 with x | x
            · exact absurd (.inr ⟨h2, x⟩) hc
            · omega
          refine .inr ?_
          rw [writeAt_zero _ _ (by rw [hw, local_length]; omega), writeAt_zero _ _ (by rw [hw, local_length]; omega),
            List.drop_eq_nil_of_le (by rw [hw, local_length]; omega), List.drop_eq_nil_of_le (by rw [hw, local_length]; omega)]
      · intro k hk
        have h8 : 8 ≤ min e.data.length 40 := by
          by_cases h1 : e.fmt = 1
          · rcases Nat.lt_or_ge (min e.data.length 40) 8 with x | x
            · exact absurd (.inl ⟨h1, x⟩) hc
            · exact x
          · have h2 : 2 ≤ e.fmt := by
              rw [UInt8.le_iff_toNat_le]
              have a : e.fmt.toNat ≠ 0 := fun x => h0 (UInt8.toNat_inj.mp x)
              have b : e.fmt.toNat ≠ 1 := fun x => h1 (UInt8.toNat_inj.mp x)
              show 2 ≤ e.fmt.toNat
              omega
            rcases Nat.lt_or_ge (min e.data.length 40) 40 with x | x
            · exact absurd (.inr ⟨h2, x⟩) hc
            · omega
        rw [writeAt_zero _ _ (by rw [hw, local_length]; omega), writeAt_zero _ _ (by rw [hw, local_length]; omega)]
        simp only [List.getD_eq_getElem?_getD]
        rw [List.getElem?_append_left (by omega), List.getElem?_append_left (by omega)]

/-- **C143** Of any PCD whose RoT elements are not of format 0, however short they are, the configuration of the RoT and the ports does not depend on what was on the stack. -/
theorem rot_no_stack (s s' : Nat → UInt8) (es : List Elem) (h : ∀ e ∈ es, e.ty = 0x40 → e.fmt ≠ 0) (id : UInt8) :
    rotInfo s es = rotInfo s' es ∧ getPort s es id = getPort s' es id := by
  unfold rotInfo getPort
  rcases rotElement_stack s s' es h with ⟨e, h1, h2⟩ | ⟨i, f, b, b', h1, h2, h3, h4⟩
  · rw [h1, h2]; exact ⟨rfl, rfl⟩
  · rw [h1, h2]
    dsimp only
    rw [h4 0 (by omega), h4 1 (by omega), h4 2 (by omega), h4 3 (by omega), h4 4 (by omega), h4 5 (by omega), h4 6 (by omega)]
    refine ⟨?_, rfl⟩
    rcases h3 with h3 | h3
    · rw [if_pos h3, if_pos h3]
    · rw [h3]

example : rotInfo (fun _ => 1) [⟨0x40, 0xff, 2, List.replicate 12 0⟩] = .error .malformed := rfl

/-- **C143, negation** With format version 0 the length of the RoT element is not checked, and the configuration is what was on the stack. -/
theorem counterexample_rot_format_zero : ∃ (e : Elem) (s s' : Nat → UInt8) (i i' : RotInfo),
    rotInfo s [e] = .ok i ∧ rotInfo s' [e] = .ok i' ∧ i.components ≠ i'.components ∧ i.eid ≠ i'.eid :=
  ⟨⟨0x40, 0xff, 0, [0]⟩, (fun _ => 1), (fun _ => 2), ⟨true, 1, 1, 1, 1, 1, 1, ⟨16843009, 16843009, 16843009, 16843009, 16843009, 16843009, 16843009, 1⟩⟩,
    ⟨true, 2, 2, 2, 2, 2, 2, ⟨33686018, 33686018, 33686018, 33686018, 33686018, 33686018, 33686018, 2⟩⟩, rfl, rfl, by decide, by decide⟩

/-! ### Ports -/

/-- A port as it is reported. -/
def viewPort (p : Port) : PortInfo := ⟨p.freq, p.mode, p.reset, p.runtime.toNat, p.watchdog.toNat, p.hostReset.toNat, p.policy, p.pulse⟩

theorem portLoop_exact (es post : List Elem) (id : UInt8) : ∀ (ps : List Port) (n start : Nat), es.drop start = ps.map Port.elem ++ post → (∀ p ∈ ps, p.ok) → ps.length ≤ n →
    (ps.length < n → ∀ e ∈ post.head?, e.parent = 0xff) →
    portLoop es id n start = match ps.find? (fun p => p.id == id) with | some p => .ok (viewPort p) | none => .error .invalidPort := by
  intro ps
  induction ps with
  | nil =>
    intro n start hd _ _ hpost
    cases n with
    | zero => rfl
    | succ n =>
      rw [List.map_nil, List.nil_append] at hd
      rw [portLoop, hd]
      cases post with
      | nil => rfl
      | cons e post =>
        rw [find, if_pos ⟨by decide, hpost (by simp) e (by simp)⟩]; rfl
  | cons p ps ih =>
    intro n start hd hok hn hpost
    rw [List.length_cons] at hn hpost
    obtain ⟨m, rfl⟩ : ∃ m, n = m + 1 := ⟨n - 1, by omega⟩
    obtain ⟨hl, hid, hinfo⟩ := port_bytes p (hok p (List.mem_cons_self ..))
    have hf : find [0x41] 0x40 (es.drop start) start = .ok (start, p.elem) := by
      rw [hd, List.map_cons, List.cons_append, find, if_neg (fun h => absurd h.2 (show (0x40 : UInt8) ≠ 0xff by decide)), if_pos (show p.elem.ty ∈ [(0x41 : UInt8)] from List.mem_singleton.mpr rfl), if_neg (fun h => h.2 rfl)]
    have hd' : es.drop (start + 1) = ps.map Port.elem ++ post := by rw [← List.drop_drop, hd]; rfl
    rw [portLoop, hf]
    dsimp only
    have hl' : p.elem.data.length = 8 := hl
    rw [if_neg (by omega), List.find?_cons]
    by_cases h : p.id = id
    · rw [if_neg (fun hx => hx (by rw [show p.elem.data = p.bytes from rfl, hid]; exact h)), beq_iff_eq.mpr h, window_all _ _ (by omega)]
      exact congrArg Except.ok hinfo
    · rw [if_pos (by rw [show p.elem.data = p.bytes from rfl, hid]; exact h), beq_eq_false_iff_ne.mpr h]
      exact ih m (start + 1) hd' (fun x hx => hok x (List.mem_cons_of_mem _ hx)) (by omega) (fun hx => hpost (by omega))

/-- **C143** The configuration of a port is that of the first port of the RoT with the ID; for other IDs there is none. The RoT has at most as many ports as it says, and fewer only if another
part of the PCD or its end follows. -/
theorem port_exact (stack : Nat → UInt8) (r : Rot) (ps : List Port) (hps : ∀ p ∈ ps, p.ok) (pre post : List Elem) (hpre : ∀ e ∈ pre, e.ty ≠ 0x40) (hn : ps.length ≤ r.ports.toNat)
    (hpost : ps.length < r.ports.toNat → ∀ e ∈ post.head?, e.parent = 0xff) (id : UInt8) :
    getPort stack (pre ++ r.elem :: (ps.map Port.elem ++ post)) id = match ps.find? (fun p => p.id == id) with | some p => .ok (viewPort p) | none => .error .invalidPort := by
  obtain ⟨x, _, h⟩ := rotElement_exact stack r pre (ps.map Port.elem ++ post) hpre
  unfold getPort
  rw [h]
  dsimp only
  have hb : (r.bytes ++ x).getD 1 0 = r.ports := by
    show (r.bytes ++ x).getD 1 0 = _
    unfold Rot.bytes
    rfl
  rw [hb]
  by_cases h0 : r.ports.toNat = 0
  · rw [if_pos h0]
    have : ps = [] := List.length_eq_zero_iff.mp (by omega)
    rw [this]; rfl
  · rw [if_neg h0]
    refine portLoop_exact _ post id ps _ _ ?_ hps hn hpost
    rw [← List.drop_drop, List.drop_left]; rfl

/-! ### The power controller -/

/-- **C143** The connection to the power controller. -/
theorem power_exact (stack : Nat → UInt8) (i : I2c) (hi : i.ok) (fmt : UInt8) (pre post : List Elem) (hpre : ∀ e ∈ pre, e.ty ≠ 0x42) :
    power stack (pre ++ ⟨0x42, 0xff, fmt, i.bytes⟩ :: post) = .ok i := by
  unfold power
  rw [find_top [0x42] ⟨0x42, 0xff, fmt, i.bytes⟩ post (List.mem_singleton.mpr rfl) rfl pre 0 (fun e he h => hpre e he (List.mem_singleton.mp h))]
  dsimp only
  have hl : i.bytes.length = 4 := rfl
  rw [window_all _ _ (by omega), writeAt_zero _ _ (by rw [hl, local_length]; omega), List.drop_eq_nil_of_le (by rw [local_length, hl]; omega), List.append_nil, i2c_bytes i hi]

/-- **C143, negation** The length of the element is not checked: what is reported was on the stack. -/
theorem counterexample_power_stack : ∃ (e : Elem) (s s' : Nat → UInt8) (i i' : I2c), power s [e] = .ok i ∧ power s' [e] = .ok i' ∧ i.addr ≠ i'.addr :=
  ⟨⟨0x42, 0xff, 1, []⟩, (fun _ => 1), (fun _ => 2), ⟨1, 0, 1, 1, 1⟩, ⟨2, 0, 2, 2, 2⟩, rfl, rfl, by decide⟩

/-! ### The components -/

/-- The connection as it is reported. -/
def viewConn : Conn → Details
  | .direct i => .direct i
  | .bridge p _ => .bridge p
  | .tcgLog => .tcgLog

/-- A component as it is reported. -/
def view (c : Comp) : Info := ⟨c.id, c.count, c.allowed, viewConn c.conn⟩

theorem field_at (d p x r : Bytes) (off len : Nat) (h : d = p ++ (x ++ r)) (h1 : off = p.length) (h2 : len = x.length) : field d off len = .ok x := by
  unfold field
  rw [if_pos (by rw [h, List.length_append, List.length_append]; omega), h, window_at p x r off len h1 h2]

theorem common2_exact (alloc : Nat) (d p r : Bytes) (id : Nat) (hid : id < 2 ^ 32) (hp : p.length = 4) (h : d = p ++ (toLE 4 id ++ r)) :
    (common2 true alloc d).1 = .ok ⟨id, 1, [⟨id, 0, 0⟩], .tcgLog⟩ := by
  obtain ⟨h1, h2⟩ := allocate_mem alloc 1
  unfold common2
  dsimp only
  rw [if_neg (by rw [h1]; decide), if_neg (by omega), field_at d p (toLE 4 id) r 4 4 h hp.symm rfl]
  show Except.ok (⟨leNat (toLE 4 id), 1, [⟨leNat (toLE 4 id), 0, 0⟩], .tcgLog⟩ : Info) = _
  rw [le4 _ hid]

theorem common3_exact (alloc : Nat) (c : Comp) (hc : c.ok) (hv : c.v3 = true) : (common3 true alloc c.bytes).1 = .ok ⟨c.id, c.count, c.allowed, .tcgLog⟩ := by
  obtain ⟨hid, _, hk, hks, _⟩ := hc
  have hb : c.bytes = ([c.policy, c.powerReg, c.powerMask, c.count] ++ toLE 4 c.id ++ [UInt8.ofNat c.kinds.length, 0, 0, 0]) ++ (c.kinds.flatMap Kind.bytes ++ c.conn.bytes 0) := by
    unfold Comp.bytes; rw [if_pos hv, List.append_assoc]
  have hf : field c.bytes 0 12 = .ok ([c.policy, c.powerReg, c.powerMask, c.count] ++ toLE 4 c.id ++ [UInt8.ofNat c.kinds.length, 0, 0, 0]) :=
    field_at c.bytes [] _ _ 0 12 hb rfl rfl
  unfold common3
  rw [hf]
  dsimp only
  have hn : (([c.policy, c.powerReg, c.powerMask, c.count] ++ toLE 4 c.id ++ [UInt8.ofNat c.kinds.length, 0, 0, 0] : Bytes).getD 8 0).toNat = c.kinds.length := by
    show (UInt8.ofNat c.kinds.length).toNat = _
    exact u8nat _ hk
  rw [hn]
  have hw : leNat (window ([c.policy, c.powerReg, c.powerMask, c.count] ++ toLE 4 c.id ++ [UInt8.ofNat c.kinds.length, 0, 0, 0] : Bytes) 4 4) = c.id := by
    show leNat (toLE 4 c.id) = _
    exact le4 _ hid
  have hg : ([c.policy, c.powerReg, c.powerMask, c.count] ++ toLE 4 c.id ++ [UInt8.ofNat c.kinds.length, 0, 0, 0] : Bytes).getD 3 0 = c.count := rfl
  rw [hw, hg]
  obtain ⟨h1, h2⟩ := allocate_mem alloc (if c.kinds.length = 0 then 1 else c.kinds.length)
  rw [if_neg (by rw [h1]; decide)]
  unfold Comp.allowed
  by_cases h0 : c.kinds.length = 0
  · have : c.kinds = [] := List.length_eq_zero_iff.mp h0
    rw [if_pos h0, if_pos h0] at *
    rw [if_neg (by omega), if_pos this]
  · have : c.kinds ≠ [] := fun h => h0 (by rw [h]; rfl)
    rw [if_neg h0] at h2
    rw [if_neg h0, if_neg h0, if_neg this, kindLoop_exact _ c.bytes c.kinds _ _ 0 hb rfl (by omega) hks]
    rfl

theorem length3_comp (c : Comp) (hc : c.ok) (hv : c.v3 = true) :
    length3 c.bytes = 12 + 8 * c.kinds.length ∧ c.bytes.length = 12 + 8 * c.kinds.length + (c.conn.bytes 0).length ∧ ∀ r, field (c.bytes ++ r) (length3 c.bytes) (c.conn.bytes 0).length = .ok (c.conn.bytes 0) := by
  have hb : c.bytes = ([c.policy, c.powerReg, c.powerMask, c.count] ++ toLE 4 c.id ++ [UInt8.ofNat c.kinds.length, 0, 0, 0]) ++ (c.kinds.flatMap Kind.bytes ++ c.conn.bytes 0) := by
    unfold Comp.bytes; rw [if_pos hv, List.append_assoc]
  have h3 : length3 c.bytes = 12 + 8 * c.kinds.length := by
    unfold length3
    rw [hb]
    show 12 + 8 * (UInt8.ofNat c.kinds.length).toNat = _
    rw [u8nat _ hc.2.2.1]
  have hl : c.bytes.length = 12 + 8 * c.kinds.length + (c.conn.bytes 0).length := by
    rw [hb, List.length_append, List.length_append (as := c.kinds.flatMap Kind.bytes), kinds_length]
    show 12 + (8 * c.kinds.length + _) = _
    omega
  refine ⟨h3, hl, fun r => ?_⟩
  refine field_at _ (([c.policy, c.powerReg, c.powerMask, c.count] ++ toLE 4 c.id ++ [UInt8.ofNat c.kinds.length, 0, 0, 0]) ++ c.kinds.flatMap Kind.bytes) _ r _ _ ?_ ?_ rfl
  · rw [hb]; simp only [List.append_assoc]
  · rw [h3, List.length_append, kinds_length]; rfl

/-- Reading the element of a component. -/
def readElem (mem : Bool) (alloc : Nat) (e : Elem) : Except Err Info × Nat :=
  if e.ty = 0x43 then readDirect mem alloc e.fmt e.data else if e.ty = 0x44 then readBridge mem alloc e.fmt e.data else readTcg mem alloc e.fmt e.data

theorem readElem_exact (alloc : Nat) (c : Comp) (hc : c.ok) : (readElem true alloc c.elem).1 = .ok (view c) := by
  have h2 : ∀ (r : Bytes), c.v3 = false → c.bytes = [c.policy, c.powerReg, c.powerMask, 0] ++ (toLE 4 c.id ++ r) → (common2 true alloc c.bytes).1 = .ok ⟨c.id, 1, c.allowed, .tcgLog⟩ := by
    intro r hv hb
    have hk : c.kinds = [] := (hc.2.2.2.2 hv).1
    rw [common2_exact alloc c.bytes _ r c.id hc.1 rfl hb]
    unfold Comp.allowed
    rw [if_pos hk]
  have hb2 : c.v3 = false → c.bytes = [c.policy, c.powerReg, c.powerMask, 0] ++ (toLE 4 c.id ++ c.conn.bytes c.count) := by
    intro hv
    unfold Comp.bytes
    rw [if_neg (by rw [hv]; decide), List.append_assoc]
  have hcok := hc.2.1
  have hcnt : c.v3 = false → c.conn.ty ≠ 0x44 → c.count = 1 := fun hv => (hc.2.2.2.2 hv).2
  unfold readElem view
  show (if c.conn.ty = 0x43 then readDirect true alloc (if c.v3 then 3 else 2) c.bytes else if c.conn.ty = 0x44 then readBridge true alloc (if c.v3 then 3 else 2) c.bytes
    else readTcg true alloc (if c.v3 then 3 else 2) c.bytes).1 = _
  cases hv : c.v3 with
  | false =>
    have hb := hb2 hv
    have h2 := h2 _ hv hb
    have hl : c.bytes.length = 8 + (c.conn.bytes c.count).length := by rw [hb, List.length_append, List.length_append]; show 4 + (4 + _) = _; omega
    cases hcn : c.conn with
    | direct i =>
      rw [hcn] at hl hb hcok
      have hl : c.bytes.length = 12 := hl
      show (readDirect true alloc 2 c.bytes).1 = _
      rw [readDirect, if_pos (by decide), if_neg (by omega)]
      dsimp only
      rw [h2, field_at c.bytes ([c.policy, c.powerReg, c.powerMask, 0] ++ toLE 4 c.id) i.bytes [] 8 4 (by rw [hb, List.append_nil, List.append_assoc]; rfl) rfl rfl,
        hcnt hv (by rw [hcn]; exact (show (0x43 : UInt8) ≠ 0x44 by decide))]
      show Except.ok (⟨c.id, 1, c.allowed, .direct (i2c i.bytes)⟩ : Info) = _
      rw [i2c_bytes i hcok]; rfl
    | bridge p eid =>
      rw [hcn] at hl hb hcok
      have hl : c.bytes.length = 20 := hl
      show (readBridge true alloc 2 c.bytes).1 = _
      rw [readBridge, if_pos (by decide), if_neg (by omega)]
      dsimp only
      rw [h2, field_at c.bytes ([c.policy, c.powerReg, c.powerMask, 0] ++ toLE 4 c.id) _ [] 8 12 (by rw [hb, List.append_nil, List.append_assoc]) rfl rfl]
      show Except.ok (⟨c.id, c.count, c.allowed, .bridge (pci (toLE 2 p.device ++ toLE 2 p.vendor ++ toLE 2 p.subDevice ++ toLE 2 p.subVendor ++ [c.count, eid, 0, 0]))⟩ : Info) = _
      rw [pci_bytes p hcok]; rfl
    | tcgLog =>
      rw [hcn] at hl hb
      have hl : c.bytes.length = 8 := hl
      show (readTcg true alloc 2 c.bytes).1 = _
      rw [readTcg, if_pos (by decide), if_neg (by omega), h2,
        hcnt hv (by rw [hcn]; exact (show (0x45 : UInt8) ≠ 0x44 by decide))]
      rfl
  | true =>
    have h3 := common3_exact alloc c hc hv
    obtain ⟨hl3, hl, hf⟩ := length3_comp c hc hv
    have hf := hf []
    rw [List.append_nil] at hf
    cases hcn : c.conn with
    | direct i =>
      rw [hcn] at hl hf hcok
      have hl : c.bytes.length = 12 + 8 * c.kinds.length + 4 := hl
      have hf : field c.bytes (length3 c.bytes) 4 = .ok i.bytes := hf
      show (readDirect true alloc 3 c.bytes).1 = _
      rw [readDirect, if_neg (by decide), if_neg (by omega), if_neg (by omega)]
      dsimp only
      rw [h3, hf]
      show Except.ok (⟨c.id, c.count, c.allowed, .direct (i2c i.bytes)⟩ : Info) = _
      rw [i2c_bytes i hcok]; rfl
    | bridge p eid =>
      rw [hcn] at hl hf hcok
      have hl : c.bytes.length = 12 + 8 * c.kinds.length + 12 := hl
      have hf : field c.bytes (length3 c.bytes) 12 = .ok (toLE 2 p.device ++ toLE 2 p.vendor ++ toLE 2 p.subDevice ++ toLE 2 p.subVendor ++ [0, eid, 0, 0]) := hf
      show (readBridge true alloc 3 c.bytes).1 = _
      rw [readBridge, if_neg (by decide), if_neg (by omega), if_neg (by omega)]
      dsimp only
      rw [h3, hf]
      show Except.ok (⟨c.id, c.count, c.allowed, .bridge (pci (toLE 2 p.device ++ toLE 2 p.vendor ++ toLE 2 p.subDevice ++ toLE 2 p.subVendor ++ [0, eid, 0, 0]))⟩ : Info) = _
      rw [pci_bytes p hcok]; rfl
    | tcgLog =>
      rw [hcn] at hl
      have hl : c.bytes.length = 12 + 8 * c.kinds.length + 0 := hl
      show (readTcg true alloc 3 c.bytes).1 = _
      rw [readTcg, if_neg (by decide), if_neg (by omega), if_neg (by omega), h3]
      rfl

theorem isComp_iff (e : Elem) : isComp e = true ↔ e.ty ∈ ([0x43, 0x44, 0x45] : List UInt8) := by
  unfold isComp
  simp only [Bool.or_eq_true, beq_iff_eq, List.mem_cons, List.not_mem_nil, or_false, or_assoc]

theorem comp_isComp (c : Comp) : c.elem.ty ∈ ([0x43, 0x44, 0x45] : List UInt8) := by
  show c.conn.ty ∈ _
  cases c.conn
  · exact (by decide : (0x43 : UInt8) ∈ ([0x43, 0x44, 0x45] : List UInt8))
  · exact (by decide : (0x44 : UInt8) ∈ ([0x43, 0x44, 0x45] : List UInt8))
  · exact (by decide : (0x45 : UInt8) ∈ ([0x43, 0x44, 0x45] : List UInt8))

/-- The search for the next component. -/
theorem find_comp (es : List Elem) (start : Nat) (c : Comp) (cs : List Comp) (h : (es.drop start).filter isComp = c.elem :: cs.map Comp.elem) :
    ∃ i, start ≤ i ∧ find [0x43, 0x44, 0x45] 0xff (es.drop start) start = .ok (i, c.elem) ∧ (es.drop (i + 1)).filter isComp = cs.map Comp.elem := by
  obtain ⟨a, r, hd, ha, _, hr⟩ := List.filter_eq_cons_iff.mp h
  refine ⟨start + a.length, by omega, ?_, ?_⟩
  · rw [hd]
    exact find_top _ c.elem r (comp_isComp c) rfl a start (fun e he hx => ha e he ((isComp_iff e).mpr hx))
  · rw [show start + a.length + 1 = start + (a.length + 1) by omega, ← List.drop_drop, hd, ← List.drop_drop, List.drop_left]
    exact hr

theorem nextFrom_exact (first : Bool) (es : List Elem) (x : Ctx) (hx : x.live = true) (c : Comp) (hc : c.ok) (cs : List Comp) (h : (es.drop x.start).filter isComp = c.elem :: cs.map Comp.elem) :
    ∃ y, nextFrom first true es x = (.ok (view c), y) ∧ y.live = true ∧ (es.drop y.start).filter isComp = cs.map Comp.elem := by
  obtain ⟨i, _, hf, hr⟩ := find_comp es x.start c cs h
  refine ⟨⟨true, i + 1, (readElem true x.alloc c.elem).2⟩, ?_, rfl, hr⟩
  unfold nextFrom
  rw [if_neg (by rw [hx]; decide), hf]
  dsimp only
  rw [show (if c.elem.ty = 0x43 then readDirect true x.alloc c.elem.fmt c.elem.data else if c.elem.ty = 0x44 then readBridge true x.alloc c.elem.fmt c.elem.data
    else readTcg true x.alloc c.elem.fmt c.elem.data) = readElem true x.alloc c.elem from rfl, readElem_exact x.alloc c hc]

theorem nextFrom_end (first : Bool) (es : List Elem) (x : Ctx) (hx : x.live = true) (h : (es.drop x.start).filter isComp = []) : nextFrom first true es x = (.error .notFound, x) := by
  unfold nextFrom
  rw [if_neg (by rw [hx]; decide), find_none _ _ _ (fun e he hm => by
    have := List.filter_eq_nil_iff.mp h e he
    exact this ((isComp_iff e).mpr hm))]

theorem iterate_exact (es : List Elem) : ∀ (cs : List Comp) (n : Nat) (x : Ctx), (∀ c ∈ cs, c.ok) → x.live = true → (es.drop x.start).filter isComp = cs.map Comp.elem → cs.length < n →
    iterate es n false x = (cs.map view, some .notFound) := by
  intro cs
  induction cs with
  | nil =>
    intro n x _ hx h hn
    obtain ⟨m, rfl⟩ : ∃ m, n = m + 1 := ⟨n - 1, by simp only [List.length_nil] at hn; omega⟩
    rw [iterate, next, if_neg (by decide), nextFrom_end false es x hx h]
    rfl
  | cons c cs ih =>
    intro n x hok hx h hn
    obtain ⟨m, rfl⟩ : ∃ m, n = m + 1 := ⟨n - 1, by rw [List.length_cons] at hn; omega⟩
    rw [List.length_cons] at hn
    obtain ⟨y, h1, h2, h3⟩ := nextFrom_exact false es x hx c (hok c (List.mem_cons_self ..)) cs h
    rw [iterate, next, if_neg (by decide), h1]
    dsimp only
    rw [ih m y (fun z hz => hok z (List.mem_cons_of_mem _ hz)) h2 h3 (by omega)]
    rfl

/-- **C143** Asking for one component after another gives all components of the PCD in their order and as they are there, and then the end, whatever is between them. -/
theorem components_exact (es : List Elem) (cs : List Comp) (hcs : ∀ c ∈ cs, c.ok) (h : es.filter isComp = cs.map Comp.elem) (n : Nat) (hn : cs.length < n) (x : Ctx) :
    iterate es n true x = (cs.map view, some .notFound) := by
  obtain ⟨m, rfl⟩ : ∃ m, n = m + 1 := ⟨n - 1, by omega⟩
  cases cs with
  | nil =>
    rw [iterate, next, if_pos rfl, if_pos rfl, nextFrom_end true es ⟨true, 0, 0⟩ rfl h]
    rfl
  | cons c cs =>
    rw [List.length_cons] at hn
    obtain ⟨y, h1, h2, h3⟩ := nextFrom_exact true es ⟨true, 0, 0⟩ rfl c (hcs c (List.mem_cons_self ..)) cs h
    rw [iterate, next, if_pos rfl, if_pos rfl, h1]
    dsimp only
    rw [iterate_exact es cs m y (fun z hz => hcs z (List.mem_cons_of_mem _ hz)) h2 h3 (by omega)]
    rfl

/-! ### Components of any PCD -/

theorem common2_cases (mem : Bool) (alloc : Nat) (d : Bytes) (h : 8 ≤ d.length) :
    (common2 mem alloc d).1 = .error .noMemory ∨ ∃ v, (common2 mem alloc d).1 = .ok v ∧ v.id = leNat (window d 4 4) := by
  unfold common2
  dsimp only
  cases ha : (allocate mem alloc 1).1
  · exact .inl (if_pos rfl)
  · have := allocate_ok mem alloc 1 ha
    refine .inr ⟨⟨leNat (window d 4 4), 1, [⟨leNat (window d 4 4), 0, 0⟩], .tcgLog⟩, ?_, rfl⟩
    have hf : field d 4 4 = .ok (window d 4 4) := by unfold field; rw [if_pos (by omega)]
    rw [if_neg (by decide), if_neg (by omega), hf]
    rfl

theorem common3_cases (mem : Bool) (alloc : Nat) (d : Bytes) (h : 12 ≤ d.length) (h3 : length3 d ≤ d.length) :
    (common3 mem alloc d).1 = .error .noMemory ∨ ∃ v, (common3 mem alloc d).1 = .ok v ∧ v.id = leNat (window d 4 4) := by
  unfold common3
  have hf : field d 0 12 = .ok (window d 0 12) := by unfold field; rw [if_pos (by omega)]
  rw [hf]
  dsimp only
  have hg : (window d 0 12).getD 8 0 = d.getD 8 0 := by
    rw [List.getD_eq_getElem?_getD, List.getD_eq_getElem?_getD, ManifestFlash.getElem?_window, if_pos (by omega), Nat.zero_add]
  have hw : window (window d 0 12) 4 4 = window d 4 4 := by rw [ManifestFlash.window_window _ _ _ _ _ (by omega), Nat.zero_add]
  rw [hg, hw]
  unfold length3 at h3
  generalize (d.getD 8 0).toNat = n at *
  cases ha : (allocate mem alloc (if n = 0 then 1 else n)).1
  · exact .inl (if_pos rfl)
  · have hle := allocate_ok mem alloc _ ha
    rw [if_neg (by decide)]
    by_cases hn : n = 0
    · rw [if_pos hn] at hle ⊢
      rw [if_pos hn, if_neg (by omega)]
      exact .inr ⟨_, rfl, rfl⟩
    · rw [if_neg hn] at hle
      rw [if_neg hn, if_neg hn]
      obtain ⟨ks, hk⟩ := kindLoop_safe _ d n 0 (show 0 + n ≤ (allocate mem alloc n).2 by omega) (by omega)
      rw [hk]
      exact .inr ⟨_, rfl, rfl⟩

theorem bind_cases (x : Except Err Info) (f : Info → Except Err Info) (n : Nat) (hx : x = .error .noMemory ∨ ∃ v, x = .ok v ∧ v.id = n) (hf : ∀ v, ∃ w, f v = .ok w ∧ w.id = v.id) :
    (x >>= f) = .error .noMemory ∨ ∃ v, (x >>= f) = .ok v ∧ v.id = n := by
  rcases hx with rfl | ⟨v, rfl, hv⟩
  · exact .inl rfl
  · obtain ⟨w, hw, hi⟩ := hf v
    exact .inr ⟨w, hw, hi.trans hv⟩

/-- Reading any element: an error, or the ID that is in the element. -/
theorem readElem_cases (mem : Bool) (alloc : Nat) (e : Elem) :
    (readElem mem alloc e).1 = .error .malformed ∨ (readElem mem alloc e).1 = .error .noMemory ∨
    ∃ v, (readElem mem alloc e).1 = .ok v ∧ 8 ≤ e.data.length ∧ v.id = leNat (window e.data 4 4) := by
  have fin : ∀ (x : Except Err Info), 8 ≤ e.data.length → (x = .error .noMemory ∨ ∃ v, x = .ok v ∧ v.id = leNat (window e.data 4 4)) →
      x = .error .malformed ∨ x = .error .noMemory ∨ ∃ v, x = .ok v ∧ 8 ≤ e.data.length ∧ v.id = leNat (window e.data 4 4) := by
    intro x h8 h
    rcases h with h | ⟨v, h, hv⟩
    · exact .inr (.inl h)
    · exact .inr (.inr ⟨v, h, h8, hv⟩)
  have hfield : ∀ (off len : Nat) (g : Bytes → Info → Info), off + len ≤ e.data.length → (∀ b v, (g b v).id = v.id) →
      ∀ v : Info, ∃ w, (do let b ← field e.data off len; Except.ok (g b v) : Except Err Info) = .ok w ∧ w.id = v.id := by
    intro off len g ho hg v
    refine ⟨g (window e.data off len) v, ?_, hg _ _⟩
    unfold field
    rw [if_pos ho]
    rfl
  unfold readElem
  split
  · unfold readDirect
    split
    · split
      · exact .inl rfl
      · exact fin _ (by omega) (bind_cases _ _ _ (common2_cases mem alloc e.data (by omega)) (hfield 8 4 (fun b c => { c with details := .direct (i2c b) }) (by omega) (fun _ _ => rfl)))
    · split
      · exact .inl rfl
      · split
        · exact .inl rfl
        · exact fin _ (by omega) (bind_cases _ _ _ (common3_cases mem alloc e.data (by omega) (by omega))
            (hfield (length3 e.data) 4 (fun b c => { c with details := .direct (i2c b) }) (by omega) (fun _ _ => rfl)))
  · split
    · unfold readBridge
      split
      · split
        · exact .inl rfl
        · exact fin _ (by omega) (bind_cases _ _ _ (common2_cases mem alloc e.data (by omega))
            (hfield 8 12 (fun b c => { c with count := b.getD 8 0, details := .bridge (pci b) }) (by omega) (fun _ _ => rfl)))
      · split
        · exact .inl rfl
        · split
          · exact .inl rfl
          · exact fin _ (by omega) (bind_cases _ _ _ (common3_cases mem alloc e.data (by omega) (by omega))
              (hfield (length3 e.data) 12 (fun b c => { c with details := .bridge (pci b) }) (by omega) (fun _ _ => rfl)))
    · unfold readTcg
      split
      · split
        · exact .inl rfl
        · exact fin _ (by omega) (common2_cases mem alloc e.data (by omega))
      · split
        · exact .inl rfl
        · split
          · exact .inl rfl
          · exact fin _ (by omega) (common3_cases mem alloc e.data (by omega) (by omega))

theorem find_error (tys : List UInt8) (parent : UInt8) : ∀ (l : List Elem) (i : Nat) (x : Err), find tys parent l i = .error x → x = .notFound ∨ x = .childNotFound ∨ x = .wrongParent := by
  intro l
  induction l with
  | nil => intro i x h; rw [find] at h; cases h; split <;> simp
  | cons e l ih =>
    intro i x h
    rw [find] at h
    split at h
    · cases h; simp
    · split at h
      · split at h
        · cases h; simp
        · cases h
      · exact ih _ _ h

theorem nextFrom_eq (first mem : Bool) (es : List Elem) (c : Ctx) (hc : c.live = true) :
    nextFrom first mem es c = match find [0x43, 0x44, 0x45] 0xff (es.drop c.start) c.start with
      | .error e => (.error e, c)
      | .ok (i, e) => match (readElem mem c.alloc e).1 with
        | .ok v => (.ok v, ⟨true, i + 1, (readElem mem c.alloc e).2⟩)
        | .error x => (.error x, if first then ⟨false, 0, 0⟩ else ⟨true, i, (readElem mem c.alloc e).2⟩) := by
  unfold nextFrom
  rw [if_neg (by rw [hc]; decide)]
  rfl

theorem nextFrom_safe (first mem : Bool) (es : List Elem) (c : Ctx) (hc : c.live = true) : (nextFrom first mem es c).1 ≠ .error .oob ∧ (nextFrom first mem es c).1 ≠ .error .null := by
  rw [nextFrom_eq first mem es c hc]
  cases hf : find [0x43, 0x44, 0x45] 0xff (es.drop c.start) c.start with
  | error x =>
    rcases find_error _ _ _ _ _ hf with rfl | rfl | rfl <;> exact ⟨(fun h => by cases h), (fun h => by cases h)⟩
  | ok p =>
    obtain ⟨i, e⟩ := p
    dsimp only
    rcases readElem_cases mem c.alloc e with h | h | ⟨v, h, _⟩ <;> rw [h] <;> exact ⟨(fun h => by cases h), (fun h => by cases h)⟩

/-- **C143** Whatever is in the elements, and whether there is memory or not, nothing outside of the element and of the list of types is accessed, as long as the container has a context or the
call is for the first component. -/
theorem next_safe (first ctxMem mem : Bool) (es : List Elem) (c : Ctx) (h : first = false → c.live = true) :
    (next first ctxMem mem es c).1 ≠ .error .oob ∧ (next first ctxMem mem es c).1 ≠ .error .null := by
  unfold next
  cases first with
  | true =>
    rw [if_pos rfl]
    split
    · exact nextFrom_safe true mem es _ rfl
    · exact ⟨(fun h => by cases h), (fun h => by cases h)⟩
  | false =>
    rw [if_neg (by decide)]
    exact nextFrom_safe false mem es c (h rfl)

/-- **C143** For any PCD: a component that is reported is the next element of a component behind the one before; its ID is the one in the element, and the search goes on behind it. -/
theorem next_sound (mem : Bool) (es : List Elem) (c c' : Ctx) (ctxMem : Bool) (v : Info) (h : next false ctxMem mem es c = (.ok v, c')) :
    c'.live = true ∧ c.start < c'.start ∧ ∃ e, es[c'.start - 1]? = some e ∧ isComp e ∧ e.parent = 0xff ∧ 8 ≤ e.data.length ∧ v.id = leNat (window e.data 4 4) ∧
      ∀ j, c.start ≤ j → j < c'.start - 1 → ∀ y, es[j]? = some y → isComp y = false := by
  unfold next at h
  rw [if_neg (by decide)] at h
  have hl : c.live = true := by
    cases hl : c.live
    · unfold nextFrom at h; rw [if_pos hl] at h; cases h
    · rfl
  rw [nextFrom_eq false mem es c hl] at h
  cases hf : find [0x43, 0x44, 0x45] 0xff (es.drop c.start) c.start with
  | error x => rw [hf] at h; cases h
  | ok p =>
    obtain ⟨i, e⟩ := p
    rw [hf] at h
    dsimp only at h
    obtain ⟨h1, h2, h3, h4, h5⟩ := find_sound _ _ _ _ _ _ hf
    rcases readElem_cases mem c.alloc e with hr | hr | ⟨w, hr, h8, hw⟩
    · rw [hr] at h; cases h
    · rw [hr] at h; cases h
    · rw [hr] at h
      cases h
      refine ⟨rfl, show c.start < i + 1 by omega, e, ?_, (isComp_iff e).mpr h3, h4.elim id id, h8, hw, ?_⟩
      · show es[i + 1 - 1]? = some e
        rw [List.getElem?_drop] at h2
        rw [← h2]; congr 1; omega
      · intro j hj1 hj2 y hy
        have hj2 : j < i + 1 - 1 := hj2
        have := h5 (j - c.start) (by omega) y (by rw [List.getElem?_drop, ← hy]; congr 1; omega)
        cases hq : isComp y
        · rfl
        · exact absurd ((isComp_iff y).mp hq) this

theorem kindLoop_congr (a b : Nat) (d : Bytes) : ∀ (n i : Nat), i + n ≤ a → i + n ≤ b → kindLoop a d n i = kindLoop b d n i := by
  intro n
  induction n with
  | zero => intro i _ _; rfl
  | succ n ih =>
    intro i h1 h2
    rw [kindLoop, kindLoop, if_neg (by omega), if_neg (by omega), ih (i + 1) (by omega) (by omega)]

theorem common2_alloc (a b : Nat) (d : Bytes) : (common2 true a d).1 = (common2 true b d).1 := by
  obtain ⟨h1, h2⟩ := allocate_mem a 1
  obtain ⟨h3, h4⟩ := allocate_mem b 1
  unfold common2
  dsimp only
  rw [if_neg (by rw [h1]; decide), if_neg (by omega), if_neg (by rw [h3]; decide), if_neg (by omega)]

theorem common3_alloc (a b : Nat) (d : Bytes) : (common3 true a d).1 = (common3 true b d).1 := by
  unfold common3
  cases field d 0 12 with
  | error e => rfl
  | ok h =>
    dsimp only
    generalize (h.getD 8 0).toNat = n
    obtain ⟨h1, h2⟩ := allocate_mem a (if n = 0 then 1 else n)
    obtain ⟨h3, h4⟩ := allocate_mem b (if n = 0 then 1 else n)
    by_cases hn : n = 0
    · simp only [if_pos hn] at *
      rw [if_neg (by rw [h1]; decide), if_neg (by omega), if_neg (by rw [h3]; decide), if_neg (by omega)]
    · simp only [if_neg hn] at *
      rw [if_neg (by rw [h1]; decide), if_neg (by rw [h3]; decide), kindLoop_congr _ (allocate true b n).2 d n 0 (by omega) (by omega)]

theorem readElem_alloc (a b : Nat) (e : Elem) : (readElem true a e).1 = (readElem true b e).1 := by
  unfold readElem
  split
  · unfold readDirect
    split
    · split
      · rfl
      · dsimp only; rw [common2_alloc a b]
    · split
      · rfl
      · split
        · rfl
        · dsimp only; rw [common3_alloc a b]
  · split
    · unfold readBridge
      split
      · split
        · rfl
        · dsimp only; rw [common2_alloc a b]
      · split
        · rfl
        · split
          · rfl
          · dsimp only; rw [common3_alloc a b]
    · unfold readTcg
      split
      · split
        · rfl
        · exact common2_alloc a b _
      · split
        · rfl
        · split
          · rfl
          · exact common3_alloc a b _

/-- **C143** If there is no memory for a component, it is not lost: the next call, with memory, gives what this one would have given. -/
theorem next_retry (m m' : Bool) (es : List Elem) (c : Ctx) (h : (next false m false es c).1 = .error .noMemory) :
    (next false m' true es (next false m false es c).2).1 = (next false m' true es c).1 := by
  unfold next at *
  rw [if_neg (by decide)] at *
  rw [if_neg (by decide)]
  have hl : c.live = true := by
    cases hl : c.live
    · unfold nextFrom at h; rw [if_pos hl] at h; cases h
    · rfl
  rw [nextFrom_eq false false es c hl] at h ⊢
  rw [nextFrom_eq false true es c hl]
  cases hf : find [0x43, 0x44, 0x45] 0xff (es.drop c.start) c.start with
  | error x =>
    rw [hf] at h
    rcases find_error _ _ _ _ _ hf with rfl | rfl | rfl <;> cases h
  | ok p =>
    obtain ⟨i, e⟩ := p
    rw [hf] at h
    dsimp only at h ⊢
    cases hr : (readElem false c.alloc e).1 with
    | ok v => rw [hr] at h; cases h
    | error x =>
      dsimp only
      rw [if_neg (by decide), nextFrom_eq false true es _ rfl]
      dsimp only
      obtain ⟨h1, h2, h3, h4, _⟩ := find_sound _ _ _ _ _ _ hf
      have hd : es.drop i = e :: es.drop (i + 1) := by
        rw [List.getElem?_drop, show c.start + (i - c.start) = i by omega] at h2
        obtain ⟨hlt, hv⟩ := List.getElem?_eq_some_iff.mp h2
        rw [List.drop_eq_getElem_cons hlt, hv]
      have hf' : find [0x43, 0x44, 0x45] 0xff (es.drop i) i = .ok (i, e) := by
        rw [hd, find, if_neg (fun h => h.1 rfl), if_pos h3, if_neg (fun h => h.1 (h4.elim id id))]
      rw [hf']
      dsimp only
      rw [readElem_alloc _ c.alloc e]
      cases (readElem true c.alloc e).1 <;> rfl

/-- **C143** Part of "there is nothing to be freed if the first call fails": if the component that is found cannot be used. The rest is `counterexample_first_leak`. -/
theorem first_failure_frees_partial (ctxMem mem : Bool) (es : List Elem) (c : Ctx) (x : Err) (h : (next true ctxMem mem es c).1 = .error x) (h1 : x ≠ .notFound) (h2 : x ≠ .wrongParent) :
    (next true ctxMem mem es c).2.live = false := by
  unfold next at *
  rw [if_pos rfl] at *
  split at h
  · rw [if_pos ‹_›]
    rw [nextFrom_eq true mem es _ rfl] at *
    cases hf : find [0x43, 0x44, 0x45] 0xff (es.drop (⟨true, 0, 0⟩ : Ctx).start) (⟨true, 0, 0⟩ : Ctx).start with
    | error y =>
      rw [hf] at h
      cases h
      rcases find_error _ _ _ _ _ hf with rfl | rfl | rfl
      · exact absurd rfl h1
      · exact absurd hf (by
          intro hf
          have : ∀ (l : List Elem) (i : Nat), find [0x43, 0x44, 0x45] 0xff l i ≠ .error .childNotFound := by
            intro l
            induction l with
            | nil => intro i h; cases h
            | cons e l ih =>
              intro i h
              rw [find, if_neg (fun h => h.1 rfl)] at h
              split at h
              · split at h <;> cases h
              · exact ih _ h
          exact this _ _ hf)
      · exact absurd rfl h2
    | ok p =>
      obtain ⟨i, e⟩ := p
      rw [hf] at h
      dsimp only at h ⊢
      cases hr : (readElem mem 0 e).1 with
      | ok v => rw [hr] at h; cases h
      | error y => rfl
  · rw [if_neg ‹_›]

/-- **C143, negation** The first call for a PCD without components fails, but the container keeps a context that has to be freed, against what pcd.h says about a failed first call. -/
theorem counterexample_first_leak : ∃ (es : List Elem) (x : Err), (next true true true es ⟨false, 0, 0⟩).1 = .error x ∧ (next true true true es ⟨false, 0, 0⟩).2.live = true :=
  ⟨[], .notFound, rfl, rfl⟩

/-! ### The list of the components -/

theorem supportedEntry_direct (fmt : UInt8) (n : Nat) (b : Bytes) (h : 12 ≤ n) : supportedEntry 0x43 fmt n b = .ok (window b 4 4 ++ [1]) := by
  unfold supportedEntry
  rw [if_pos rfl, if_neg (by omega)]

theorem supportedEntry_tcg (fmt : UInt8) (n : Nat) (b : Bytes) (h : 8 ≤ n) : supportedEntry 0x45 fmt n b = .ok (window b 4 4 ++ [1]) := by
  unfold supportedEntry
  rw [if_neg (by decide), if_pos rfl, if_neg (by omega)]

theorem supportedEntry_bridge (n : Nat) (b : Bytes) (h : 20 ≤ n) : supportedEntry 0x44 3 n b = .ok (window b 4 4 ++ [b.getD 3 0]) := by
  unfold supportedEntry
  rw [if_neg (by decide), if_neg (by decide), if_neg (by omega), if_neg (by decide)]

theorem supportedEntry_exact (c : Comp) (hc : c.ok) (h1 : c.conn.ty ≠ 0x44 → c.count = 1) (buf : Bytes) (hb : buf.length = 20) :
    supportedEntry c.elem.ty c.elem.fmt (min c.elem.data.length 20) (writeAt buf 0 (window c.elem.data 0 20)) = .ok c.entry := by
  rw [writeAt_zero _ _ (by rw [window_length]; omega)]
  generalize buf.drop _ = y
  obtain ⟨v3, po, pr, pm, cnt, id, ks, conn⟩ := c
  cases v3 with
  | false =>
    cases conn with
    | direct i =>
      have h1 : cnt = 1 := h1 (show (0x43 : UInt8) ≠ 0x44 by decide)
      rw [h1]; rfl
    | bridge p eid => rfl
    | tcgLog =>
      have h1 : cnt = 1 := h1 (show (0x45 : UInt8) ≠ 0x44 by decide)
      rw [h1]; rfl
  | true =>
    have hl := (length3_comp _ hc rfl).2.1
    cases conn with
    | direct i =>
      have hl : (Comp.elem ⟨true, po, pr, pm, cnt, id, ks, .direct i⟩).data.length = 12 + 8 * ks.length + 4 := hl
      refine (supportedEntry_direct _ _ _ (by omega)).trans ?_
      have h1 : cnt = 1 := h1 (show (0x43 : UInt8) ≠ 0x44 by decide)
      rw [h1]; rfl
    | bridge p eid =>
      have hl : (Comp.elem ⟨true, po, pr, pm, cnt, id, ks, .bridge p eid⟩).data.length = 12 + 8 * ks.length + 12 := hl
      exact (supportedEntry_bridge _ _ (by omega)).trans rfl
    | tcgLog =>
      have hl : (Comp.elem ⟨true, po, pr, pm, cnt, id, ks, .tcgLog⟩).data.length = 12 + 8 * ks.length + 0 := hl
      refine (supportedEntry_tcg _ _ _ (by omega)).trans ?_
      have h1 : cnt = 1 := h1 (show (0x45 : UInt8) ≠ 0x44 by decide)
      rw [h1]; rfl

theorem supportedLoop_exact (es : List Elem) : ∀ (cs rest : List Comp) (start : Nat) (buf : Bytes) (c : BufferUtil.Cursor), (∀ c ∈ cs, c.ok ∧ (c.conn.ty ≠ 0x44 → c.count = 1)) → buf.length = 20 →
    (es.drop start).filter isComp = (cs ++ rest).map Comp.elem → supportedLoop es cs.length start buf c = .ok (c.out ++ window (cs.flatMap Comp.entry) c.offset c.destLength) := by
  intro cs
  induction cs with
  | nil => intro rest start buf c _ _ _; rw [List.flatMap_nil, window_nil, List.append_nil]; rfl
  | cons x cs ih =>
    intro rest start buf c hok hb h
    rw [List.length_cons, supportedLoop]
    by_cases h0 : c.destLength = 0
    · rw [if_pos h0, h0, window_zero_len, List.append_nil]
    · obtain ⟨i, _, hf, hr⟩ := find_comp es start x (cs ++ rest) h
      obtain ⟨hx, hx1⟩ := hok x (List.mem_cons_self ..)
      rw [if_neg h0, hf]
      dsimp only
      rw [supportedEntry_exact x hx hx1 buf hb]
      dsimp only
      have hbc := BufferUtil.bufferCopy_spec x.entry c
      dsimp only at hbc
      obtain ⟨hb1, hb2, hb3, _⟩ := hbc
      rw [ih rest (i + 1) _ _ (fun y hy => hok y (List.mem_cons_of_mem _ hy)) (by rw [writeAt_length]; exact hb) hr, hb1, hb2, hb3, List.flatMap_cons, window_append, List.append_assoc]

/-- **C143** The list of the components is the requested part of the IDs and numbers of devices of the first components, as many as the RoT says. Only for components that have more than one
device only behind a bridge: see `counterexample_list_count`. -/
theorem supported_exact_partial (stack : Nat → UInt8) (r : Rot) (ht : ∀ t, r.times = some t → t.ok) (pre post : List Elem) (hpre : ∀ e ∈ pre, e.ty ≠ 0x40) (cs rest : List Comp)
    (hcs : ∀ c ∈ cs, c.ok ∧ (c.conn.ty ≠ 0x44 → c.count = 1)) (h : (pre ++ r.elem :: post).filter isComp = (cs ++ rest).map Comp.elem) (hn : r.components.toNat = cs.length)
    (offset length : Nat) :
    supported stack (pre ++ r.elem :: post) offset length = .ok (window (cs.flatMap Comp.entry) offset length) := by
  unfold supported
  rw [rot_exact stack r ht pre post hpre]
  dsimp only
  rw [hn, supportedLoop_exact _ cs rest 0 _ _ hcs (local_length _ _) h, List.nil_append]

/-- **C143, negation** A component without bridge can have several devices in the new format. The list says that there is one, reading the component that there are two. -/
theorem counterexample_list_count : ∃ (r : Rot) (c : Comp), c.ok ∧ c.count = 2 ∧ r.components = 1 ∧ (∀ s, supported s [r.elem, c.elem] 0 5 = .ok (toLE 4 c.id ++ [1])) ∧
    (iterate [r.elem, c.elem] 2 true ⟨false, 0, 0⟩).1.map Info.count = [2] :=
  ⟨⟨false, 0, 1, 0x41, 0x0b, 0x10, 0x0a, none⟩, ⟨true, 0, 0, 0, 2, 7, [], .direct ⟨0, 1, 2, 0x30, 0x0c⟩⟩, ⟨by decide, ⟨by decide, by decide⟩, by decide, (by simp), (by intro h; cases h)⟩, rfl, rfl,
    (fun s => rfl), rfl⟩

/-! ### The hypotheses can be met -/

def exRot : Rot := ⟨true, 2, 3, 0x41, 0x0b, 0x10, 0x0a, some ⟨1000, 2000, 3000, 4000, 5000, 6000, 70000, 9⟩⟩
def exPort (i : UInt8) : Port := ⟨i, 1, 2, true, false, true, 1, 5, 50000000⟩
def exPower : I2c := ⟨3, 1, 4, 0x50, 0⟩
def exDirect : Comp := ⟨false, 1, 2, 3, 1, 0x01020304, [], .direct ⟨1, 1, 7, 0x30, 0x0c⟩⟩
def exBridge : Comp := ⟨true, 1, 2, 3, 4, 500, [⟨10, 1, 2⟩, ⟨70000, 0, 3⟩], .bridge ⟨0x1234, 0x5678, 1, 2⟩ 0x0d⟩
def exTcg : Comp := ⟨true, 0, 0, 0, 1, 9, [], .tcgLog⟩

/-- A PCD with a platform ID, a RoT with two ports, a power controller and three components. -/
def exPcd : List Elem :=
  ⟨0x00, 0xff, 1, [1, 0, 0, 0, 65]⟩ :: exRot.elem :: ([exPort 0, exPort 1].map Port.elem ++ [⟨0x42, 0xff, 1, exPower.bytes⟩, exDirect.elem, exBridge.elem, exTcg.elem])

theorem ex_comps : ∀ c ∈ [exDirect, exBridge, exTcg], c.ok ∧ (c.conn.ty ≠ 0x44 → c.count = 1) := by
  intro c hc
  simp only [List.mem_cons, List.not_mem_nil, or_false] at hc
  rcases hc with rfl | rfl | rfl
  · exact ⟨⟨by decide, ⟨by decide, by decide⟩, by decide, (by simp [exDirect]), (fun _ => ⟨rfl, fun _ => rfl⟩)⟩, fun _ => rfl⟩
  · exact ⟨⟨by decide, ⟨by decide, by decide, by decide, by decide⟩, by decide, (by simp [exBridge]), (fun h => by cases h)⟩, fun h => absurd rfl h⟩
  · exact ⟨⟨by decide, trivial, by decide, (by simp [exTcg]), (fun h => by cases h)⟩, fun _ => rfl⟩

theorem ex_times : ∀ t, exRot.times = some t → t.ok := by
  intro t h
  cases h
  exact ⟨by decide, by decide, by decide, by decide, by decide, by decide, by decide⟩

example (stack : Nat → UInt8) : rotInfo stack exPcd = .ok ⟨false, 2, 3, 0x41, 0x0b, 0x10, 0x0a, ⟨1000, 2000, 3000, 4000, 5000, 6000, 70000, 9⟩⟩ :=
  rot_exact stack exRot ex_times [⟨0x00, 0xff, 1, [1, 0, 0, 0, 65]⟩] _ (by simp)

example (stack : Nat → UInt8) : getPort stack exPcd 1 = .ok ⟨50000000, 2, 1, 1, 0, 1, 1, 5⟩ ∧ getPort stack exPcd 7 = .error .invalidPort := by
  have h := fun id => port_exact stack exRot [exPort 0, exPort 1] (by intro p hp; simp only [List.mem_cons, List.not_mem_nil, or_false] at hp; rcases hp with rfl | rfl <;> exact ⟨by decide, by decide, by decide⟩)
    [⟨0x00, 0xff, 1, [1, 0, 0, 0, 65]⟩] [⟨0x42, 0xff, 1, exPower.bytes⟩, exDirect.elem, exBridge.elem, exTcg.elem] (by simp) (by decide) (fun h => absurd h (by decide)) id
  exact ⟨h 1, h 7⟩

example (stack : Nat → UInt8) : power stack exPcd = .ok exPower :=
  power_exact stack exPower ⟨by decide, by decide⟩ 1 (⟨0x00, 0xff, 1, [1, 0, 0, 0, 65]⟩ :: exRot.elem :: [exPort 0, exPort 1].map Port.elem) [exDirect.elem, exBridge.elem, exTcg.elem]
    (by intro e he; simp only [List.map_cons, List.map_nil, List.mem_cons, List.not_mem_nil, or_false] at he; rcases he with rfl | rfl | rfl | rfl <;> (intro h; revert h; decide))

example (stack : Nat → UInt8) : supported stack exPcd 5 7 = .ok [0xf4, 1, 0, 0, 4, 9, 0] :=
  supported_exact_partial stack exRot ex_times [⟨0x00, 0xff, 1, [1, 0, 0, 0, 65]⟩] _ (by simp) [exDirect, exBridge, exTcg] [] ex_comps rfl rfl 5 7

example : iterate exPcd 4 true ⟨false, 0, 0⟩ = ([exDirect, exBridge, exTcg].map view, some .notFound) :=
  components_exact exPcd [exDirect, exBridge, exTcg] (fun c hc => (ex_comps c hc).1) rfl 4 (by decide) _

/-- The components have the allowed types of the PCD. -/
example : (view exBridge).kinds = [⟨10, 1, 2⟩, ⟨70000, 0, 3⟩] ∧ (view exTcg).kinds = [⟨9, 0, 0⟩] := ⟨rfl, rfl⟩

/-- No memory for the types of the second component, and then enough. -/
example : (next false true false exPcd ⟨true, 6, 1⟩).1 = .error .noMemory ∧ (next false true true exPcd (next false true false exPcd ⟨true, 6, 1⟩).2).1 = .ok (view exBridge) := ⟨rfl, rfl⟩

/-- An element that is too short for its number of types. -/
example : next true true true [⟨0x45, 0xff, 3, [0, 0, 0, 1, 9, 0, 0, 0, 2, 0, 0, 0, 1, 0, 0, 0, 0, 0, 0, 0]⟩] ⟨false, 0, 0⟩ = (.error .malformed, ⟨false, 0, 0⟩) := rfl

end Verif.PcdFlash
