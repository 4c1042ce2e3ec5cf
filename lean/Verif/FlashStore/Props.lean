import Verif.FlashStore.Lemmas
import Verif.Flash.Live
/-! C29: the flash block store. -/
namespace Verif.FlashStore
open Flash (Dev FS Mem bytesAt u32 Touched u32_id)

/-! ### Writing -/

theorem writeCommon_spec (dv : Dev) (st : Store) (extra : Nat) (hst : st.OK dv.sector extra) (s : FS) (id : Nat) (hid : id < st.blocks)
    (d x : Bytes) (hd : 0 < d.length) (hfit : d.length ≤ st.maxSize) (hx : x.length ≤ extra) :
    (∀ i, ¬ st.InBlock id i → (writeCommon dv st s id d x).2.mem i = s.mem i) ∧
    ((writeCommon dv st s id d x).1 = .ok () →
      bytesAt (writeCommon dv st s id d x).2.mem (st.start id) (image st d x).length = image st d x) := by
  obtain ⟨a1, a2, a3⟩ := OK.start_facts hst hid
  obtain ⟨w1, w2, _⟩ := writes_parts st _ _ hst d x hd
  obtain ⟨e1, e2⟩ := Flash.eraseRegion_spec dv dv.sector hst.sectorPos s (st.start id) st.blockSize (by omega)
  have hroom : (image st d x).length ≤ st.blockSize := by
    rw [image_length]
    have h1 := st.headerLen_le
    have h2 := hst.room
    generalize (if st.varLen = true then 4 else 0) = k at *
    omega
  have fr0 : ∀ i, ¬ st.InBlock id i → ¬ Touched dv.sector (st.start id) st.blockSize i := fun i hi => by
    rw [touched_aligned hst.sectorPos a3 hst.sizeAligned]
    exact hi
  unfold writeCommon
  rw [a1]
  cases he : Flash.eraseRegion dv dv.sector s (st.start id) st.blockSize with
  | mk es s1 =>
    rw [he] at e1 e2
    cases es
    case ok =>
      obtain ⟨r1, r2⟩ := runWrites_spec dv (image st d x) (st.start id) (by omega) (writes st d x) s1 w1
      have fr : ∀ i, ¬ st.InBlock id i → (runWrites dv s1 (st.start id) (writes st d x)).2.mem i = s.mem i := fun i hi => by
        rw [r1 i (fun e hm => by
          have := (w1 e hm).1
          unfold Store.InBlock at hi
          omega)]
        exact e1 i (fr0 i hi)
      simp only
      cases hr : runWrites dv s1 (st.start id) (writes st d x) with
      | mk rs s2 =>
        rw [hr] at r2 fr
        cases rs
        case ok =>
          refine ⟨fr, fun _ => ?_⟩
          apply Flash.bytesAt_eq_self
          intro i hi
          exact r2 rfl i (w2 i hi)
        all_goals exact ⟨fr, fun h => by cases h⟩
    all_goals exact ⟨fun i hi => e1 i (fr0 i hi), fun h => by cases h⟩

/-! ### Reading -/

theorem readCommon_mem (dv : Dev) (st : Store) (s : FS) (id n align extra : Nat) : (readCommon dv st s id n align extra).2.mem = s.mem := by
  have hl : ∀ s a, (locate dv st s a n).2.mem = s.mem := by
    intro s a
    unfold locate
    split
    · unfold readHeader
      have := Flash.read_mem dv s a 4
      cases hr : Flash.read dv s a 4 with
      | mk o s1 =>
        rw [hr] at this
        cases o with
        | none => exact this
        | some b =>
          simp only
          cases parseHeader st.maxSize b with
          | error e => exact this
          | ok r => simp only; split <;> exact this
    · rfl
  unfold readCommon
  split
  · rfl
  · split
    · rfl
    · have h1 := hl s (st.addr id)
      cases hloc : locate dv st s (st.addr id) n with
      | mk o s1 =>
        rw [hloc] at h1
        cases o with
        | error e => exact h1
        | ok r =>
          obtain ⟨a, len⟩ := r
          simp only at h1 ⊢
          split
          · exact h1
          · have h2 := Flash.read_mem dv s1 a len
            cases hr : Flash.read dv s1 a len with
            | mk o2 s2 =>
              rw [hr] at h2
              cases o2 with
              | none => simp only at h2 ⊢; rw [h2, h1]
              | some d =>
                simp only at h2 ⊢
                split
                · simp only; rw [h2, h1]
                · have h3 := Flash.read_mem dv s2 (u32 (a + len)) extra
                  cases hr3 : Flash.read dv s2 (u32 (a + len)) extra with
                  | mk o3 s3 =>
                    rw [hr3] at h3
                    cases o3 <;> simp only at h3 ⊢ <;> rw [h3, h2, h1]

/-- The driver reports an error for some call. -/
def DriverFails (dv : Dev) : Prop := ∃ n j, dv.out n = .err j

theorem read_cases (dv : Dev) (s : FS) (a n : Nat) :
    (∃ s', Flash.read dv s a n = (some (bytesAt s.mem a n), s') ∧ s'.mem = s.mem) ∨
    ((∃ s', Flash.read dv s a n = (none, s')) ∧ DriverFails dv) := by
  unfold Flash.read
  split
  · rename_i j h; exact .inr ⟨⟨_, rfl⟩, _, j, h⟩
  · exact .inl ⟨_, rfl, rfl⟩

theorem parse_image (st : Store) (sector extra : Nat) (hst : st.OK sector extra) (d x : Bytes) (hv : st.varLen = true)
    (hfit : d.length ≤ st.maxSize) (hna : NotAmbiguous st d.length) (b : Bytes)
    (hb : ∀ i, i < st.headerLen → b.getD i 0 = (st.header d.length).getD i 0) (hbl : b.length = 4) :
    parseHeader st.maxSize b = .ok (st.headerLen, d.length) := by
  have hmax := hst.max hv
  obtain ⟨b0, b1, b2, b3, rfl⟩ : ∃ b0 b1 b2 b3, b = [b0, b1, b2, b3] := by
    match b, hbl with
    | [b0, b1, b2, b3], _ => exact ⟨b0, b1, b2, b3, rfl⟩
  unfold parseHeader
  cases ho : st.oldHeader
  · have hl : st.headerLen = 4 := by unfold Store.headerLen; simp [hv, ho]
    have hh : st.header d.length = [4, 0xa5, UInt8.ofNat d.length, UInt8.ofNat (d.length / 256)] := by
      unfold Store.header; simp [ho, toLE]
    rw [hl, hh] at hb
    have e0 := hb 0 (by omega)
    have e1 := hb 1 (by omega)
    have e2 := hb 2 (by omega)
    have e3 := hb 3 (by omega)
    simp [List.getD] at e0 e1 e2 e3
    subst e0 e1 e2 e3
    have hle : leNat [UInt8.ofNat d.length, UInt8.ofNat (d.length / 256)] = d.length := by
      have := leNat_toLE 2 d.length
      simp only [toLE] at this
      rw [this, Nat.mod_eq_of_lt (by omega)]
    simp only [List.drop_succ_cons, List.drop_zero, List.take_succ_cons, List.take_zero, List.getD_cons_succ, List.getD_cons_zero]
    rw [hle, hl, if_neg (by simp), if_neg (by simp; omega)]
    rfl
  · have hl : st.headerLen = 2 := by unfold Store.headerLen; simp [hv, ho]
    have hh : st.header d.length = [UInt8.ofNat d.length, UInt8.ofNat (d.length / 256)] := by
      unfold Store.header; simp [ho, toLE]
    rw [hl, hh] at hb
    have e0 := hb 0 (by omega)
    have e1 := hb 1 (by omega)
    simp [List.getD] at e0 e1
    subst e0 e1
    have hle : leNat [UInt8.ofNat d.length, UInt8.ofNat (d.length / 256)] = d.length := by
      have := leNat_toLE 2 d.length
      simp only [toLE] at this
      rw [this, Nat.mod_eq_of_lt (by omega)]
    have hm : UInt8.ofNat (d.length / 256) ≠ 0xa5 := by
      intro h
      have h2 := congrArg UInt8.toNat h
      simp at h2
      exact hna hv ho (by omega)
    have ht : leNat (List.take 2 [UInt8.ofNat d.length, UInt8.ofNat (d.length / 256), b2, b3]) = d.length := hle
    rw [if_pos (by exact hm), ht, hl, if_neg (by omega)]

theorem bytesAt_image {st : Store} {m : Mem} {a : Nat} {d x : Bytes} (h : bytesAt m a (image st d x).length = image st d x) :
    (∀ i, i < st.headerLen → st.varLen = true → m (a + i) = (st.header d.length).getD i 0) ∧
    bytesAt m (a + st.headerLen) d.length = d ∧ bytesAt m (a + st.headerLen + d.length) x.length = x := by
  have key : ∀ i, i < (image st d x).length → m (a + i) = (image st d x).getD i 0 := fun i hi => by
    have := congrArg (fun l => l.getD i 0) h
    simpa only [Flash.bytesAt_getD _ _ _ _ _ hi] using this
  have hl := image_length st d x
  refine ⟨fun i hi hv => ?_, ?_, ?_⟩
  · rw [key i (by omega), image_getD_header st d x hv hi]
  · apply Flash.bytesAt_eq_self
    intro i hi
    rw [Nat.add_assoc, key _ (by omega), image_getD_data st d x hi]
  · apply Flash.bytesAt_eq_self
    intro i hi
    rw [show a + st.headerLen + d.length + i = a + (st.headerLen + d.length + i) by omega, key _ (by omega), image_getD_extra]

theorem readCommon_spec (dv : Dev) (st : Store) (extra : Nat) (hst : st.OK dv.sector extra) (s : FS) (id : Nat) (hid : id < st.blocks)
    (d x : Bytes) (n align : Nat) (hfit : d.length ≤ st.maxSize) (hfix : st.varLen = false → d.length = st.maxSize) (hx : x.length ≤ extra)
    (hna : NotAmbiguous st d.length) (hn : d.length ≤ n) (hal : align ≠ 0 → d.length % align = 0)
    (h : bytesAt s.mem (st.start id) (image st d x).length = image st d x) :
    (readCommon dv st s id n align x.length).1 = .ok (d, x) ∨
    ((readCommon dv st s id n align x.length).1 = .error .flash ∧ DriverFails dv) := by
  obtain ⟨a1, a2, _⟩ := OK.start_facts hst hid
  obtain ⟨i1, i2, i3⟩ := bytesAt_image h
  have hroom : st.headerLen + d.length + x.length ≤ st.blockSize := by
    have h1 := st.headerLen_le
    have h2 := hst.room
    generalize (if st.varLen = true then 4 else 0) = k at *
    omega
  have hloc : (∃ s', locate dv st s (st.start id) n = (.ok (st.start id + st.headerLen, d.length), s') ∧ s'.mem = s.mem) ∨
      ((∃ s', locate dv st s (st.start id) n = (.error .flash, s')) ∧ DriverFails dv) := by
    unfold locate
    cases hv : st.varLen
    · left
      simp only [Bool.false_eq_true, if_false]
      rw [st.headerLen_fixed hv, ← hfix hv]
      exact ⟨s, rfl, rfl⟩
    · simp only [if_true]
      unfold readHeader
      rcases read_cases dv s (st.start id) 4 with ⟨s1, hr, hm⟩ | ⟨⟨s1, hr⟩, hf⟩
      · left
        rw [hr]
        simp only
        rw [parse_image st dv.sector extra hst d x hv hfit hna (bytesAt s.mem (st.start id) 4) (fun i hi => by
          have := (st.headerLen_pos hv).2
          rw [Flash.bytesAt_getD _ _ _ _ _ (by omega), i1 i hi hv]) (by simp)]
        simp only
        rw [if_neg (by omega), u32_id (by omega)]
        exact ⟨s1, rfl, hm⟩
      · right
        rw [hr]
        exact ⟨⟨s1, rfl⟩, hf⟩
  unfold readCommon
  rw [if_neg (by omega), if_neg (by
    rintro ⟨h1, h2⟩
    have := hfix (by simpa using h1)
    omega), a1]
  rcases hloc with ⟨s1, hl, hm1⟩ | ⟨⟨s1, hl⟩, hf⟩
  · rw [hl]
    simp only
    rw [if_neg (by
      rintro ⟨h1, h2⟩
      exact h2 (hal h1))]
    rcases read_cases dv s1 (st.start id + st.headerLen) d.length with ⟨s2, hr, hm2⟩ | ⟨⟨s2, hr⟩, hf⟩
    · rw [hr, hm1, i2]
      simp only
      split
      · rename_i hx0
        left
        have : x = [] := List.length_eq_zero_iff.mp hx0
        rw [this]
      · rw [u32_id (by omega)]
        rcases read_cases dv s2 (st.start id + st.headerLen + d.length) x.length with ⟨s3, hr3, hm3⟩ | ⟨⟨s3, hr3⟩, hf⟩
        · left; rw [hr3, hm2, hm1, i3]
        · right; rw [hr3]; exact ⟨rfl, hf⟩
    · right; rw [hr]; exact ⟨rfl, hf⟩
  · right; rw [hl]; exact ⟨rfl, hf⟩

/-! ### Other blocks -/

theorem writeSealed_frame (pack : Bytes → Option (Bytes × Bytes)) (dv : Dev) (st : Store) (extra : Nat) (hst : st.OK dv.sector extra)
    (hp : Fits st extra pack)
    (s : FS) (id : Nat) (d : Bytes) : ∀ i, (id < st.blocks → ¬ st.InBlock id i) → (writeSealed pack dv st s id d).2.mem i = s.mem i := by
  intro i hi
  unfold writeSealed
  cases hc : checkParams st id d.length with
  | some e => rfl
  | none =>
    simp only
    cases hpk : pack d with
    | none => rfl
    | some r =>
      obtain ⟨b, x⟩ := r
      have hck : d.length ≠ 0 ∧ id < st.blocks ∧ d.length ≤ st.maxSize - st.overhead := by
        unfold checkParams at hc
        split at hc
        · cases hc
        · split at hc
          · cases hc
          · split at hc
            · cases hc
            · split at hc
              · cases hc
              · omega
      obtain ⟨p1, p2, p3⟩ := hp d b x (by omega) hck.2.2 hpk
      exact (writeCommon_spec dv st extra hst s id hck.2.1 b x p1 p2 p3).1 i (hi hck.2.1)

/-- C29: no operation changes a byte outside the block it is for, whatever it returns. -/
theorem other_blocks_unaffected (dv : Dev) (st : Store) (extra : Nat) (hst : st.OK dv.sector extra)
    (s : FS) (op : Op) (hp : op.Fits st extra) : ∀ i, (op.id < st.blocks → ¬ st.InBlock op.id i) → (step dv st s op).mem i = s.mem i := by
  cases op with
  | write id d pack => exact writeSealed_frame pack dv st extra hst hp s id d
  | erase id =>
    intro i hi
    show (erase dv st s id).2.mem i = s.mem i
    unfold erase
    split
    · rfl
    · rename_i hid
      have hid' : id < st.blocks := by omega
      obtain ⟨a1, a2, a3⟩ := OK.start_facts hst hid'
      rw [a1]
      have := (Flash.erase_exact dv dv.sector hst.sectorPos s (st.start id) st.blockSize (by omega)).1 i (by
        rw [touched_aligned hst.sectorPos a3 hst.sizeAligned]
        exact hi hid')
      split <;> rename_i h <;> rw [h] at this <;> exact this

theorem others_frame (dv : Dev) (st : Store) (extra : Nat) (hst : st.OK dv.sector extra)
    (id : Nat) (hid : id < st.blocks) (ops : List Op) : ∀ (s : FS), Others st extra id ops → ∀ i, st.InBlock id i →
    (ops.foldl (step dv st) s).mem i = s.mem i := by
  induction ops with
  | nil => intro s _ i _; rfl
  | cons o ops ih =>
    intro s hne i hi
    rw [List.foldl_cons, ih _ (fun o' ho => hne o' (List.mem_cons_of_mem _ ho)) i hi]
    exact other_blocks_unaffected dv st extra hst s o (hne o (by simp)).2 i (fun ho =>
      OK.blocks_disjoint hst hid ho (fun h => (hne o (by simp)).1 h.symm) hi)

/-- C29: whatever is packed into a successful write of a block is read back, after any operations on other blocks. -/
theorem stored_until_changed (pack : Bytes → Option (Bytes × Bytes)) (dv : Dev) (st : Store) (extra : Nat) (hst : st.OK dv.sector extra)
    (hp : Fits st extra pack)
    (s : FS) (id : Nat) (d b x : Bytes) (hpk : pack d = some (b, x)) (hw : (writeSealed pack dv st s id d).1 = .ok ())
    (hfix : st.varLen = false → d.length = st.maxSize - st.overhead → b.length = st.maxSize) (hna : NotAmbiguous st b.length)
    (ops : List Op) (hops : Others st extra id ops) (n align : Nat) (hn : b.length ≤ n) (hal : align ≠ 0 → b.length % align = 0) :
    let s' := ops.foldl (step dv st) (writeSealed pack dv st s id d).2
    (readCommon dv st s' id n align x.length).1 = .ok (b, x) ∨
    ((readCommon dv st s' id n align x.length).1 = .error .flash ∧ DriverFails dv) := by
  intro s'
  have hck : checkParams st id d.length = none ∧ d.length ≠ 0 ∧ id < st.blocks ∧ d.length ≤ st.maxSize - st.overhead ∧
      (st.varLen = false → d.length = st.maxSize - st.overhead) := by
    cases hc : checkParams st id d.length with
    | some e => unfold writeSealed at hw; rw [hc] at hw; cases hw
    | none =>
      unfold checkParams at hc
      split at hc
      · cases hc
      · split at hc
        · cases hc
        · split at hc
          · cases hc
          · rename_i hf
            split at hc
            · cases hc
            · refine ⟨rfl, by omega, by omega, by omega, fun hv => ?_⟩
              apply Classical.byContradiction
              intro hcon
              exact hf ⟨by simp [hv], hcon⟩
  obtain ⟨c0, c1, c2, c3, c4⟩ := hck
  obtain ⟨p1, p2, p3⟩ := hp d b x (by omega) c3 hpk
  have e : writeSealed pack dv st s id d = writeCommon dv st s id b x := by
    unfold writeSealed; rw [c0, hpk]
  rw [e] at hw
  have himg := (writeCommon_spec dv st extra hst s id c2 b x p1 p2 p3).2 hw
  have hroom : (image st b x).length ≤ st.blockSize := by
    rw [image_length]
    have h1 := st.headerLen_le
    have h2 := hst.room
    generalize (if st.varLen = true then 4 else 0) = k at *
    omega
  refine readCommon_spec dv st extra hst s' id c2 b x n align p2 (fun hv => hfix hv (c4 hv)) p3 hna hn hal ?_
  rw [Flash.bytesAt_congr (m' := (writeCommon dv st s id b x).2.mem) (a' := st.start id) (fun i hi => ?_)]
  · exact himg
  · have := others_frame dv st extra hst id c2 ops (writeSealed pack dv st s id d).2 hops (st.start id + i)
      ⟨by omega, by omega⟩
    rw [e] at this
    rw [← this]
    show (List.foldl (step dv st) (writeSealed pack dv st s id d).2 ops).mem _ = _
    rw [e]

/-! ### The variants -/

/-- C29: a store without integrity check returns the data, after any operations on other blocks. -/
theorem plain_roundtrip (dv : Dev) (st : Store) (hst : st.OK dv.sector 0) (hov : st.overhead = 0) (s : FS) (id : Nat) (d : Bytes)
    (hna : NotAmbiguous st d.length) (hw : (writeNoHash dv st s id d).1 = .ok ()) (ops : List Op) (hops : Others st 0 id ops) (n : Nat)
    (hn : d.length ≤ n) :
    let s' := ops.foldl (step dv st) (writeNoHash dv st s id d).2
    (readNoHash dv st s' id n).1 = .ok d ∨ ((readNoHash dv st s' id n).1 = .error .flash ∧ DriverFails dv) := by
  intro s'
  have := stored_until_changed (fun d => some (d, [])) dv st 0 hst (fun d b x h1 h2 h => by
    cases h; exact ⟨h1, by omega, by simp⟩) s id d d [] rfl hw (fun _ h => by omega) hna ops hops n 0 hn (fun h => (h rfl).elim)
  simp only [List.length_nil] at this
  unfold readNoHash
  change (readCommon dv st s' id n 0 0).1 = _ ∨ ((readCommon dv st s' id n 0 0).1 = _ ∧ _) at this
  cases hr : readCommon dv st s' id n 0 0 with
  | mk r s2 =>
    rw [hr] at this
    rcases this with h | ⟨h, hf⟩ <;> (simp only at h; subst h)
    · exact .inl rfl
    · exact .inr ⟨rfl, hf⟩

/-- C29: a store with SHA-256 returns the data. -/
theorem hash_roundtrip (sha : Bytes → Option Bytes) (hsha : ∀ d h, sha d = some h → h.length = 32) (dv : Dev) (st : Store)
    (hst : st.OK dv.sector 32) (hov : st.overhead = 0) (s : FS) (id : Nat) (d : Bytes) (hna : NotAmbiguous st d.length)
    (hw : (writeHash sha dv st s id d).1 = .ok ()) (ops : List Op) (hops : Others st 32 id ops) (n : Nat) (hn : d.length ≤ n) :
    let s' := ops.foldl (step dv st) (writeHash sha dv st s id d).2
    (readHash sha dv st s' id n).1 = .ok d ∨ ((readHash sha dv st s' id n).1 = .error .flash ∧ DriverFails dv) := by
  intro s'
  obtain ⟨h, hh⟩ : ∃ h, sha d = some h := by
    cases hs : sha d with
    | some h => exact ⟨h, rfl⟩
    | none =>
      unfold writeHash writeSealed at hw
      split at hw
      · cases hw
      · simp only [hs, Option.map_none] at hw; cases hw
  have hlen := hsha d h hh
  have := stored_until_changed (fun d => (sha d).map (fun h => (d, h))) dv st 32 hst (fun d b x h1 h2 hp => by
    simp only [Option.map_eq_some_iff, Prod.mk.injEq] at hp
    obtain ⟨y, hy, rfl, rfl⟩ := hp
    exact ⟨h1, by omega, by rw [hsha _ _ hy]; omega⟩) s id d d h (by simp [hh]) hw (fun _ h => by omega) hna ops hops n 0 hn
    (fun h => (h rfl).elim)
  unfold readHash
  change (readCommon dv st s' id n 0 h.length).1 = _ ∨ ((readCommon dv st s' id n 0 h.length).1 = _ ∧ _) at this
  rw [hlen] at this
  cases hr : readCommon dv st s' id n 0 32 with
  | mk r s2 =>
    rw [hr] at this
    rcases this with e | ⟨e, hf⟩ <;> (simp only at e; subst e)
    · left; simp only [hh]; rw [if_neg (by simp)]
    · exact .inr ⟨rfl, hf⟩

/-- C29: an encrypting store returns the data, for every cipher whose decryption inverts its encryption. -/
theorem encrypted_roundtrip (rng : Option Bytes) (enc : Bytes → Bytes → Option (Bytes × Bytes)) (dec : (iv c tag : Bytes) → Opened)
    (hiv : ∀ iv, rng = some iv → iv.length = 12) (henc : ∀ iv d c tag, enc iv d = some (c, tag) → c.length = d.length ∧ tag.length = 16)
    (hdec : ∀ iv d c tag, enc iv d = some (c, tag) → dec iv c tag = .ok d)
    (dv : Dev) (st : Store) (hst : st.OK dv.sector 28) (hov : st.overhead = 0) (s : FS) (id : Nat) (d : Bytes) (hna : NotAmbiguous st d.length)
    (hw : (writeEncrypted rng enc dv st s id d).1 = .ok ()) (ops : List Op) (hops : Others st 28 id ops) (n : Nat) (hn : d.length ≤ n) :
    let s' := ops.foldl (step dv st) (writeEncrypted rng enc dv st s id d).2
    (readEncrypted dec dv st s' id n).1 = .ok d ∨ ((readEncrypted dec dv st s' id n).1 = .error .flash ∧ DriverFails dv) := by
  intro s'
  obtain ⟨pack, hwe, hpk⟩ : ∃ pack : Pack, writeEncrypted rng enc dv st s id d = writeSealed pack dv st s id d ∧
      pack = (packEncrypted rng enc) := ⟨_, rfl, rfl⟩
  rw [hwe] at hw
  have hinv : ∀ d b x, pack d = some (b, x) → ∃ iv tag, rng = some iv ∧ enc iv d = some (b, tag) ∧ x = iv ++ tag := by
    intro d b x h
    rw [hpk] at h
    unfold packEncrypted at h
    cases hr : rng with
    | none => rw [hr] at h; cases h
    | some iv =>
      rw [hr] at h
      simp only at h
      cases he : enc iv d with
      | none => rw [he] at h; cases h
      | some r =>
        obtain ⟨c, tag⟩ := r
        rw [he] at h
        simp only [Option.some.injEq, Prod.mk.injEq] at h
        exact ⟨iv, tag, rfl, by rw [← h.1]; exact he, h.2.symm⟩
  obtain ⟨b, x, hbx⟩ : ∃ b x, pack d = some (b, x) := by
    cases hp : pack d with
    | some r => exact ⟨r.1, r.2, rfl⟩
    | none =>
      unfold writeSealed at hw
      rw [hp] at hw
      split at hw <;> cases hw
  obtain ⟨iv, tag, e1, e2, e3⟩ := hinv d b x hbx
  obtain ⟨l1, l2⟩ := henc _ _ _ _ e2
  have l3 := hiv _ e1
  have hx : x.length = 28 := by rw [e3]; simp; omega
  have := stored_until_changed pack dv st 28 hst (fun d b x h1 h2 hp => by
    obtain ⟨iv, tag, f1, f2, f3⟩ := hinv d b x hp
    obtain ⟨g1, g2⟩ := henc _ _ _ _ f2
    have g3 := hiv _ f1
    exact ⟨by omega, by omega, by rw [f3]; simp; omega⟩) s id d b x hbx hw (fun _ h => by omega) (by rw [l1]; exact hna) ops hops n 0
    (by omega) (fun h => (h rfl).elim)
  unfold readEncrypted
  rw [← hwe, hx] at this
  change (readCommon dv st s' id n 0 28).1 = _ ∨ ((readCommon dv st s' id n 0 28).1 = _ ∧ _) at this
  cases hr : readCommon dv st s' id n 0 28 with
  | mk r s2 =>
    rw [hr] at this
    rcases this with e | ⟨e, hf⟩ <;> (simp only at e; subst e)
    · left
      simp only
      have t1 : x.take 12 = iv := by rw [e3, ← l3]; simp
      have t2 : x.drop 12 = tag := by rw [e3, ← l3]; simp
      rw [t1, t2, hdec _ _ _ _ e2]
    · exact .inr ⟨rfl, hf⟩

/-- Length of the wrapped form of `n` bytes, `AES_KEY_WRAP_INTERFACE_WRAPPED_LENGTH`. -/
def wrappedLen (n : Nat) : Nat := (n + 7) / 8 * 8 + 8

/-- C29: a key wrapping store returns the data. -/
theorem wrapped_roundtrip (wrap : Bytes → Option Bytes) (unwrap : Bytes → Nat → Opened)
    (hwrap : ∀ d c, wrap d = some c → c.length = wrappedLen d.length) (hun : ∀ d c n, wrap d = some c → c.length ≤ n → unwrap c n = .ok d)
    (dv : Dev) (st : Store) (hst : st.OK dv.sector 0) (hov : wrappedLen (st.maxSize - st.overhead) ≤ st.maxSize)
    (hfix : st.varLen = false → wrappedLen (st.maxSize - st.overhead) = st.maxSize) (s : FS) (id : Nat) (d : Bytes)
    (hna : NotAmbiguous st (wrappedLen d.length)) (hw : (writeWrapped wrap dv st s id d).1 = .ok ()) (ops : List Op)
    (hops : Others st 0 id ops) (n : Nat) (hn : wrappedLen d.length ≤ n) :
    let s' := ops.foldl (step dv st) (writeWrapped wrap dv st s id d).2
    (readWrapped unwrap dv st s' id n).1 = .ok d ∨ ((readWrapped unwrap dv st s' id n).1 = .error .flash ∧ DriverFails dv) := by
  intro s'
  obtain ⟨c, hc⟩ : ∃ c, wrap d = some c := by
    cases hs : wrap d with
    | some h => exact ⟨h, rfl⟩
    | none =>
      unfold writeWrapped writeSealed at hw
      split at hw
      · cases hw
      · simp only [hs, Option.map_none] at hw; cases hw
  have hlen := hwrap d c hc
  have := stored_until_changed (fun d => (wrap d).map (fun c => (c, []))) dv st 0 hst (fun d b x h1 h2 hp => by
    simp only [Option.map_eq_some_iff, Prod.mk.injEq] at hp
    obtain ⟨y, hy, rfl, rfl⟩ := hp
    have := hwrap _ _ hy
    unfold wrappedLen at this hov
    exact ⟨by omega, by omega, by simp⟩) s id d c [] (by simp [hc]) hw (fun hv h => by rw [hlen, h]; exact hfix hv)
    (by rw [hlen]; exact hna) ops hops n 8 (by omega) (fun _ => by rw [hlen]; unfold wrappedLen; omega)
  unfold readWrapped
  change (readCommon dv st s' id n 8 0).1 = _ ∨ ((readCommon dv st s' id n 8 0).1 = _ ∧ _) at this
  cases hr : readCommon dv st s' id n 8 0 with
  | mk r s2 =>
    rw [hr] at this
    rcases this with e | ⟨e, hf⟩ <;> (simp only at e; subst e)
    · left; simp only; rw [hun d c n hc (by omega)]
    · exact .inr ⟨rfl, hf⟩

/-- C29: whatever the flash contains, data returned by a store with SHA-256 is followed in flash by its own digest. -/
theorem hash_checked (sha : Bytes → Option Bytes) (dv : Dev) (st : Store) (s : FS) (id n : Nat) (d : Bytes)
    (h : (readHash sha dv st s id n).1 = .ok d) :
    ∃ a, d = bytesAt s.mem a d.length ∧ sha d = some (bytesAt s.mem (u32 (a + d.length)) 32) := by
  unfold readHash readCommon at h
  by_cases c1 : id ≥ st.blocks
  · rw [if_pos c1] at h; cases h
  rw [if_neg c1] at h
  by_cases c2 : !st.varLen ∧ n < st.maxSize
  · rw [if_pos c2] at h; cases h
  rw [if_neg c2] at h
  have hlm : (locate dv st s (st.addr id) n).2.mem = s.mem := by
    unfold locate
    split
    · unfold readHeader
      have := Flash.read_mem dv s (st.addr id) 4
      cases hr : Flash.read dv s (st.addr id) 4 with
      | mk o s1 =>
        rw [hr] at this
        cases o with
        | none => exact this
        | some b =>
          simp only
          cases parseHeader st.maxSize b with
          | error e => exact this
          | ok r => simp only; split <;> exact this
    · rfl
  cases hl : locate dv st s (st.addr id) n with
  | mk o s1 =>
    rw [hl] at h hlm
    cases o with
    | error e => cases h
    | ok r =>
      obtain ⟨a, len⟩ := r
      simp only [ne_eq, not_true, false_and, if_false] at h hlm
      cases hr : Flash.read dv s1 a len with
      | mk o2 s2 =>
        rw [hr] at h
        cases o2 with
        | none => cases h
        | some b =>
          obtain ⟨hb, hm2⟩ := Flash.read_some hr
          simp only [if_neg (show ¬ (32 : Nat) = 0 by decide)] at h
          cases hr3 : Flash.read dv s2 (u32 (a + len)) 32 with
          | mk o3 s3 =>
            rw [hr3] at h
            cases o3 with
            | none => cases h
            | some x =>
              obtain ⟨hx, _⟩ := Flash.read_some hr3
              simp only at h
              cases hs : sha b with
              | none => rw [hs] at h; cases h
              | some y =>
                rw [hs] at h
                simp only at h
                split at h
                · cases h
                · rename_i hne
                  simp only [Except.ok.injEq] at h
                  subst h
                  refine ⟨a, ?_, ?_⟩
                  · rw [hb, hlm]; simp
                  · rw [hs, Classical.not_not.mp hne, hx, hm2, hlm, hb]; simp

/-- C29: what is read always fits in the buffer of the caller, whatever the flash contains. -/
theorem read_fits (dv : Dev) (st : Store) (s : FS) (id n align extra : Nat) (d x : Bytes)
    (h : (readCommon dv st s id n align extra).1 = .ok (d, x)) : d.length ≤ n ∧ x.length = extra ∧ id < st.blocks := by
  unfold readCommon at h
  by_cases c1 : id ≥ st.blocks
  · rw [if_pos c1] at h; cases h
  rw [if_neg c1] at h
  by_cases c2 : !st.varLen ∧ n < st.maxSize
  · rw [if_pos c2] at h; cases h
  rw [if_neg c2] at h
  have hl : ∀ a len s1, locate dv st s (st.addr id) n = (.ok (a, len), s1) → len ≤ n := by
    intro a len s1 hl
    unfold locate at hl
    split at hl
    · cases hr : readHeader dv st s (st.addr id) with
      | mk r s2 =>
        rw [hr] at hl
        cases r with
        | error e => cases hl
        | ok q =>
          simp only at hl
          split at hl
          · cases hl
          · cases hl; omega
    · rename_i hv
      cases hl
      simp only [hv, Bool.not_false, true_and] at c2
      omega
  cases hx : locate dv st s (st.addr id) n with
  | mk o s1 =>
    rw [hx] at h
    cases o with
    | error e => cases h
    | ok r =>
      obtain ⟨a, len⟩ := r
      have hlen := hl a len s1 hx
      simp only at h
      split at h
      · cases h
      · cases hr : Flash.read dv s1 a len with
        | mk o2 s2 =>
          rw [hr] at h
          cases o2 with
          | none => cases h
          | some b =>
            obtain ⟨hb, _⟩ := Flash.read_some hr
            simp only at h
            split at h
            · rename_i he
              cases h
              rw [hb]
              exact ⟨by simp; exact hlen, by simp [he], by omega⟩
            · cases hr3 : Flash.read dv s2 (u32 (a + len)) extra with
              | mk o3 s3 =>
                rw [hr3] at h
                cases o3 with
                | none => cases h
                | some y =>
                  obtain ⟨hy, _⟩ := Flash.read_some hr3
                  cases h
                  rw [hb, hy]
                  exact ⟨by simp; exact hlen, by simp, by omega⟩

/-! ### Empty blocks -/

theorem dataLength_blank (dv : Dev) (st : Store) (sector extra : Nat) (hst : st.OK sector extra) (hv : st.varLen = true)
    (hmax : st.maxSize < 65535) (s : FS) (id : Nat) (hid : id < st.blocks) (h : ∀ i, i < 2 → s.mem (st.start id + i) = 0xff) :
    (hasData dv st s id).1 = .ok false ∨ ((hasData dv st s id).1 = .error .flash ∧ DriverFails dv) := by
  obtain ⟨a1, _, _⟩ := OK.start_facts hst hid
  unfold hasData dataLength
  rw [if_neg (by omega), if_pos hv, a1]
  unfold readHeader
  rcases read_cases dv s (st.start id) 4 with ⟨s1, hr, _⟩ | ⟨⟨s1, hr⟩, hf⟩
  · left
    rw [hr]
    have e : bytesAt s.mem (st.start id) 4 = [0xff, 0xff, s.mem (st.start id + 2), s.mem (st.start id + 3)] := by
      have h0 := h 0 (by omega)
      have h1 := h 1 (by omega)
      simp only [bytesAt, List.range, List.range.loop, List.map_cons, List.map_nil, h0, h1]
    simp only
    rw [e]
    have : parseHeader st.maxSize [0xff, 0xff, s.mem (st.start id + 2), s.mem (st.start id + 3)] = .error .noData := by
      unfold parseHeader
      rw [if_pos (by simp)]
      have : leNat (List.take 2 [0xff, 0xff, s.mem (st.start id + 2), s.mem (st.start id + 3)]) = 65535 := by
        simp [leNat]
      rw [this, if_pos (by omega)]
    rw [this]
  · right
    rw [hr]
    exact ⟨rfl, hf⟩

/-- C29: an erased block of a variable length store is reported as empty. -/
theorem erased_is_empty (dv : Dev) (st : Store) (extra : Nat) (hst : st.OK dv.sector extra) (hv : st.varLen = true)
    (hmax : st.maxSize < 65535) (s : FS) (id : Nat) (h : (erase dv st s id).1 = .ok ()) :
    (hasData dv st (erase dv st s id).2 id).1 = .ok false ∨
    ((hasData dv st (erase dv st s id).2 id).1 = .error .flash ∧ DriverFails dv) := by
  unfold erase at h ⊢
  split at h
  · cases h
  · rename_i hid
    have hid' : id < st.blocks := by omega
    obtain ⟨a1, a2, a3⟩ := OK.start_facts hst hid'
    have hr := hst.room
    rw [if_pos hv] at hr
    rw [if_neg hid]
    rw [a1] at h ⊢
    have he := (Flash.erase_exact dv dv.sector hst.sectorPos s (st.start id) st.blockSize (by omega)).2
    cases hx : Flash.eraseVerify dv dv.sector s (st.start id) st.blockSize with
    | mk es s1 =>
      rw [hx] at h he
      cases es
      case ok => exact dataLength_blank dv st _ _ hst hv hmax s1 id hid' (fun i hi => he rfl _ (.of_mem (by omega) (by omega)))
      all_goals cases h

/-- C29: when a write to a variable length store is cut short after the erase, at any of its flash writes but the last, and whatever the
interrupted write left, the block is reported as empty, not with partial data. -/
theorem interrupted_write_is_empty (dv : Dev) (st : Store) (extra : Nat) (hst : st.OK dv.sector extra) (hv : st.varLen = true)
    (hmax : st.maxSize < 65535) (s s1 : FS) (id : Nat) (hid : id < st.blocks) (d x : Bytes) (hd : 0 < d.length) (hfit : d.length ≤ st.maxSize)
    (hx : x.length ≤ extra) (he : Flash.eraseRegion dv dv.sector s (st.start id) st.blockSize = (.ok, s1)) (k : Nat)
    (hk : k < (writes st d x).length) :
    let s2 := (runWrites dv s1 (st.start id) ((writes st d x).take k)).2
    (hasData dv st s2 id).1 = .ok false ∨ ((hasData dv st s2 id).1 = .error .flash ∧ DriverFails dv) := by
  intro s2
  obtain ⟨a1, a2, a3⟩ := OK.start_facts hst hid
  obtain ⟨w1, w2, w3⟩ := writes_parts st _ _ hst d x hd
  obtain ⟨pre, b, hpre, hoff⟩ := w3 hv
  have hhl := (st.headerLen_pos hv).1
  have hroom : (image st d x).length ≤ st.blockSize := by
    rw [image_length]
    have h1 := st.headerLen_le
    have h2 := hst.room
    generalize (if st.varLen = true then 4 else 0) = k at *
    omega
  have hbs : 2 ≤ st.blockSize := by rw [image_length] at hroom; omega
  have hsub : ∀ e ∈ (writes st d x).take k, e ∈ pre := by
    intro e hm
    rw [hpre] at hm hk
    simp only [List.length_append, List.length_cons, List.length_nil] at hk
    rw [List.take_append_of_le_length (by omega)] at hm
    exact List.mem_of_mem_take hm
  obtain ⟨r1, _⟩ := runWrites_spec dv (image st d x) (st.start id) (by omega) ((writes st d x).take k) s1
    (fun e hm => w1 e (List.mem_of_mem_take hm))
  have hb := (Flash.eraseRegion_spec dv dv.sector hst.sectorPos s (st.start id) st.blockSize (by omega)).2
  rw [he] at hb
  refine dataLength_blank dv st _ _ hst hv hmax s2 id hid (fun i hi => ?_)
  show (runWrites dv s1 (st.start id) ((writes st d x).take k)).2.mem _ = _
  rw [r1 _ (fun e hm => by have := hoff e (hsub e hm); omega)]
  exact hb rfl _ (.of_mem (by omega) (by omega))

/-! ### Pages -/

/-- Two writes share a page. -/
def SharePage (P : Nat) (e f : Nat × Bytes) : Prop := ∃ i j, Covers e i ∧ Covers f j ∧ i / P = j / P

theorem not_share_of_boundary {P q : Nat} {e f : Nat × Bytes} (hP : 0 < P) (he : e.1 + e.2.length ≤ P * q) (hf : P * q ≤ f.1) :
    ¬ SharePage P e f ∧ ¬ SharePage P f e := by
  have key : ∀ i j, Covers e i → Covers f j → i / P ≠ j / P := by
    rintro i j ⟨_, h1⟩ ⟨h2, _⟩ h
    have x1 : i / P < q := by rw [Nat.div_lt_iff_lt_mul hP, Nat.mul_comm]; omega
    have x2 : q ≤ j / P := by rw [Nat.le_div_iff_mul_le hP, Nat.mul_comm]; omega
    omega
  exact ⟨fun ⟨i, j, a, b, c⟩ => key i j a b c, fun ⟨i, j, a, b, c⟩ => key j i b a c.symm⟩

/-- C29: on a device that does not allow partial page writes (page buffer in use) no page is written twice by one store operation. -/
theorem each_page_once (st : Store) (P : Nat) (hp : st.page = some P) (hP : 4 < P) (d x : Bytes) (hd : 0 < d.length) :
    (writes st d x).Pairwise (fun e f => ¬ SharePage P e f) := by
  have hP0 : 0 < P := by omega
  unfold writes
  rw [hp]
  simp only
  by_cases hone : st.varLen = true ∧ d.length + st.headerLen < P
  · obtain ⟨hv, hs⟩ := hone
    rw [paged_one st P d x hP hv hd hs]
    have hl := st.header_length hv d.length
    split
    · rename_i hw
      have hw' : min (P - (d.length + st.headerLen)) x.length = P - (d.length + st.headerLen) := by omega
      rw [hw']
      simp only [List.cons_append, List.nil_append, List.pairwise_cons, List.mem_singleton, List.not_mem_nil, false_implies, implies_true,
        List.Pairwise.nil, and_true]
      rintro e rfl
      exact (not_share_of_boundary (q := 1) hP0 (by simp [hl]; omega) (by simp; omega)).2
    · simp
  · have hv : st.varLen = true → P ≤ d.length + st.headerLen := fun h => by
      apply Classical.byContradiction
      intro hs
      exact hone ⟨h, by omega⟩
    have h2 : st.headerLen ≤ 4 := by have := st.headerLen_le; split at this <;> omega
    rw [paged_many st P d x hP hv]
    obtain ⟨g1, g2⟩ := many_fit st.varLen P st.headerLen d.length x.length hP h2 hv (fun h => st.headerLen_fixed h)
    have hf : ∃ q0, (if st.varLen then P - st.headerLen else 0) + st.headerLen = P * q0 := by
      cases hvv : st.varLen
      · exact ⟨0, by simp [st.headerLen_fixed hvv]⟩
      · exact ⟨1, by simp; omega⟩
    have hdm := Nat.div_add_mod (d.length + st.headerLen) P
    have hff : (if st.varLen then P - st.headerLen else 0) ≠ 0 → st.varLen = true := fun h => by
      cases hvv : st.varLen
      · rw [hvv] at h; simp at h
      · rfl
    have ht : x.length = 0 ∨ tail P (d.length + st.headerLen) x.length = (d.length + st.headerLen) % P := by
      unfold tail; split
      · exact .inl ‹_›
      · exact .inr rfl
    have hw : min (P - (d.length + st.headerLen) % P) x.length < x.length →
        min (P - (d.length + st.headerLen) % P) x.length = P - (d.length + st.headerLen) % P := by omega
    have hwle : min (P - (d.length + st.headerLen) % P) x.length ≤ P - (d.length + st.headerLen) % P := Nat.min_le_left _ _
    obtain ⟨q0, hq0⟩ := hf
    simp only
    generalize tail P (d.length + st.headerLen) x.length = t at *
    generalize min (P - (d.length + st.headerLen) % P) x.length = w at *
    generalize (if st.varLen then P - st.headerLen else 0) = f at *
    generalize (d.length + st.headerLen) % P = r at *
    generalize (d.length + st.headerLen) / P = q at *
    have hPq : P * (q + 1) = P * q + P := by rw [Nat.mul_succ]
    have fq : f + st.headerLen ≤ P * q0 := by omega
    -- every two of the four writes are separated by a page boundary
    have s12 : x.length ≠ 0 → ¬ SharePage P (f + st.headerLen, (d.drop f).take (d.length - f - t))
        (f + st.headerLen + (d.length - f - t), (d.drop (d.length - t)).take t ++ x.take w) := fun hx => by
      have := ht.resolve_left hx
      exact (not_share_of_boundary (q := q) hP0 (by simp only [List.length_take, List.length_drop]; omega) (by simp only; omega)).1
    have s13 : w < x.length → ¬ SharePage P (f + st.headerLen, (d.drop f).take (d.length - f - t))
        (f + st.headerLen + (d.length - f - t) + t + w, x.drop w) := fun hx => by
      have := ht.resolve_left (by omega)
      exact (not_share_of_boundary (q := q) hP0 (by simp only [List.length_take, List.length_drop]; omega) (by simp only; omega)).1
    have s23 : w < x.length → ¬ SharePage P (f + st.headerLen + (d.length - f - t), (d.drop (d.length - t)).take t ++ x.take w)
        (f + st.headerLen + (d.length - f - t) + t + w, x.drop w) := fun hx => by
      have := ht.resolve_left (by omega)
      have := hw hx
      exact (not_share_of_boundary (q := q + 1) hP0 (by
        rw [hPq]; simp only [List.length_append, List.length_take, List.length_drop]; omega) (by rw [hPq]; simp only; omega)).1
    have sx4 : ∀ (o : Nat) (b : Bytes), f ≠ 0 → f + st.headerLen ≤ o → ¬ SharePage P (o, b) (0, st.header d.length ++ d.take f) :=
        fun o b hf0 ho => by
      have hl := st.header_length (hff hf0) d.length
      exact (not_share_of_boundary (q := q0) hP0 (e := (0, st.header d.length ++ d.take f)) (f := (o, b)) (by
        simp only [List.length_append, List.length_take, hl]; omega) (by simp only; omega)).2
    by_cases c1 : d.length - f - t ≠ 0 <;> by_cases c2 : x.length ≠ 0 <;> by_cases c3 : w < x.length <;> by_cases c4 : f ≠ 0 <;>
      simp only [c1, c2, c3, c4, if_true, if_false, List.nil_append, List.append_nil, List.cons_append, List.pairwise_cons,
        List.mem_cons, List.not_mem_nil, or_false, forall_eq_or_imp, forall_eq, false_implies, implies_true, List.Pairwise.nil, and_true,
        not_false_eq_true, ne_eq, not_true_eq_false] <;>
      (try trivial) <;>
      (refine ?_) <;>
      first
        | exact ⟨⟨s12 c2, s13 c3, sx4 _ _ c4 (by omega)⟩, ⟨s23 c3, sx4 _ _ c4 (by omega)⟩, sx4 _ _ c4 (by omega)⟩
        | exact ⟨⟨s12 c2, s13 c3⟩, s23 c3⟩
        | exact ⟨⟨s12 c2, sx4 _ _ c4 (by omega)⟩, sx4 _ _ c4 (by omega)⟩
        | exact s12 c2
        | exact sx4 _ _ c4 (by omega)
        | exact ⟨⟨s23 c3, sx4 _ _ c4 (by omega)⟩, sx4 _ _ c4 (by omega)⟩
        | exact s23 c3
        | omega

/-! ### Success -/

theorem Good.runWrites {dv : Dev} (h : Flash.Good dv) (img : Bytes) (a : Nat) (hf : a + img.length < 2 ^ 32) (ws : List (Nat × Bytes)) :
    ∀ (s : FS), (∀ e ∈ ws, PartOf img e) → (∀ i, i < img.length → s.mem (a + i) = 0xff ∨ s.mem (a + i) = img.getD i 0) →
    (runWrites dv s a ws).1 = .ok := by
  induction ws with
  | nil => intro s _ _; rfl
  | cons e ws ih =>
    intro s hw hm
    obtain ⟨off, b⟩ := e
    obtain ⟨p1, p2⟩ := hw (off, b) (by simp)
    simp only at p1 p2
    have g := h.writeVerify s (a + off) b (by omega) (fun i hi => by
      have := hm (off + i) (by omega)
      rw [p2 i hi, Nat.add_assoc]; exact this)
    obtain ⟨v1, v2⟩ := Flash.program_verify_exact dv .none s (a + off) b (by simp [Flash.EraseFn.size]) (by omega)
    unfold FlashStore.runWrites
    rw [u32_id (by omega)]
    cases hp : Flash.programVerify dv .none s (a + off) b with
    | mk st s1 =>
      rw [hp] at v1 v2 g
      simp only at g
      subst g
      simp only
      refine ih s1 (fun e he => hw e (List.mem_cons_of_mem _ he)) (fun i hi => ?_)
      by_cases hin : off ≤ i ∧ i < off + b.length
      · right
        have h2 := congrArg (fun l => l.getD (i - off) 0) (v2 rfl)
        simp only [Flash.bytesAt_getD _ _ _ _ _ (show i - off < b.length by omega)] at h2
        rw [show a + off + (i - off) = a + i by omega] at h2
        rw [h2, p2 _ (by omega), show off + (i - off) = i by omega]
      · rw [v1 (a + i) (by rw [Flash.EraseFn.size, Flash.touched_one]; omega)]
        exact hm i hi

/-- C29: on a flash device without failures every write the store accepts succeeds. -/
theorem write_succeeds (pack : Pack) (dv : Dev) (hg : Flash.Good dv) (st : Store) (extra : Nat) (hst : st.OK dv.sector extra)
    (hp : Fits st extra pack) (s : FS) (id : Nat) (hid : id < st.blocks) (d : Bytes) (hd : 0 < d.length)
    (hfit : d.length ≤ st.maxSize - st.overhead) (hfix : st.varLen = false → d.length = st.maxSize - st.overhead)
    (hpk : (pack d).isSome) : (writeSealed pack dv st s id d).1 = .ok () := by
  obtain ⟨⟨b, x⟩, hbx⟩ := Option.isSome_iff_exists.mp hpk
  obtain ⟨p1, p2, p3⟩ := hp d b x hd hfit hbx
  have hc : checkParams st id d.length = none := by
    unfold checkParams
    rw [if_neg (by omega), if_neg (by omega), if_neg (by
      rintro ⟨h1, h2⟩
      exact h2 (hfix (by simpa using h1))), if_neg (by omega)]
  obtain ⟨a1, a2, a3⟩ := OK.start_facts hst hid
  obtain ⟨w1, w2, _⟩ := writes_parts st _ _ hst b x p1
  have hroom : (image st b x).length ≤ st.blockSize := by
    rw [image_length]
    have h1 := st.headerLen_le
    have h2 := hst.room
    generalize (if st.varLen = true then 4 else 0) = k at *
    omega
  have e1 := hg.eraseRegion dv.sector s (st.start id) st.blockSize
  have e2 := (Flash.eraseRegion_spec dv dv.sector hst.sectorPos s (st.start id) st.blockSize (by omega)).2 e1
  unfold writeSealed writeCommon
  rw [hc, hbx]
  simp only
  rw [a1]
  cases he : Flash.eraseRegion dv dv.sector s (st.start id) st.blockSize with
  | mk es s1 =>
    rw [he] at e1 e2
    simp only at e1 e2
    subst e1
    simp only
    have := Good.runWrites hg (image st b x) (st.start id) (by omega) (writes st b x) s1 w1 (fun i hi =>
      .inl (e2 _ (.of_mem (by omega) (by omega))))
    cases hr : runWrites dv s1 (st.start id) (writes st b x) with
    | mk rs s2 =>
      rw [hr] at this
      simp only at this
      subst this
      rfl

/-- C29, where it fails: a store that uses length-only headers loses data whose length is between 0xa500 and 0xa503: the write succeeds, and
the block is reported as empty. -/
theorem old_header_loses_data (dv : Dev) (st : Store) (hst : st.OK dv.sector 0) (hv : st.varLen = true) (ho : st.oldHeader = true)
    (s : FS) (id : Nat) (d : Bytes) (hl : 0xa500 ≤ d.length ∧ d.length < 0xa504) (hw : (writeNoHash dv st s id d).1 = .ok ()) :
    (hasData dv st (writeNoHash dv st s id d).2 id).1 = .ok false ∨
    ((hasData dv st (writeNoHash dv st s id d).2 id).1 = .error .flash ∧ DriverFails dv) := by
  have hck : checkParams st id d.length = none ∧ id < st.blocks ∧ d.length ≤ st.maxSize - st.overhead := by
    cases hc : checkParams st id d.length with
    | some e => unfold writeNoHash writeSealed at hw; rw [hc] at hw; cases hw
    | none =>
      unfold checkParams at hc
      split at hc
      · cases hc
      · split at hc
        · cases hc
        · split at hc
          · cases hc
          · split at hc
            · cases hc
            · exact ⟨rfl, by omega, by omega⟩
  obtain ⟨c0, c1, c2⟩ := hck
  have e : writeNoHash dv st s id d = writeCommon dv st s id d [] := by unfold writeNoHash writeSealed; rw [c0]
  rw [e] at hw ⊢
  obtain ⟨a1, _, _⟩ := OK.start_facts hst c1
  have himg := (writeCommon_spec dv st 0 hst s id c1 d [] (by omega) (by omega) (by simp)).2 hw
  generalize (writeCommon dv st s id d []).2 = s' at himg ⊢
  have hil : 2 ≤ (image st d []).length := by rw [image_length]; have := st.headerLen_pos hv; omega
  have hb : ∀ i, i < 2 → s'.mem (st.start id + i) = (toLE 2 d.length).getD i 0 := fun i hi => by
    have h2 := congrArg (fun l => l.getD i 0) himg
    simp only [Flash.bytesAt_getD _ _ _ _ _ (show i < (image st d []).length by omega)] at h2
    rw [h2, image_getD_header st d [] hv (by unfold Store.headerLen; rw [hv, ho]; simp; omega)]
    unfold Store.header; rw [if_pos ho]
  unfold hasData dataLength
  rw [if_neg (by omega), if_pos hv, a1]
  unfold readHeader
  rcases read_cases dv s' (st.start id) 4 with ⟨s1, hr, _⟩ | ⟨⟨s1, hr⟩, hf⟩
  · left
    rw [hr]
    have e1 : bytesAt s'.mem (st.start id) 4 = [UInt8.ofNat d.length, 0xa5, s'.mem (st.start id + 2), s'.mem (st.start id + 3)] := by
      have h0 := hb 0 (by omega)
      have h1 := hb 1 (by omega)
      have h1' : s'.mem (st.start id + 1) = 0xa5 := by
        rw [h1]
        apply UInt8.toNat_inj.mp
        simp [toLE]
        omega
      have h0' : s'.mem (st.start id + 0) = UInt8.ofNat d.length := by rw [h0]; simp [toLE]
      simp only [bytesAt, List.range, List.range.loop, List.map_cons, List.map_nil, h0', h1']
    simp only
    rw [e1]
    have : parseHeader st.maxSize [UInt8.ofNat d.length, 0xa5, s'.mem (st.start id + 2), s'.mem (st.start id + 3)] = .error .noData := by
      unfold parseHeader
      rw [if_neg (by simp), if_pos]
      left
      simp
      omega
    rw [this]
  · right
    rw [hr]
    exact ⟨rfl, hf⟩

/-! ### Set up -/

/-- C29: a store whose set-up succeeds, and whose region does not wrap around the 32-bit address space, has room for its data in
disjoint blocks, and a store growing upwards lies in the device. -/
theorem init_ok (sector device pageSize minWrite base blocks dataLen overhead extra : Nat) (decreasing varLen : Bool) (st : Store)
    (h : init sector device pageSize minWrite base blocks dataLen overhead extra decreasing varLen = .ok st)
    (hs : 0 < sector) (hp : 4 < pageSize) (hlen : dataLen + extra + 4 + 2 * sector < 2 ^ 32)
    (hup : decreasing = false → base + st.blockSize * blocks < 2 ^ 32)
    (hdown : decreasing = true → st.blockSize * (blocks - 1) < 2 ^ 32 ∧ base + st.blockSize < 2 ^ 32) :
    st.OK sector extra ∧ dataLen ≤ st.maxSize ∧ st.blocks = blocks ∧ 0 < blocks ∧
    (decreasing = false → base + st.blockSize * blocks ≤ device) := by
  unfold init at h
  by_cases c1 : blocks = 0
  · rw [if_pos c1] at h; cases h
  rw [if_neg c1] at h
  by_cases c2 : dataLen > 65535
  · rw [if_pos c2] at h; cases h
  rw [if_neg c2] at h
  by_cases c3 : base % sector ≠ 0
  · rw [if_pos c3] at h; cases h
  rw [if_neg c3] at h
  by_cases c4 : base ≥ device ∨ (decreasing = true ∧ base = 0)
  · rw [if_pos c4] at h; cases h
  rw [if_neg c4] at h
  simp only at h
  generalize hL : dataLen + extra + (if varLen = true then 4 else 0) = L at h
  have hL2 : L ≤ dataLen + extra + 4 ∧ (varLen = true → L = dataLen + extra + 4) ∧ dataLen + extra ≤ L := by
    cases varLen <;> simp at hL <;> simp <;> omega
  generalize hS0 : (if L > sector then L else sector) = S0 at h
  have hS02 : L ≤ S0 ∧ sector ≤ S0 ∧ S0 ≤ L + sector := by
    split at hS0 <;> omega
  rw [u32_id (show S0 + (sector - 1) < 2 ^ 32 by omega)] at h
  have hm := Nat.mod_lt (S0 + (sector - 1)) hs
  have hml := Nat.mod_le (S0 + (sector - 1)) sector
  generalize hS : S0 + (sector - 1) - (S0 + (sector - 1)) % sector = S at h
  have hSm : S % sector = 0 := by rw [← hS, Nat.sub_mod_eq_zero_of_mod_eq]; rw [Nat.mod_mod]
  have hS2 : S0 ≤ S := by omega
  by_cases c5 : (!decreasing) = true ∧ u32 (base + u32 (S * blocks)) > device
  · rw [if_pos c5] at h; cases h
  rw [if_neg c5] at h
  by_cases c6 : decreasing = true ∧ u32 (S * (blocks - 1)) > base
  · rw [if_pos c6] at h; cases h
  rw [if_neg c6] at h
  generalize hM : (if varLen = true then u32 (S + (2 ^ 32 - 4 - extra)) else dataLen) = M at h
  by_cases c7 : varLen = true ∧ M > 65535
  · rw [if_pos c7] at h; cases h
  rw [if_neg c7] at h
  simp only [Except.ok.injEq] at h
  subst h
  simp only at hup hdown ⊢
  have hSlt : S < 2 ^ 32 := by omega
  have hM2 : (varLen = true → M = S - 4 - extra) ∧ (varLen = false → M = dataLen) := by
    refine ⟨fun hv => ?_, fun hv => ?_⟩
    · rw [← hM, if_pos hv]
      unfold u32
      have := hL2.2.1 hv
      rw [show S + (2 ^ 32 - 4 - extra) = (S - 4 - extra) + 2 ^ 32 by omega, Nat.add_mod_right, Nat.mod_eq_of_lt (by omega)]
    · rw [← hM, hv]; simp
  refine ⟨⟨hs, by simp only; omega, hSm, by simpa using c3, hup, fun hd => ⟨?_, (hdown hd).2⟩, ?_, fun hv => ?_, ?_⟩, ?_, trivial, by omega, fun hd => ?_⟩
  · have := (hdown hd).1
    rw [u32_id this] at c6
    exact Nat.le_of_not_lt (fun h => c6 ⟨hd, h⟩)
  · simp only
    cases hv : varLen
    · have := hM2.2 hv
      simp
      omega
    · have := hM2.1 hv
      have := hL2.2.1 hv
      simp
      omega
  · simp only at hv ⊢
    apply Classical.byContradiction
    intro hc
    exact c7 ⟨hv, by omega⟩
  · intro p hpp
    simp only at hpp
    split at hpp
    · simp only [Option.some.injEq] at hpp; omega
    · cases hpp
  · cases hv : varLen
    · have := hM2.2 hv; omega
    · have := hM2.1 hv; have := hL2.2.1 hv; omega
  · have hu := hup hd
    rw [u32_id (show S * blocks < 2 ^ 32 by omega), u32_id hu] at c5
    simp only [hd, Bool.not_false, true_and] at c5
    omega

example : ∃ st, init 0x1000 0x100000 256 1 0x10000 5 100 0 32 false true = .ok st ∧ st.maxSize = 0x1000 - 36 ∧ st.page = none := by
  refine ⟨_, rfl, by decide +kernel, by decide +kernel⟩

example : ∃ st, init 0x1000 0x100000 256 256 0x10000 5 5000 0 32 true true = .ok st ∧ st.blockSize = 0x2000 ∧ st.page = some 256 := by
  refine ⟨_, rfl, by decide +kernel, by decide +kernel⟩

/-- C29, where it fails: the size of the region is computed in 32 bits, so a store of 2^20 + 1 sectors is accepted on a 1 MB device. -/
theorem init_wraps : ∃ st, init 0x1000 0x100000 256 1 0 (2 ^ 20 + 1) 100 0 0 false false = .ok st ∧
    st.start 0x100 = 0x100000 ∧ 0x100 < st.blocks := by
  refine ⟨_, rfl, by decide +kernel, by decide +kernel⟩

/-- C29, where it fails: for a store growing downwards the end of the first block is not checked against the size of the device. -/
theorem init_down_beyond : ∃ st, init 0x1000 0x10000 256 1 0xf000 2 0x1800 0 0 true false = .ok st ∧
    st.start 0 + st.blockSize > 0x10000 := by
  refine ⟨_, rfl, by decide +kernel⟩

/-! ### Aggregation -/

/-- C29: the blocks of an aggregation are the blocks of its stores one after the other: each identifier below the sum of the block counts is
one block of one store, and each block of each store has exactly one identifier. -/
theorem aggregate_iff (counts : List Nat) : ∀ (id k j : Nat), aggregate (counts.map some) id = some (k, j) ↔
    ∃ n, counts[k]? = some n ∧ j < n ∧ id = (counts.take k).sum + j := by
  induction counts with
  | nil => intro id k j; simp [aggregate]
  | cons n rest ih =>
    intro id k j
    simp only [List.map_cons, aggregate]
    by_cases h : id < n
    · rw [if_pos h]
      constructor
      · intro e
        simp only [Option.some.injEq, Prod.mk.injEq] at e
        obtain ⟨rfl, rfl⟩ := e
        exact ⟨n, by simp, h, by simp⟩
      · rintro ⟨m, h1, h2, h3⟩
        cases k with
        | zero => simp at h1 h3; simp; omega
        | succ k => simp at h3; omega
    · rw [if_neg h]
      constructor
      · intro e
        simp only [Option.map_eq_some_iff, Prod.mk.injEq] at e
        obtain ⟨⟨k', j'⟩, e1, rfl, rfl⟩ := e
        obtain ⟨m, g1, g2, g3⟩ := (ih _ _ _).mp e1
        exact ⟨m, by simpa using g1, g2, by simp; omega⟩
      · rintro ⟨m, h1, h2, h3⟩
        cases k with
        | zero => simp at h1 h3; omega
        | succ k =>
          simp at h1 h3
          simp only [Option.map_eq_some_iff, Prod.mk.injEq]
          exact ⟨(k, j), (ih _ _ _).mpr ⟨m, h1, h2, by omega⟩, rfl, rfl⟩

theorem aggregate_none (counts : List Nat) : ∀ id, aggregate (counts.map some) id = none ↔ counts.sum ≤ id := by
  induction counts with
  | nil => intro id; simp [aggregate]
  | cons n rest ih =>
    intro id
    simp only [List.map_cons, aggregate, List.sum_cons]
    by_cases h : id < n
    · rw [if_pos h]; simp; omega
    · rw [if_neg h]; simp only [Option.map_eq_none_iff, ih]; omega

example : (List.range 7).map (aggregate [some 2, some 0, some 3]) =
    [some (0, 0), some (0, 1), some (2, 0), some (2, 1), some (2, 2), none, none] := by decide +kernel

/-! ### Examples -/

/-- A store of three blocks of 32 bytes on the example device, variable length, with a page buffer, growing down. -/
def demoStore : Store := ⟨64, 3, true, true, 24, 0, 32, some 8, false⟩

example : demoStore.OK Flash.demoDev.sector 4 := ⟨by decide, by decide, by decide, by decide, by decide, by decide, by decide, by decide,
  fun p h => by cases h; decide⟩

def demoPack : Pack := fun d => some (d, [0xaa, 0xbb, 0xcc, 0xdd])

example : (writeSealed demoPack Flash.demoDev demoStore ⟨fun _ => 7, 0⟩ 1 [1, 2, 3, 4, 5, 6, 7, 8, 9]).1.isOk = true ∧
    bytesAt (writeSealed demoPack Flash.demoDev demoStore ⟨fun _ => 7, 0⟩ 1 [1, 2, 3, 4, 5, 6, 7, 8, 9]).2.mem 30 20 =
      [7, 7, 4, 0xa5, 9, 0, 1, 2, 3, 4, 5, 6, 7, 8, 9, 0xaa, 0xbb, 0xcc, 0xdd, 0xff] ∧
    writes demoStore [1, 2, 3, 4, 5, 6, 7, 8, 9] [0xaa, 0xbb, 0xcc, 0xdd] =
      [(8, [5, 6, 7, 8, 9, 0xaa, 0xbb, 0xcc]), (16, [0xdd]), (0, [4, 0xa5, 9, 0, 1, 2, 3, 4])] := by decide +kernel

end Verif.FlashStore
