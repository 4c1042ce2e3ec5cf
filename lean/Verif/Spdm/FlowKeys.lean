import Verif.Spdm.FlowSpec
import Verif.Spdm.SessionTable
/-! The invariant of the keys: every key is in one place, and its counter is ahead of all its uses. -/
namespace Verif.Spdm

/-- The four keys of a session. -/
inductive Slot
  | hsReq | hsRsp | dataReq | dataRsp
  deriving DecidableEq

def Session.slot (s : Session) : Slot → Keys
  | .hsReq => s.hsReq
  | .hsRsp => s.hsRsp
  | .dataReq => s.dataReq
  | .dataRsp => s.dataRsp

def Mgr.slots (m : Mgr) (p : Nat × Slot) : Keys := (m.at_ p.1).slot p.2

/-- Keys in their places, keys installed so far, and uses so far. -/
structure KInv (σ : Nat × Slot → Keys) (L : List Bytes) (U : List Use) : Prop where
  known : ∀ p, σ p = .zero ∨ (σ p).key ∈ L
  sized : ∀ p, (σ p).Sized
  dist : ∀ p p', (σ p).key ∈ L → (σ p).key = (σ p').key → p = p'
  past : ∀ p u, u ∈ U → u.key = (σ p).key → ∃ n, n < (σ p).seq ∧ n < 2 ^ 64 ∧ u.iv = ivFor (σ p).salt n
  usesKnown : ∀ u ∈ U, u.key ∈ L
  nodup : U.Nodup
  nz : List.replicate 32 0 ∉ L

theorem zero_sized : Keys.zero.Sized := ⟨rfl, rfl⟩

theorem KInv.init (h : ∀ p, σ p = .zero) : KInv σ [] [] where
  known p := .inl (h p)
  sized p := by rw [h p]; exact zero_sized
  dist p p' h := by cases h
  past p u h := by cases h
  usesKnown u h := by cases h
  nodup := List.nodup_nil
  nz h := by cases h

theorem KInv.zap {σ σ' : Nat × Slot → Keys} {L : List Bytes} {U : List Use} (h : KInv σ L U) (h' : ∀ p, σ' p = σ p ∨ σ' p = .zero) : KInv σ' L U where
  known p := by
    rcases h' p with e | e
    · rw [e]; exact h.known p
    · exact .inl e
  sized p := by
    rcases h' p with e | e
    · rw [e]; exact h.sized p
    · rw [e]; exact zero_sized
  dist p p' h1 h2 := by
    rcases h' p with e | e
    · rw [e] at h1 h2
      rcases h' p' with e' | e'
      · rw [e'] at h2; exact h.dist p p' h1 h2
      · rw [e'] at h2; rw [h2] at h1; exact absurd h1 h.nz
    · rw [e] at h1; exact absurd h1 h.nz
  past p u hu hk := by
    rcases h' p with e | e
    · rw [e] at hk ⊢; exact h.past p u hu hk
    · rw [e] at hk; have := h.usesKnown u hu; rw [hk] at this; exact absurd this h.nz
  usesKnown := h.usesKnown
  nodup := h.nodup
  nz := h.nz

theorem KInv.bump {σ σ' : Nat × Slot → Keys} {L : List Bytes} {U : List Use} (h : KInv σ L U) (p0 : Nat × Slot) (hin : (σ p0).key ∈ L)
    (h0 : σ' p0 = { σ p0 with seq := (σ p0).seq + 1 }) (h' : ∀ p, p ≠ p0 → σ' p = σ p) : KInv σ' L U := by
  have key : ∀ p, (σ' p).key = (σ p).key := by
    intro p; by_cases e : p = p0
    · subst e; rw [h0]
    · rw [h' p e]
  have salt : ∀ p, (σ' p).salt = (σ p).salt := by
    intro p; by_cases e : p = p0
    · subst e; rw [h0]
    · rw [h' p e]
  have seq : ∀ p, (σ p).seq ≤ (σ' p).seq := by
    intro p; by_cases e : p = p0
    · subst e; rw [h0]; simp
    · rw [h' p e]; exact Nat.le_refl _
  refine ⟨fun p => ?_, fun p => ?_, fun p p' h1 h2 => ?_, fun p u hu hk => ?_, h.usesKnown, h.nodup, h.nz⟩
  · by_cases e : p = p0
    · subst e; right; rw [key]; exact hin
    · rw [h' p e]; exact h.known p
  · exact ⟨by rw [key]; exact (h.sized p).1, by rw [salt]; exact (h.sized p).2⟩
  · rw [key] at h1; rw [key, key] at h2; exact h.dist p p' h1 h2
  · rw [key] at hk
    obtain ⟨n, h1, h2, h3⟩ := h.past p u hu hk
    exact ⟨n, Nat.lt_of_lt_of_le h1 (seq p), h2, by rw [salt]; exact h3⟩

theorem KInv.use {σ σ' : Nat × Slot → Keys} {L : List Bytes} {U : List Use} (h : KInv σ L U) (p0 : Nat × Slot) (hin : (σ p0).key ∈ L) (hs : (σ p0).seq < 2 ^ 64)
    (h0 : σ' p0 = { σ p0 with seq := (σ p0).seq + 1 }) (h' : ∀ p, p ≠ p0 → σ' p = σ p) :
    KInv σ' L (U ++ [⟨(σ p0).key, ivFor (σ p0).salt (σ p0).seq⟩]) := by
  have hb := h.bump p0 hin h0 h'
  have key : ∀ p, (σ' p).key = (σ p).key := by
    intro p; by_cases e : p = p0
    · subst e; rw [h0]
    · rw [h' p e]
  refine ⟨hb.known, hb.sized, hb.dist, fun p u hu hk => ?_, fun u hu => ?_, ?_, h.nz⟩
  · rcases List.mem_append.mp hu with hu | hu
    · exact hb.past p u hu hk
    · rw [List.mem_singleton] at hu
      subst hu
      rw [key] at hk
      have := h.dist p0 p hin hk
      subst this
      rw [h0]
      exact ⟨_, Nat.lt_succ_self _, hs, rfl⟩
  · rcases List.mem_append.mp hu with hu | hu
    · exact h.usesKnown u hu
    · rw [List.mem_singleton] at hu; subst hu; exact hin
  · rw [List.nodup_append]
    refine ⟨h.nodup, by simp, fun u hu v hv huv => ?_⟩
    rw [List.mem_singleton] at hv
    subst hv; subst huv
    obtain ⟨n, h1, h2, h3⟩ := h.past p0 _ hu rfl
    have := ivFor_inj (h.sized p0).2 hs h2 h3
    omega

theorem KInv.install {σ σ' : Nat × Slot → Keys} {L : List Bytes} {U : List Use} (h : KInv σ L U) (p0 : Nat × Slot) (k : Keys) (hk : k.Sized)
    (hz : k.key ≠ List.replicate 32 0) (hf : k.key ∉ L) (h0 : σ' p0 = { k with seq := 0 }) (h' : ∀ p, p ≠ p0 → σ' p = σ p) : KInv σ' (L ++ [k.key]) U := by
  have hk0 : (σ' p0).key = k.key := by rw [h0]
  have old : ∀ p, p ≠ p0 → (σ p).key ≠ k.key := by
    intro p _ e
    rcases h.known p with hz' | hl
    · rw [hz'] at e; exact hz e.symm
    · rw [e] at hl; exact hf hl
  refine ⟨fun p => ?_, fun p => ?_, fun p p' h1 h2 => ?_, fun p u hu hkey => ?_, fun u hu => List.mem_append_left _ (h.usesKnown u hu), h.nodup, ?_⟩
  · by_cases e : p = p0
    · subst e; right; rw [hk0]; simp
    · rw [h' p e]
      exact (h.known p).imp id (fun x => List.mem_append_left _ x)
  · by_cases e : p = p0
    · subst e; rw [h0]; exact hk
    · rw [h' p e]; exact h.sized p
  · by_cases e : p = p0
    · by_cases e' : p' = p0
      · rw [e, e']
      · subst e
        rw [hk0, h' p' e'] at h2
        exact absurd h2.symm (old p' e')
    · rw [h' p e] at h1 h2
      by_cases e' : p' = p0
      · subst e'; rw [hk0] at h2; exact absurd h2 (old p e)
      · rw [h' p' e'] at h2
        rcases List.mem_append.mp h1 with h1 | h1
        · exact h.dist p p' h1 h2
        · exact absurd (List.mem_singleton.mp h1) (old p e)
  · by_cases e : p = p0
    · subst e
      rw [hk0] at hkey
      have := h.usesKnown u hu
      rw [hkey] at this
      exact absurd this hf
    · rw [h' p e] at hkey ⊢
      exact h.past p u hu hkey
  · intro hm
    rcases List.mem_append.mp hm with hm | hm
    · exact h.nz hm
    · exact hz (List.mem_singleton.mp hm).symm

/-! ### The whole invariant -/

/-- A session that can be used. -/
structure Session.Live (s : Session) (L : List Bytes) (ph : Nat → Phase) : Prop where
  type : s.type = .encMac
  key : s.keySize = 32
  iv : s.ivSize = 12
  tag : s.tagSize = 16
  state : (s.state = .handshaking ∧ s.hsReq.key ∈ L ∧ s.hsRsp.key ∈ L ∧ ph s.id ≠ .absent) ∨
          (s.state = .established ∧ s.dataReq.key ∈ L ∧ s.dataRsp.key ∈ L ∧ ph s.id = .proved)

structure Inv (m : Mgr) (L : List Bytes) (U : List Use) (ph : Nat → Phase) : Prop where
  ok : m.Ok
  keys : KInv m.slots L U
  live : ∀ i, (m.at_ i).id ≠ 0 → (m.at_ i).Live L ph
  absent : ∀ id, id ∉ m.ids → ph id = .absent

theorem at_out {m : Mgr} {i : Nat} (h : m.sessions.length ≤ i) : m.at_ i = .zero := by
  unfold Mgr.at_
  rw [List.getD_eq_getElem?_getD, List.getElem?_eq_none h]; rfl

theorem at_lt {m : Mgr} {i : Nat} (h : (m.at_ i).id ≠ 0) : i < m.sessions.length := by
  by_cases hl : i < m.sessions.length
  · exact hl
  · rw [at_out (by omega)] at h; exact absurd rfl h

theorem mem_ids_at {m : Mgr} {i : Nat} (h : (m.at_ i).id ≠ 0) : (m.at_ i).id ∈ m.ids :=
  mem_ids.mpr ⟨h, m.at_ i, by rw [← at_get (at_lt h)]; exact List.getElem_mem _, rfl⟩

theorem find_of_mem {m : Mgr} {id : Nat} (h : id ∈ m.ids) : ∃ i, findSession m id = some i := by
  obtain ⟨h0, s, hs, hid⟩ := mem_ids.mp h
  unfold findSession
  rw [if_neg h0]
  have : (m.sessions.findIdx? (fun s => decide (s.id = id))).isSome = true := by
    rw [List.findIdx?_isSome, List.any_eq_true]
    exact ⟨s, hs, by simpa using hid⟩
  exact Option.isSome_iff_exists.mp this

theorem slots_set {m : Mgr} {i : Nat} {s : Session} (h : i < m.sessions.length) (j : Nat) (x : Slot) :
    (m.set i s).slots (j, x) = if j = i then s.slot x else m.slots (j, x) := by
  unfold Mgr.slots
  by_cases e : j = i
  · subst e; rw [if_pos rfl, at_set _ _ _ h]
  · rw [if_neg e, at_set_ne _ _ _ _ e]

/-- Two places with the same identifier are the same. -/
theorem Mgr.Ok.unique {m : Mgr} (h : m.Ok) {i j : Nat} (h0 : (m.at_ i).id ≠ 0) (he : (m.at_ i).id = (m.at_ j).id) : i = j := by
  by_cases hij : i = j
  · exact hij
  · exfalso
    have hi := at_lt h0
    have hj := at_lt (m := m) (i := j) (he ▸ h0)
    obtain ⟨r, h1, h2⟩ := ids_set (m := m) (i := i) .zero hi
    rw [show List.filter (fun x : Nat => decide (x ≠ 0)) [(m.at_ i).id] = [(m.at_ i).id] by simp [h0], List.singleton_append] at h1
    rw [show [Session.zero.id].filter (fun x : Nat => decide (x ≠ 0)) = [] from rfl, List.nil_append] at h2
    have hn := List.nodup_cons.mp (h1.nodup_iff.mp h.nodup)
    apply hn.1
    rw [← h2.mem_iff, mem_ids]
    refine ⟨h0, (m.set i .zero).at_ j, ?_, ?_⟩
    · rw [← at_get (m := m.set i .zero) (by rw [set_len]; exact hj)]; exact List.getElem_mem _
    · rw [at_set_ne _ _ _ _ (Ne.symm hij), he]

theorem Inv.last {m : Mgr} {L : List Bytes} {U : List Use} {ph : Nat → Phase} (h : Inv m L U ph) (a : Nat) (b : Bool) :
    Inv { m with lastId := a, lastValid := b } L U ph :=
  ⟨Ok.of_perm h.ok (.refl _) rfl rfl, h.keys, h.live, h.absent⟩

/-- A session is replaced by one with the same identifier. -/
theorem Inv.set {m : Mgr} {L L' : List Bytes} {U U' : List Use} {ph : Nat → Phase} (h : Inv m L U ph) {i : Nat} {s : Session} (h0 : (m.at_ i).id ≠ 0)
    (hid : s.id = (m.at_ i).id) (hk : KInv (m.set i s).slots L' U') (hL : ∀ x ∈ L, x ∈ L') (hs : s.Live L' ph) : Inv (m.set i s) L' U' ph := by
  have hl := at_lt h0
  have hp := ids_set_same hl hid
  refine ⟨Ok.of_perm h.ok hp rfl (set_len ..), hk, fun j hj => ?_, fun id hn => h.absent id (fun x => hn (hp.mem_iff.mpr x))⟩
  by_cases e : j = i
  · subst e; rw [at_set _ _ _ hl]; exact hs
  · rw [at_set_ne _ _ _ _ e] at hj ⊢
    have := h.live j hj
    exact ⟨this.type, this.key, this.iv, this.tag, this.state.imp (fun ⟨a, b, c, d⟩ => ⟨a, hL _ b, hL _ c, d⟩) (fun ⟨a, b, c, d⟩ => ⟨a, hL _ b, hL _ c, d⟩)⟩

theorem reqSlot {s : Session} {k : Keys} (h : s.reqKeys = some k) :
    ∃ x, k = s.slot x ∧ s.nextReq.slot x = { k with seq := k.seq + 1 } ∧ (∀ y, y ≠ x → s.nextReq.slot y = s.slot y) ∧
      (s.state = .handshaking ∧ x = .hsReq ∨ s.state = .established ∧ x = .dataReq) := by
  unfold Session.reqKeys at h
  unfold Session.nextReq
  split at h
  · rename_i hst
    injection h with h; subst h
    refine ⟨.hsReq, rfl, ?_, ?_, .inl ⟨hst, rfl⟩⟩
    · rw [hst]; rfl
    · intro y hy; rw [hst]; cases y <;> first | rfl | exact absurd rfl hy
  · rename_i hst
    injection h with h; subst h
    refine ⟨.dataReq, rfl, ?_, ?_, .inr ⟨hst, rfl⟩⟩
    · rw [hst]; rfl
    · intro y hy; rw [hst]; cases y <;> first | rfl | exact absurd rfl hy
  · cases h

theorem rspSlot {s : Session} {k : Keys} (h : s.rspKeys = some k) :
    ∃ x, k = s.slot x ∧ s.nextRsp.slot x = { k with seq := k.seq + 1 } ∧ (∀ y, y ≠ x → s.nextRsp.slot y = s.slot y) ∧
      (s.state = .handshaking ∧ x = .hsRsp ∨ s.state = .established ∧ x = .dataRsp) := by
  unfold Session.rspKeys at h
  unfold Session.nextRsp
  split at h
  · rename_i hst
    injection h with h; subst h
    refine ⟨.hsRsp, rfl, ?_, ?_, .inl ⟨hst, rfl⟩⟩
    · rw [hst]; rfl
    · intro y hy; rw [hst]; cases y <;> first | rfl | exact absurd rfl hy
  · rename_i hst
    injection h with h; subst h
    refine ⟨.dataRsp, rfl, ?_, ?_, .inr ⟨hst, rfl⟩⟩
    · rw [hst]; rfl
    · intro y hy; rw [hst]; cases y <;> first | rfl | exact absurd rfl hy
  · cases h

theorem next_fields (s : Session) : (s.nextReq.id = s.id ∧ s.nextReq.type = s.type ∧ s.nextReq.keySize = s.keySize ∧ s.nextReq.ivSize = s.ivSize ∧
      s.nextReq.tagSize = s.tagSize ∧ s.nextReq.state = s.state ∧ s.nextReq.hsReq.key = s.hsReq.key ∧ s.nextReq.hsRsp.key = s.hsRsp.key ∧
      s.nextReq.dataReq.key = s.dataReq.key ∧ s.nextReq.dataRsp.key = s.dataRsp.key) ∧
    (s.nextRsp.id = s.id ∧ s.nextRsp.type = s.type ∧ s.nextRsp.keySize = s.keySize ∧ s.nextRsp.ivSize = s.ivSize ∧
      s.nextRsp.tagSize = s.tagSize ∧ s.nextRsp.state = s.state ∧ s.nextRsp.hsReq.key = s.hsReq.key ∧ s.nextRsp.hsRsp.key = s.hsRsp.key ∧
      s.nextRsp.dataReq.key = s.dataReq.key ∧ s.nextRsp.dataRsp.key = s.dataRsp.key) := by
  unfold Session.nextReq Session.nextRsp
  constructor <;> split <;> simp_all

theorem Live.same {s s' : Session} {L : List Bytes} {ph : Nat → Phase} (h : s.Live L ph)
    (e : s'.id = s.id ∧ s'.type = s.type ∧ s'.keySize = s.keySize ∧ s'.ivSize = s.ivSize ∧ s'.tagSize = s.tagSize ∧ s'.state = s.state ∧
      s'.hsReq.key = s.hsReq.key ∧ s'.hsRsp.key = s.hsRsp.key ∧ s'.dataReq.key = s.dataReq.key ∧ s'.dataRsp.key = s.dataRsp.key) : s'.Live L ph := by
  obtain ⟨e1, e2, e3, e4, e5, e6, e7, e8, e9, e10⟩ := e
  exact ⟨by rw [e2]; exact h.type, by rw [e3]; exact h.key, by rw [e4]; exact h.iv, by rw [e5]; exact h.tag,
    by rw [e1, e6, e7, e8, e9, e10]; exact h.state⟩

theorem live_slot {s : Session} {L : List Bytes} {ph : Nat → Phase} (h : s.Live L ph) {x : Slot}
    (hx : s.state = .handshaking ∧ (x = .hsReq ∨ x = .hsRsp) ∨ s.state = .established ∧ (x = .dataReq ∨ x = .dataRsp)) : (s.slot x).key ∈ L := by
  rcases h.state with ⟨a, b, c, _⟩ | ⟨a, b, c, _⟩ <;> rcases hx with ⟨d, e⟩ | ⟨d, e⟩ <;> rw [a] at d <;> first | cases d | skip
  · rcases e with rfl | rfl <;> assumption
  · rcases e with rfl | rfl <;> assumption

/-- One call of the engine, or none, with the next number. -/
theorem Inv.step {m : Mgr} {L : List Bytes} {U : List Use} {ph : Nat → Phase} (h : Inv m L U ph) {i : Nat} {s' : Session} {k : Keys} {u : Option Use} {x : Slot}
    (h0 : (m.at_ i).id ≠ 0) (hseq : k.seq < 2 ^ 64) (hk : k = (m.at_ i).slot x) (h1 : s'.slot x = { k with seq := k.seq + 1 })
    (h2 : ∀ y, y ≠ x → s'.slot y = (m.at_ i).slot y)
    (hx : (m.at_ i).state = .handshaking ∧ (x = .hsReq ∨ x = .hsRsp) ∨ (m.at_ i).state = .established ∧ (x = .dataReq ∨ x = .dataRsp))
    (hs : s'.Live L ph) (hid : s'.id = (m.at_ i).id)
    (hu : u = none ∨ ∃ iv, generateIv k.seq k.salt (m.at_ i).ivSize = some iv ∧ u = some ⟨k.key.take (m.at_ i).keySize, iv.take (m.at_ i).ivSize⟩) :
    Inv (m.set i s') L (U ++ u.toList) ph := by
  have hl := at_lt h0
  have hlive := h.live i h0
  have hin : (m.slots (i, x)).key ∈ L := live_slot hlive hx
  have e0 : (m.set i s').slots (i, x) = { m.slots (i, x) with seq := (m.slots (i, x)).seq + 1 } := by
    rw [slots_set hl, if_pos rfl, h1, hk]; rfl
  have e1 : ∀ p, p ≠ (i, x) → (m.set i s').slots p = m.slots p := by
    intro ⟨j, y⟩ hp
    rw [slots_set hl]
    split
    · rename_i e; subst e
      rw [h2 y (fun e => hp (by rw [e]))]; rfl
    · rfl
  have hksz : k.Sized := by rw [hk]; exact h.keys.sized (i, x)
  rcases hu with rfl | ⟨iv, hiv, rfl⟩
  · simp only [Option.toList, List.append_nil]
    exact h.set h0 hid (h.keys.bump (i, x) hin e0 e1) (fun _ x => x) hs
  · rw [hlive.iv, generateIv_eq hksz.2 hseq] at hiv
    injection hiv with hiv
    have e2 : k.key.take (m.at_ i).keySize = k.key := by rw [hlive.key]; exact List.take_of_length_le (by rw [hksz.1]; omega)
    have e3 : iv.take (m.at_ i).ivSize = iv := by rw [hlive.iv]; exact List.take_of_length_le (by rw [← hiv, ivFor_length hksz.2]; omega)
    rw [e2, e3, ← hiv]
    have := h.keys.use (i, x) hin (by show ((m.at_ i).slot x).seq < _; rw [← hk]; exact hseq) e0 e1
    have e4 : m.slots (i, x) = k := hk.symm
    rw [e4] at this
    exact h.set h0 hid this (fun _ x => x) hs

end Verif.Spdm
