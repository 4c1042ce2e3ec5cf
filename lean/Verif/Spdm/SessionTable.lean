import Verif.Spdm.SessionShape
/-! The table of secured sessions, and where the secured messages go wrong. -/
namespace Verif.Spdm
open Verif.CmdMsg (Msg)

theorem set_rest {α : Type} : ∀ {l : List α} {i : Nat} {a : α}, l[i]? = some a → ∃ r, l.Perm (a :: r) ∧ ∀ b, (l.set i b).Perm (b :: r)
  | [], _, _, h => by simp at h
  | x :: l, 0, a, h => by
    simp at h; subst h
    exact ⟨l, .refl _, fun b => .refl _⟩
  | x :: l, i + 1, a, h => by
    rw [List.getElem?_cons_succ] at h
    obtain ⟨r, h1, h2⟩ := set_rest h
    refine ⟨x :: r, (h1.cons x).trans (.swap ..), fun b => ?_⟩
    rw [List.set_cons_succ]
    exact ((h2 b).cons x).trans (.swap ..)

theorem ids_set {m : Mgr} {i : Nat} (s : Session) (h : i < m.sessions.length) :
    ∃ r, m.ids.Perm ([(m.at_ i).id].filter (· ≠ 0) ++ r) ∧ (m.set i s).ids.Perm ([s.id].filter (· ≠ 0) ++ r) := by
  have hi : (m.sessions.map (·.id))[i]? = some (m.at_ i).id := by
    unfold Mgr.at_; simp [List.getD, h]
  obtain ⟨r, h1, h2⟩ := set_rest hi
  refine ⟨r.filter (· ≠ 0), ?_, ?_⟩
  · have := h1.filter (fun x => decide (x ≠ 0))
    rw [show (m.at_ i).id :: r = [(m.at_ i).id] ++ r from rfl, List.filter_append] at this
    exact this
  · have := (h2 s.id).filter (fun x => decide (x ≠ 0))
    rw [show s.id :: r = [s.id] ++ r from rfl, List.filter_append] at this
    unfold Mgr.ids Mgr.set
    simp only [List.map_set]
    exact this

theorem ids_set_same {m : Mgr} {i : Nat} {s : Session} (h : i < m.sessions.length) (hs : s.id = (m.at_ i).id) : (m.set i s).ids.Perm m.ids := by
  obtain ⟨r, h1, h2⟩ := ids_set s h
  rw [hs] at h2
  exact h2.trans h1.symm

theorem Ok.of_perm {m m' : Mgr} (h : m.Ok) (hp : m'.ids.Perm m.ids) (hc : m'.count = m.count) (hl : m'.sessions.length = m.sessions.length) : m'.Ok :=
  ⟨hp.nodup_iff.mpr h.nodup, by rw [hc, h.count, hp.length_eq], by rw [hl]; exact h.small⟩

theorem set_len (m : Mgr) (i : Nat) (s : Session) : (m.set i s).sessions.length = m.sessions.length := by
  unfold Mgr.set; simp

theorem at_get {m : Mgr} {i : Nat} (h : i < m.sessions.length) : m.sessions[i] = m.at_ i := by
  unfold Mgr.at_; simp [List.getD, h]

theorem free_exists {m : Mgr} (h : m.ids.length < m.sessions.length) : ∃ s ∈ m.sessions, s.id = 0 := by
  unfold Mgr.ids at h
  by_cases hx : ∃ s ∈ m.sessions, s.id = 0
  · exact hx
  · exfalso
    have : (m.sessions.map (·.id)).filter (· ≠ 0) = m.sessions.map (·.id) := by
      rw [List.filter_eq_self]
      intro a ha
      obtain ⟨s, hs, rfl⟩ := List.mem_map.mp ha
      simpa using fun h => hx ⟨s, hs, h⟩
    rw [this, List.length_map] at h
    omega

theorem mem_ids {m : Mgr} {id : Nat} : id ∈ m.ids ↔ id ≠ 0 ∧ ∃ s ∈ m.sessions, s.id = id := by
  unfold Mgr.ids
  rw [List.mem_filter, List.mem_map]
  simp only [decide_eq_true_eq]
  exact And.comm

/-- A session is made exactly if its identifier is not 0 and not in use, and there is a free place. -/
theorem create_iff {m : Mgr} (h : m.Ok) (id : Nat) (new : Session) :
    (createSession m id new).isSome = true ↔ id ≠ 0 ∧ id ∉ m.ids ∧ m.ids.length < m.sessions.length := by
  unfold createSession
  split
  · simp_all
  · rename_i h0
    split
    · rename_i hc
      rw [h.count] at hc
      constructor
      · intro h; cases h
      · intro ⟨_, _, h⟩; omega
    · rename_i hc
      rw [h.count] at hc
      split
      · rename_i ha
        constructor
        · intro h; cases h
        · intro ⟨_, hn, _⟩
          rw [List.any_eq_true] at ha
          obtain ⟨s, hs, hid⟩ := ha
          exact absurd (mem_ids.mpr ⟨h0, s, hs, by simpa using hid⟩) hn
      · rename_i ha
        obtain ⟨s, hs, hz⟩ := free_exists (by omega : m.ids.length < m.sessions.length)
        have hsome : (m.sessions.findIdx? (fun s => decide (s.id = 0))).isSome = true := by
          rw [List.findIdx?_isSome, List.any_eq_true]
          exact ⟨s, hs, by simpa using hz⟩
        split
        · rename_i hf; rw [hf] at hsome; cases hsome
        · constructor
          · intro _
            refine ⟨h0, fun hm => ?_, by omega⟩
            obtain ⟨_, s, hs, hid⟩ := mem_ids.mp hm
            exact ha (List.any_eq_true.mpr ⟨s, hs, by simpa using hid⟩)
          · intro _; rfl

theorem create_at {m m' : Mgr} {id i : Nat} {new : Session} (h : createSession m id new = some (i, m')) :
    id ≠ 0 ∧ i < m.sessions.length ∧ (m.at_ i).id = 0 ∧ (∀ s ∈ m.sessions, s.id ≠ id) ∧
      m' = { (m.set i { Session.zero with id := id, index := i, type := new.type, keySize := new.keySize, ivSize := new.ivSize, tagSize := new.tagSize })
              with count := m.count + 1 } := by
  unfold createSession at h
  split at h
  · cases h
  · rename_i h0
    split at h
    · cases h
    · split at h
      · cases h
      · rename_i ha
        split at h
        · cases h
        · rename_i j hf
          injection h with h; injection h with h1 h2
          subst h1
          rw [List.findIdx?_eq_some_iff_getElem] at hf
          obtain ⟨hl, hz, _⟩ := hf
          refine ⟨h0, hl, ?_, ?_, h2.symm⟩
          · rw [← at_get hl]; simpa using hz
          · intro s hs hid
            exact ha (List.any_eq_true.mpr ⟨s, hs, by simpa using hid⟩)

/-- A new session: one more identifier, the other sessions as before. -/
theorem create_ok {m m' : Mgr} (h : m.Ok) {id i : Nat} {new : Session} (hc : createSession m id new = some (i, m')) :
    m'.Ok ∧ m'.ids.Perm (id :: m.ids) ∧ (m'.at_ i).id = id ∧ (m'.at_ i).state = .notStarted ∧ ∀ j, j ≠ i → m'.at_ j = m.at_ j := by
  have hsome := (create_iff h id new).mp (by rw [hc]; rfl)
  obtain ⟨h0, hl, hz, hne, rfl⟩ := create_at hc
  obtain ⟨r, h1, h2⟩ := ids_set (m := m) (i := i)
    { Session.zero with id := id, index := i, type := new.type, keySize := new.keySize, ivSize := new.ivSize, tagSize := new.tagSize } hl
  rw [hz] at h1
  rw [show [0].filter (fun x : Nat => decide (x ≠ 0)) = [] from rfl, List.nil_append] at h1
  rw [show List.filter (fun x : Nat => decide (x ≠ 0)) [id] = [id] by simp [h0], List.singleton_append] at h2
  have hp := h2.trans (h1.symm.cons id)
  refine ⟨⟨?_, ?_, ?_⟩, hp, ?_, ?_, fun j hj => at_set_ne m i j _ hj⟩
  · exact hp.nodup_iff.mpr (List.nodup_cons.mpr ⟨hsome.2.1, h.nodup⟩)
  · show m.count + 1 = _
    rw [h.count]
    exact (by simpa using hp.length_eq.symm : m.ids.length + 1 = _)
  · exact (set_len ..).symm ▸ h.small
  · exact congrArg Session.id (at_set m i _ hl)
  · exact congrArg Session.state (at_set m i _ hl)

/-- The end of a session: its identifier is free, its keys are gone, the other sessions are as before. -/
theorem release_ok {m : Mgr} (h : m.Ok) (id : Nat) : (releaseSession m id).Ok ∧ (releaseSession m id).ids.Perm (m.ids.erase id) ∧
    ∀ j, (m.at_ j).id ≠ id → (releaseSession m id).at_ j = m.at_ j := by
  unfold releaseSession
  split
  · rename_i hf
    refine ⟨h, ?_, fun _ _ => rfl⟩
    rw [List.erase_of_not_mem]
    intro hm
    obtain ⟨h0, s, hs, hid⟩ := mem_ids.mp hm
    unfold findSession at hf
    rw [if_neg h0, List.findIdx?_eq_none_iff] at hf
    have := hf s hs
    simp [hid] at this
  · rename_i i hf
    obtain ⟨h0, hl, hid⟩ := find_some hf
    obtain ⟨r, h1, h2⟩ := ids_set (m := m) (i := i) .zero hl
    rw [hid, show List.filter (fun x : Nat => decide (x ≠ 0)) [id] = [id] by simp [h0], List.singleton_append] at h1
    rw [show [Session.zero.id].filter (fun x : Nat => decide (x ≠ 0)) = [] from rfl, List.nil_append] at h2
    have he : (m.ids.erase id).Perm r := by
      have := h1.erase id
      rwa [List.erase_cons_head] at this
    have hlen := h1.length_eq
    rw [List.length_cons] at hlen
    have hsm := h.small
    have hle : m.ids.length ≤ m.sessions.length := by
      have := List.length_filter_le (fun x : Nat => decide (x ≠ 0)) (m.sessions.map (·.id))
      rwa [List.length_map] at this
    have e1 : ∀ n, ({ (m.set i .zero) with count := n } : Mgr).ids = (m.set i .zero).ids := fun _ => rfl
    have e2 : ∀ n j, ({ (m.set i .zero) with count := n } : Mgr).at_ j = (m.set i .zero).at_ j := fun _ _ => rfl
    have hcount : (m.count + (2 ^ 32 - 1)) % 2 ^ 32 = r.length := by rw [h.count]; omega
    rw [hcount]
    refine ⟨⟨?_, ?_, ?_⟩, ?_, fun j hj => ?_⟩
    · rw [e1]; exact h2.nodup_iff.mpr (List.nodup_cons.mp (h1.nodup_iff.mp h.nodup)).2
    · rw [e1]; exact h2.length_eq.symm
    · show (m.set i .zero).sessions.length < _
      rw [set_len]; exact hsm
    · rw [e1]; exact h2.trans he.symm
    · exact at_set_ne m i j _ (by rintro rfl; exact hj hid)

theorem setState_ok {m : Mgr} (h : m.Ok) (id : Nat) (st : SState) : (setState m id st).Ok ∧ (setState m id st).ids.Perm m.ids ∧
    ∀ j, (m.at_ j).id ≠ id → (setState m id st).at_ j = m.at_ j := by
  unfold setState
  split
  · exact ⟨h, .refl _, fun _ _ => rfl⟩
  · rename_i i hf
    obtain ⟨h0, hl, hid⟩ := find_some hf
    simp only []
    split
    · have hp : ∀ s : Session, s.id = (m.at_ i).id → (m.set i s).Ok ∧ (m.set i s).ids.Perm m.ids ∧ ∀ j, (m.at_ j).id ≠ id → (m.set i s).at_ j = m.at_ j := by
        intro s hs
        have := ids_set_same hl hs
        exact ⟨Ok.of_perm h this rfl (set_len ..), this, fun j hj => at_set_ne m i j _ (by rintro rfl; exact hj hid)⟩
      split <;> exact hp _ rfl
    · exact ⟨h, .refl _, fun _ _ => rfl⟩

theorem nextReq_id (s : Session) : s.nextReq.id = s.id := by unfold Session.nextReq; split <;> rfl
theorem nextRsp_id (s : Session) : s.nextRsp.id = s.id := by unfold Session.nextRsp; split <;> rfl

/-- Whatever message arrives, the table stays in order and no session comes or goes. -/
theorem decode_table (c : SCfg) (hc : c.aead.Correct) (m m' : Mgr) (hm : m.Ok) (q q' : Msg) (f : SFault) (r : Except SErr Unit) (u : Option Use)
    (h : decodeMessage c m q f = some (r, m', q', u)) : m'.Ok ∧ m'.ids.Perm m.ids := by
  rcases (decode_effect hc h).cases_ with ⟨_, _, rfl⟩ | ⟨i, k, hi, _, _, _, hx, _⟩
  · exact ⟨Ok.of_perm hm (.refl _) rfl rfl, .refl _⟩
  · have hp := ids_set_same (find_some hi).2.1 (nextReq_id (m.at_ i))
    have : ∀ a b, ({ (m.set i (m.at_ i).nextReq) with lastId := a, lastValid := b } : Mgr).Ok ∧
        ({ (m.set i (m.at_ i).nextReq) with lastId := a, lastValid := b } : Mgr).ids.Perm m.ids :=
      fun a b => ⟨Ok.of_perm hm hp rfl (set_len ..), hp⟩
    rcases hx with ⟨rfl, _⟩ | rfl <;> exact this _ _

theorem not_some {r : Except SErr Unit} (h : r ≠ .ok ()) : ¬ r.toOption.isSome = true := by
  cases r with
  | error e => exact fun h => nomatch h
  | ok v => exact absurd rfl h

/-- An answer ends its session if it is the answer to an end of session that left, and else no session comes or goes. -/
theorem encode_table (c : SCfg) (m m' : Mgr) (hm : m.Ok) (q q' : Msg) (f : SFault) (r : Except SErr Unit) (u : Option Use) (notes : List Note)
    (h : encodeMessage c m q f = some (r, m', q', u, notes)) :
    m'.Ok ∧ if r.toOption.isSome = true ∧ q.buf.getD (q.off + 1) 0 = 0x6c then m'.ids.Perm (m.ids.erase m.lastId) ∧ notes = [.closed m.lastId] else m'.ids.Perm m.ids := by
  rcases encode_effect h with ⟨hr, _, rfl, _⟩ | ⟨i, k, hv, hi, _, _, _, hx⟩
  · refine ⟨hm, ?_⟩
    rw [if_neg (fun x => not_some hr x.1)]
  · obtain ⟨_, hl, hid⟩ := find_some hi
    have hp := ids_set_same hl (nextRsp_id (m.at_ i))
    have hok : (m.set i (m.at_ i).nextRsp).Ok := Ok.of_perm hm hp rfl (set_len ..)
    rcases hx with ⟨hr, rfl, _⟩ | ⟨hr, _, _, hx⟩
    · exact ⟨hok, by rw [if_neg (fun x => not_some hr x.1)]; exact hp⟩
    · unfold afterEncode at hx
      split at hx
      · rename_i hcode
        injection hx with h1 h2
        subst h1; subst h2
        obtain ⟨g1, g2, _⟩ := setState_ok hok (m.at_ i).id .established
        refine ⟨g1, ?_⟩
        rw [if_neg (fun x => absurd (hcode.symm.trans x.2) (by decide))]
        exact g2.trans hp
      · split at hx
        · rename_i hcode
          injection hx with h1 h2
          subst h1; subst h2
          obtain ⟨g1, g2, _⟩ := release_ok hok (m.at_ i).id
          refine ⟨g1, ?_⟩
          rw [if_pos ⟨by rw [hr]; rfl, hcode⟩, ← hid]
          exact ⟨g2.trans (hp.erase _), rfl⟩
        · rename_i hcode
          injection hx with h1 h2
          subst h1; subst h2
          exact ⟨hok, by rw [if_neg (fun x => hcode x.2)]; exact hp⟩

/-- When a reset of the platform ends the sessions: if every established session asked for it. -/
theorem termination_policy (m : Mgr) : terminationPolicySet m = true ↔
    ∀ s ∈ m.sessions, s.id ≠ 0 → s.state = .established → s.policy ≠ 0 := by
  unfold terminationPolicySet
  rw [Bool.not_eq_true', List.any_eq_false]
  simp

/-! ### Examples -/

/-- A toy engine: the tag repeats the IV and sums of key, header and text. -/
def toyAead16 : Aead where
  seal_ := fun key iv aad p => (p, (iv ++ List.replicate 12 0).take 12 ++ [key.sum, aad.sum, p.sum, 0])
  open_ := fun key iv aad ct t => if t = (iv ++ List.replicate 12 0).take 12 ++ [key.sum, aad.sum, ct.sum, 0] then some ct else none

theorem toyAead16_correct : toyAead16.Correct where
  cipher _ _ _ _ := rfl
  tag key iv aad p := by
    show ((iv ++ List.replicate 12 0).take 12 ++ _).length = 16
    rw [List.length_append, List.length_take, List.length_append, List.length_replicate]
    simp only [List.length_cons, List.length_nil]; omega
  opens key iv aad p := if_pos rfl
  sized key iv aad ct t p h := by
    simp only [toyAead16] at h
    split at h
    · injection h with h; rw [h]
    · cases h

def toyS : SCfg := ⟨toyAead16, 2 ^ 64 - 1⟩
def toyKeys (x : UInt8) (n : Nat) : Keys := ⟨List.replicate 32 x, List.replicate 12 x, n⟩
def toySession : Session := ⟨0x00020001, 0, .established, .encMac, 32, 12, 16, .zero, .zero, toyKeys 3 5, toyKeys 4 7, false, 0⟩
def toyMgr : Mgr := ⟨[toySession, .zero, .zero, .zero], 1, 0, false⟩
def toyMsg (b : Bytes) : Msg := ⟨[0xaa, 0xbb] ++ b ++ List.replicate 16 0, b.length + 2, 100, 2, b.length⟩

example : toyMgr.Ok := ⟨by decide, by decide, by decide⟩
theorem toy_normal : toySession.Normal := ⟨rfl, rfl, rfl, rfl, by unfold Keys.Sized; decide⟩
example : ∀ s ∈ toyMgr.sessions, s.id ≠ 0 → s.Normal := by
  intro s hs h0
  simp [toyMgr] at hs
  rcases hs with rfl | rfl
  · exact toy_normal
  · exact absurd rfl h0
example : (createSession toyMgr 0x00030002 toySession).isSome = true := by decide

/-- A request, sealed by the other side, and accepted. -/
def toyRequest : Msg := toyMsg (sealedMessage toyAead16 0x00020001 (List.replicate 32 3) (ivFor (List.replicate 12 3) 5) [0x12, 0xe0, 1, 2])
example : ∃ q', decodeMessage toyS toyMgr toyRequest .none =
    some (.ok (), { (toyMgr.set 0 toySession.nextReq) with lastId := 0x00020001, lastValid := true }, q',
      some ⟨List.replicate 32 3, ivFor (List.replicate 12 3) 5⟩) ∧ payloadOf q' = [0x12, 0xe0, 1, 2] := by
  obtain ⟨q', h1, h2, _⟩ := decode_sealed toyS toyAead16_correct (by decide) toyMgr 0 (toyKeys 3 5) toyRequest [0x12, 0xe0, 1, 2]
    (by decide) toy_normal (by decide) rfl (by decide) (by decide_cbv) (by decide_cbv) (by decide)
  exact ⟨q', h1, h2⟩

/-- An answer, sealed for the other side. -/
example : ∃ q', encodeMessage toyS { toyMgr with lastId := 0x00020001, lastValid := true } ⟨List.replicate 10 0 ++ [0x12, 0x60, 7, 8] ++ List.replicate 16 0, 14, 100, 10, 4⟩
      .none = some (.ok (), { (toyMgr.set 0 toySession.nextRsp) with lastId := 0x00020001, lastValid := true }, q',
        some ⟨List.replicate 32 4, ivFor (List.replicate 12 4) 7⟩, []) ∧
    payloadOf q' = sealedMessage toyAead16 0x00020001 (List.replicate 32 4) (ivFor (List.replicate 12 4) 7) [0x12, 0x60, 7, 8] := by
  obtain ⟨q', h1, h2, _⟩ := encode_sealed toyS toyAead16_correct (by decide) { toyMgr with lastId := 0x00020001, lastValid := true } 0 (toyKeys 4 7)
    ⟨List.replicate 10 0 ++ [0x12, 0x60, 7, 8] ++ List.replicate 16 0, 14, 100, 10, 4⟩
    rfl (by decide) toy_normal rfl (by decide) (by decide) (by decide) (by decide) (by decide) (by decide)
  exact ⟨q', h1, h2⟩

/-! ### What is wrong -/

/-- The length of the data may be that of the whole text: the two bytes of the length itself are not taken into account, and bytes behind the
text are handed on (spdm_secure_session_manager.c:949). Here the sealed text has four bytes and names four bytes of data; the last two
bytes of the data are the first two bytes of the tag. -/
theorem length_not_checked :
    let hdr : Bytes := toLE 4 0x00020001 ++ toLE 2 20
    let iv := ivFor (List.replicate 12 3) 5
    let sealed := toyAead16.seal_ (List.replicate 32 3) iv hdr [4, 0, 0x12, 0xe0]
    let q := toyMsg (hdr ++ sealed.1 ++ sealed.2)
    (decodeMessage toyS toyMgr q .none).map (fun r => (r.1.toOption.isSome, payloadOf r.2.2.1)) = some (true, [0x12, 0xe0] ++ sealed.2.take 2) := by
  decide_cbv

/-- A message that was not made by the other side takes a number, so the next real message is refused (spdm_secure_session_manager.c:1043-1048), and
it marks the session as the current one (1050-1063). -/
theorem forged_takes_number :
    let forged := toyMsg (toLE 4 0x00020001 ++ toLE 2 20 ++ List.replicate 20 0)
    ((decodeMessage toyS toyMgr forged .none).bind fun r => (decodeMessage toyS r.2.1 toyRequest .none).map fun r' =>
      (r.1.toOption.isSome, r.2.1.lastValid, r.2.1.lastId, r'.1.toOption.isSome)) = some (false, true, 0x00020001, false) := by
  decide_cbv

/-- The room for the answer is compared with the largest answer, not with the room behind the outer headers (spdm_secure_session_manager.c:1127):
the tag can end behind the buffer. Here 40 bytes are allowed and the buffer has 40 bytes, of which 2 are in front. -/
theorem answer_past_buffer :
    let q : Msg := ⟨List.replicate 40 0, 26, 40, 10, 16⟩
    encodeMessage toyS { toyMgr with lastId := 0x00020001, lastValid := true } q .none = none := by
  decide_cbv

end Verif.Spdm
