import Verif.Spdm.FlowKeys
namespace Verif.Spdm
open Verif.CmdMsg (Msg removeHeader addHeader setPayloadLength)
open Verif.Pcisig (put)

/-- The phases behind events. -/
def after : (Nat → Phase) → List Ev → (Nat → Phase)
  | ph, [] => ph
  | ph, .begun id :: t => after (phaseSet ph id .begun) t
  | ph, .proved id :: t => after (phaseSet ph id .proved) t
  | ph, .served _ :: t => after ph t
  | ph, .ended id :: t => after (phaseSet ph id .absent) t
  | _, .reset :: t => after (fun _ => .absent) t

theorem lawful_append : ∀ {ph : Nat → Phase} {a b : List Ev}, Lawful ph a → Lawful (after ph a) b → Lawful ph (a ++ b)
  | _, [], _, _, h => h
  | _, .begun _ :: _, _, h1, h2 => ⟨h1.1, lawful_append h1.2 h2⟩
  | _, .proved _ :: _, _, h1, h2 => ⟨h1.1, lawful_append h1.2 h2⟩
  | _, .served _ :: _, _, h1, h2 => ⟨h1.1, lawful_append h1.2 h2⟩
  | _, .ended _ :: _, _, h1, h2 => ⟨h1.1, lawful_append h1.2 h2⟩
  | _, .reset :: t, _, h1, h2 => lawful_append (a := t) (show Lawful _ t from h1) h2

theorem after_append : ∀ (ph : Nat → Phase) (a b : List Ev), after ph (a ++ b) = after (after ph a) b
  | _, [], _ => rfl
  | _, .begun _ :: a, b => after_append _ a b
  | _, .proved _ :: a, b => after_append _ a b
  | _, .served _ :: a, b => after_append _ a b
  | _, .ended _ :: a, b => after_append _ a b
  | _, .reset :: a, b => after_append _ a b

theorem Inv.decode {c : SCfg} (hc : c.aead.Correct) (hmax : c.maxSeq ≤ 2 ^ 64) {m m' : Mgr} {L : List Bytes} {U : List Use} {ph : Nat → Phase} (h : Inv m L U ph)
    {q q' : Msg} {f : SFault} {r : Except SErr Unit} {u : Option Use} (hd : decodeMessage c m q f = some (r, m', q', u)) : Inv m' L (U ++ u.toList) ph := by
  rcases (decode_effect hc hd).cases_ with ⟨_, rfl, rfl⟩ | ⟨i, k, hi, hk, hseq, hu, hm, _⟩
  · rw [Option.toList, List.append_nil]; exact h.last 0 false
  · obtain ⟨h0, hl, hid⟩ := find_some hi
    have h0' : (m.at_ i).id ≠ 0 := by rw [hid]; exact h0
    obtain ⟨x, e1, e2, e3, e4⟩ := reqSlot hk
    have := h.step (s' := (m.at_ i).nextReq) h0' (by omega) e1 e2 e3
      (e4.imp (fun ⟨a, b⟩ => ⟨a, .inl b⟩) (fun ⟨a, b⟩ => ⟨a, .inl b⟩))
      (Live.same (h.live i h0') (next_fields (m.at_ i)).1) (next_fields (m.at_ i)).1.1 hu
    rcases hm with ⟨rfl, _⟩ | rfl <;> exact this.last _ _

/-- The codes of the answers that change sessions come only where they should. -/
def ReplyOk (m : Mgr) (q : Msg) (L : List Bytes) (ph : Nat → Phase) : Prop :=
  ∀ i, m.lastValid = true → findSession m m.lastId = some i →
    (q.buf.getD (q.off + 1) 0 = 0x65 → (m.at_ i).dataReq.key ∈ L ∧ (m.at_ i).dataRsp.key ∈ L ∧ ph m.lastId = .proved) ∧
    (q.buf.getD (q.off + 1) 0 = 0x6c → ph m.lastId = .proved)

theorem find_at {m : Mgr} (h : m.Ok) {i : Nat} (h0 : (m.at_ i).id ≠ 0) : findSession m (m.at_ i).id = some i := by
  obtain ⟨j, hj⟩ := find_of_mem (mem_ids_at h0)
  rw [hj, h.unique h0 (find_some hj).2.2.symm]

theorem Inv.establish {m : Mgr} {L : List Bytes} {U : List Use} {ph : Nat → Phase} (h : Inv m L U ph) {i : Nat} (h0 : (m.at_ i).id ≠ 0)
    (h1 : (m.at_ i).dataReq.key ∈ L) (h2 : (m.at_ i).dataRsp.key ∈ L) (h3 : ph (m.at_ i).id = .proved) : Inv (setState m (m.at_ i).id .established) L U ph := by
  have hl := at_lt h0
  unfold setState
  rw [find_at h.ok h0]
  simp only []
  split
  · rw [if_pos trivial]
    have hlive := h.live i h0
    refine h.set h0 rfl ?_ (fun _ x => x) ⟨hlive.type, hlive.key, hlive.iv, hlive.tag, .inr ⟨rfl, h1, h2, h3⟩⟩
    refine h.keys.zap (fun ⟨j, y⟩ => ?_)
    rw [slots_set hl]
    split
    · rename_i e; subst e
      cases y
      · exact .inr rfl
      · exact .inr rfl
      · exact .inl rfl
      · exact .inl rfl
    · exact .inl rfl
  · exact h

theorem count_at (m : Mgr) (n j : Nat) : ({ m with count := n } : Mgr).at_ j = m.at_ j := rfl

theorem release_at {m : Mgr} {id i : Nat} (hf : findSession m id = some i) (j : Nat) : (releaseSession m id).at_ j = (m.set i .zero).at_ j := by
  unfold releaseSession
  rw [hf]
  simp only []
  generalize (m.count + (2 ^ 32 - 1)) % 2 ^ 32 = n
  exact count_at _ _ _

theorem Inv.release {m : Mgr} {L : List Bytes} {U : List Use} {ph : Nat → Phase} (h : Inv m L U ph) {i : Nat} (h0 : (m.at_ i).id ≠ 0) :
    Inv (releaseSession m (m.at_ i).id) L U (phaseSet ph (m.at_ i).id .absent) := by
  have hl := at_lt h0
  obtain ⟨g1, g2, _⟩ := release_ok h.ok (m.at_ i).id
  have e : ∀ j, (releaseSession m (m.at_ i).id).at_ j = (m.set i .zero).at_ j := by
    intro j; exact release_at (find_at h.ok h0) j
  refine ⟨g1, ?_, fun j hj => ?_, fun id hn => ?_⟩
  · refine h.keys.zap (fun ⟨j, y⟩ => ?_)
    show ((releaseSession m (m.at_ i).id).at_ j).slot y = _ ∨ ((releaseSession m (m.at_ i).id).at_ j).slot y = _
    rw [e]
    show (m.set i .zero).slots (j, y) = _ ∨ (m.set i .zero).slots (j, y) = _
    rw [slots_set hl]
    split
    · exact .inr (by cases y <;> rfl)
    · exact .inl rfl
  · rw [e] at hj ⊢
    by_cases ej : j = i
    · subst ej; rw [at_set _ _ _ hl] at hj; exact absurd rfl hj
    · rw [at_set_ne _ _ _ _ ej] at hj ⊢
      have hlive := h.live j hj
      have hne : (m.at_ j).id ≠ (m.at_ i).id := fun x => ej (h.ok.unique hj x)
      refine ⟨hlive.type, hlive.key, hlive.iv, hlive.tag, ?_⟩
      unfold phaseSet
      rw [if_neg hne]
      exact hlive.state
  · unfold phaseSet
    split
    · rfl
    · rename_i hne
      apply h.absent
      intro hm
      exact hn (g2.mem_iff.mpr (((h.ok.nodup).mem_erase_iff).mpr ⟨hne, hm⟩))

theorem Inv.encode {c : SCfg} (hmax : c.maxSeq ≤ 2 ^ 64) {m m' : Mgr} {L : List Bytes} {U : List Use} {ph : Nat → Phase} (h : Inv m L U ph)
    {q q' : Msg} {f : SFault} {r : Except SErr Unit} {u : Option Use} {notes : List Note} (hr : ReplyOk m q L ph)
    (hd : encodeMessage c m q f = some (r, m', q', u, notes)) :
    (r ≠ .ok () → noteEvents notes = []) ∧ Lawful ph (noteEvents notes) ∧ Inv m' L (U ++ u.toList) (after ph (noteEvents notes)) := by
  rcases encode_effect hd with ⟨_, rfl, rfl, rfl⟩ | ⟨i, k, hv, hi, hk, hseq, hu, hx⟩
  · rw [Option.toList, List.append_nil]; exact ⟨fun _ => rfl, trivial, h⟩
  · obtain ⟨h0, hl, hid⟩ := find_some hi
    have h0' : (m.at_ i).id ≠ 0 := by rw [hid]; exact h0
    obtain ⟨x, e1, e2, e3, e4⟩ := rspSlot hk
    have hs := h.step (s' := (m.at_ i).nextRsp) h0' (by omega) e1 e2 e3
      (e4.imp (fun ⟨a, b⟩ => ⟨a, .inr b⟩) (fun ⟨a, b⟩ => ⟨a, .inr b⟩))
      (Live.same (h.live i h0') (next_fields (m.at_ i)).2) (next_fields (m.at_ i)).2.1 hu
    rcases hx with ⟨hne, rfl, rfl⟩ | ⟨rfl, _, _, hx⟩
    · exact ⟨fun _ => rfl, trivial, hs⟩
    · have ha : (m.set i (m.at_ i).nextRsp).at_ i = (m.at_ i).nextRsp := at_set _ _ _ hl
      have hid2 : ((m.set i (m.at_ i).nextRsp).at_ i).id = (m.at_ i).id := by rw [ha]; exact (next_fields (m.at_ i)).2.1
      refine ⟨fun x => absurd rfl x, ?_⟩
      unfold afterEncode at hx
      split at hx
      · rename_i hcode
        injection hx with g1 g2
        subst g1; subst g2
        obtain ⟨a1, a2, a3⟩ := (hr i hv hi).1 hcode
        refine ⟨trivial, ?_⟩
        have := hs.establish (i := i) (by rw [hid2]; exact h0')
          (by rw [ha, (next_fields (m.at_ i)).2.2.2.2.2.2.2.2.2.1]; exact a1)
          (by rw [ha, (next_fields (m.at_ i)).2.2.2.2.2.2.2.2.2.2]; exact a2)
          (by rw [hid2, hid]; exact a3)
        rw [hid2] at this
        exact this
      · split at hx
        · rename_i hcode
          injection hx with g1 g2
          subst g1; subst g2
          have a1 := (hr i hv hi).2 hcode
          refine ⟨⟨by rw [hid]; exact a1, trivial⟩, ?_⟩
          have := hs.release (i := i) (by rw [hid2]; exact h0')
          rw [hid2] at this
          exact this
        · injection hx with g1 g2
          subst g1; subst g2
          exact ⟨trivial, hs⟩

/-- New keys. -/
structure Fresh (L : List Bytes) (ks : List Keys) : Prop where
  sized : ∀ k ∈ ks, k.Sized
  nonzero : ∀ k ∈ ks, k.key ≠ List.replicate 32 0
  fresh : ∀ k ∈ ks, k.key ∉ L
  nodup : (ks.map (·.key)).Nodup

theorem Inv.dropNew {m : Mgr} {L : List Bytes} {U : List Use} {ph : Nat → Phase} (h : Inv m L U ph) {i id : Nat} {m1 : Mgr} {new : Session}
    (hc : createSession m id new = some (i, m1)) : Inv (releaseSession m1 id) L U ph := by
  obtain ⟨o1, o2, o3, _, _⟩ := create_ok h.ok hc
  obtain ⟨h0, hl, hz, hne, hm1⟩ := create_at hc
  have hl1 : i < m1.sessions.length := by rw [hm1]; exact (set_len ..).symm ▸ hl
  have hf : findSession m1 id = some i := by rw [← o3]; exact find_at o1 (by rw [o3]; exact h0)
  obtain ⟨r1, r2, _⟩ := release_ok o1 id
  have e : ∀ j, (releaseSession m1 id).at_ j = if j = i then .zero else m.at_ j := by
    intro j
    rw [release_at hf]
    split
    · rename_i ej; subst ej; exact at_set _ _ _ hl1
    · rename_i ej
      rw [at_set_ne _ _ _ _ ej, hm1]
      exact at_set_ne m i j _ ej
  have hp : (releaseSession m1 id).ids.Perm m.ids := by
    refine r2.trans ?_
    have := o2.erase id
    rwa [List.erase_cons_head] at this
  refine ⟨r1, ?_, fun j hj => ?_, fun x hx => h.absent x (fun y => hx (hp.mem_iff.mpr y))⟩
  · refine h.keys.zap (fun ⟨j, y⟩ => ?_)
    show ((releaseSession m1 id).at_ j).slot y = _ ∨ ((releaseSession m1 id).at_ j).slot y = _
    rw [e]
    split
    · exact .inr (by cases y <;> rfl)
    · exact .inl rfl
  · rw [e] at hj ⊢
    split at hj
    · exact absurd rfl hj
    · rw [if_neg (by assumption)]; exact h.live j hj

theorem Inv.begin_ {m : Mgr} {L : List Bytes} {U : List Use} {ph : Nat → Phase} (h : Inv m L U ph) {i id : Nat} {m1 : Mgr} {new : Session}
    (hc : createSession m id new = some (i, m1)) (hn : new.type = .encMac ∧ new.keySize = 32 ∧ new.ivSize = 12 ∧ new.tagSize = 16)
    (kr kp : Keys) (hk : Fresh L [kr, kp]) (pol : Nat) :
    Inv (setState (m1.set i { m1.at_ i with hsReq := { kr with seq := 0 }, hsRsp := { kp with seq := 0 }, policy := pol }) id .handshaking)
      (L ++ [kr.key, kp.key]) U (phaseSet ph id .begun) ∧ ph id = .absent := by
  obtain ⟨o1, o2, o3, o4, o5⟩ := create_ok h.ok hc
  obtain ⟨h0, hl, hz, hne, hm1⟩ := create_at hc
  have hl1 : i < m1.sessions.length := by rw [hm1]; exact (set_len ..).symm ▸ hl
  have hs1 : m1.at_ i = { Session.zero with id := id, index := i, type := new.type, keySize := new.keySize, ivSize := new.ivSize, tagSize := new.tagSize } := by
    rw [hm1]; exact at_set m i _ hl
  generalize hs2 : ({ m1.at_ i with hsReq := { kr with seq := 0 }, hsRsp := { kp with seq := 0 }, policy := pol } : Session) = s2
  have hid2 : s2.id = id := by rw [← hs2, hs1]
  have hst2 : s2.state = .notStarted := by rw [← hs2, hs1]; rfl
  have hl2 : i < (m1.set i s2).sessions.length := by rw [set_len]; exact hl1
  have ha2 : (m1.set i s2).at_ i = s2 := at_set _ _ _ hl1
  have ok2 : (m1.set i s2).Ok := Ok.of_perm o1 (ids_set_same hl1 (by rw [hid2, o3])) rfl (set_len ..)
  have hf : findSession (m1.set i s2) id = some i := by
    have := find_at ok2 (i := i) (by rw [ha2, hid2]; exact h0)
    rwa [ha2, hid2] at this
  obtain ⟨t1, t2, _⟩ := setState_ok ok2 id .handshaking
  have e : setState (m1.set i s2) id .handshaking = (m1.set i s2).set i { s2 with state := .handshaking } := by
    unfold setState
    rw [hf]
    simp only [ha2]
    rw [if_pos (by rw [hst2]; decide), if_neg (by decide)]
  have hat : ∀ j, (setState (m1.set i s2) id .handshaking).at_ j = if j = i then { s2 with state := .handshaking } else m.at_ j := by
    intro j
    rw [e]
    split
    · rename_i ej; subst ej; exact at_set _ _ _ hl2
    · rename_i ej; rw [at_set_ne _ _ _ _ ej, at_set_ne _ _ _ _ ej, o5 j ej]
  have hids : (setState (m1.set i s2) id .handshaking).ids.Perm (id :: m.ids) :=
    (t2.trans (ids_set_same hl1 (by rw [hid2, o3]))).trans o2
  have habs : ph id = .absent := h.absent id (fun hm => by
    obtain ⟨_, s, hs, hsid⟩ := mem_ids.mp hm
    exact hne s hs hsid)
  have nd := hk.nodup
  simp only [List.map_cons, List.map_nil, List.nodup_cons, List.mem_cons, List.not_mem_nil, or_false, not_false_eq_true, List.nodup_nil, and_true] at nd
  refine ⟨⟨t1, ?_, fun j hj => ?_, fun x hx => ?_⟩, habs⟩
  · -- first zero the place, then install both keys
    let σ0 : Nat × Slot → Keys := fun p => if p.1 = i then .zero else m.slots p
    have k0 : KInv σ0 L U := h.keys.zap (fun p => by
      show (if p.1 = i then Keys.zero else m.slots p) = _ ∨ (if p.1 = i then Keys.zero else m.slots p) = _
      split
      · exact .inr rfl
      · exact .inl rfl)
    let σ1 : Nat × Slot → Keys := fun p => if p = (i, .hsReq) then { kr with seq := 0 } else σ0 p
    have k1 : KInv σ1 (L ++ [kr.key]) U := k0.install (i, .hsReq) kr (hk.sized kr (by simp)) (hk.nonzero kr (by simp)) (hk.fresh kr (by simp))
      (if_pos rfl) (fun p hp => if_neg hp)
    have k2 := k1.install (σ' := (setState (m1.set i s2) id .handshaking).slots) (i, .hsRsp) kp (hk.sized kp (by simp)) (hk.nonzero kp (by simp))
      (fun hm => by
        rcases List.mem_append.mp hm with hm | hm
        · exact hk.fresh kp (by simp) hm
        · exact nd (List.mem_singleton.mp hm).symm)
      (by show ((setState (m1.set i s2) id .handshaking).at_ i).slot .hsRsp = _
          rw [hat, if_pos rfl, ← hs2]; rfl)
      (fun ⟨j, y⟩ hp => by
        show ((setState (m1.set i s2) id .handshaking).at_ j).slot y = if (j, y) = (i, .hsReq) then { kr with seq := 0 } else if j = i then Keys.zero else m.slots (j, y)
        rw [hat]
        by_cases ej : j = i
        · subst ej
          rw [if_pos rfl]
          cases y
          · rw [if_pos rfl, ← hs2]; rfl
          · exact absurd rfl hp
          · rw [if_neg (by simp), if_pos rfl, ← hs2, hs1]; rfl
          · rw [if_neg (by simp), if_pos rfl, ← hs2, hs1]; rfl
        · rw [if_neg ej, if_neg (fun x => ej (congrArg Prod.fst x)), if_neg ej]; rfl)
    rw [List.append_assoc] at k2
    exact k2
  · rw [hat] at hj ⊢
    by_cases ej : j = i
    · rw [if_pos ej]
      refine ⟨?_, ?_, ?_, ?_, .inl ⟨rfl, ?_, ?_, ?_⟩⟩
      · rw [← hs2, hs1]; exact hn.1
      · rw [← hs2, hs1]; exact hn.2.1
      · rw [← hs2, hs1]; exact hn.2.2.1
      · rw [← hs2, hs1]; exact hn.2.2.2
      · rw [← hs2]; simp
      · rw [← hs2]; simp
      · show phaseSet ph id .begun s2.id ≠ .absent
        unfold phaseSet
        rw [if_pos hid2]; decide
    · rw [if_neg ej] at hj ⊢
      have hlive := h.live j hj
      have hx : (m.at_ j).id ≠ id := hne (m.at_ j) (by rw [← at_get (at_lt hj)]; exact List.getElem_mem _)
      refine ⟨hlive.type, hlive.key, hlive.iv, hlive.tag, ?_⟩
      unfold phaseSet
      rw [if_neg hx]
      exact hlive.state.imp (fun ⟨a, b, c, d⟩ => ⟨a, List.mem_append_left _ b, List.mem_append_left _ c, d⟩)
        (fun ⟨a, b, c, d⟩ => ⟨a, List.mem_append_left _ b, List.mem_append_left _ c, d⟩)
  · unfold phaseSet
    rw [if_neg (fun e => hx (hids.mem_iff.mpr (by rw [e]; simp)))]
    exact h.absent x (fun y => hx (hids.mem_iff.mpr (List.mem_cons_of_mem _ y)))

theorem Inv.phase {m : Mgr} {L : List Bytes} {U : List Use} {ph : Nat → Phase} (h : Inv m L U ph) {i : Nat} (h0 : (m.at_ i).id ≠ 0) :
    Inv m L U (phaseSet ph (m.at_ i).id .proved) := by
  refine ⟨h.ok, h.keys, fun j hj => ?_, fun id hn => ?_⟩
  · have hlive := h.live j hj
    refine ⟨hlive.type, hlive.key, hlive.iv, hlive.tag, ?_⟩
    unfold phaseSet
    split
    · exact hlive.state.imp (fun ⟨a, b, c, _⟩ => ⟨a, b, c, by decide⟩) (fun ⟨a, b, c, _⟩ => ⟨a, b, c, rfl⟩)
    · exact hlive.state
  · unfold phaseSet
    rw [if_neg (fun e => hn (by rw [e]; exact mem_ids_at h0))]
    exact h.absent id hn

/-- Install one key for data while the handshake goes on. -/
theorem Inv.installReq {m : Mgr} {L : List Bytes} {U : List Use} {ph : Nat → Phase} (h : Inv m L U ph) {i : Nat} (h0 : (m.at_ i).id ≠ 0)
    (hst : (m.at_ i).state = .handshaking) (kr : Keys) (hk : Fresh L [kr]) :
    Inv (m.set i { m.at_ i with dataReq := { kr with seq := 0 } }) (L ++ [kr.key]) U ph := by
  have hl := at_lt h0
  have hlive := h.live i h0
  refine h.set h0 rfl ?_ (fun x hx => List.mem_append_left _ hx) ⟨hlive.type, hlive.key, hlive.iv, hlive.tag, ?_⟩
  · refine h.keys.install (i, .dataReq) kr (hk.sized kr (by simp)) (hk.nonzero kr (by simp)) (hk.fresh kr (by simp)) ?_ (fun ⟨j, y⟩ hp => ?_)
    · rw [slots_set hl, if_pos rfl]; rfl
    · rw [slots_set hl]
      split
      · rename_i e; subst e
        cases y
        · rfl
        · rfl
        · exact absurd rfl hp
        · rfl
      · rfl
  · rcases hlive.state with ⟨a, b, c, d⟩ | ⟨a, _⟩
    · exact .inl ⟨a, List.mem_append_left _ b, List.mem_append_left _ c, d⟩
    · rw [a] at hst; cases hst

theorem Inv.installBoth {m : Mgr} {L : List Bytes} {U : List Use} {ph : Nat → Phase} (h : Inv m L U ph) {i : Nat} (h0 : (m.at_ i).id ≠ 0)
    (hst : (m.at_ i).state = .handshaking) (kr kp : Keys) (hk : Fresh L [kr, kp]) :
    Inv (m.set i { m.at_ i with dataReq := { kr with seq := 0 }, dataRsp := { kp with seq := 0 } }) (L ++ [kr.key, kp.key]) U ph := by
  have hl := at_lt h0
  have nd := hk.nodup
  simp only [List.map_cons, List.map_nil, List.nodup_cons, List.mem_cons, List.not_mem_nil, or_false, not_false_eq_true, List.nodup_nil, and_true] at nd
  have h1 := h.installReq h0 hst kr ⟨fun k hx => hk.sized k (by simp_all), fun k hx => hk.nonzero k (by simp_all), fun k hx => hk.fresh k (by simp_all), by simp⟩
  have ha := at_set m i { m.at_ i with dataReq := { kr with seq := 0 } } hl
  have hss : (m.set i { m.at_ i with dataReq := { kr with seq := 0 } }).set i
      { m.at_ i with dataReq := { kr with seq := 0 }, dataRsp := { kp with seq := 0 } } =
      m.set i { m.at_ i with dataReq := { kr with seq := 0 }, dataRsp := { kp with seq := 0 } } := by
    unfold Mgr.set; simp only [List.set_set]
  have hlive := h.live i h0
  rw [← hss, show L ++ [kr.key, kp.key] = (L ++ [kr.key]) ++ [kp.key] by simp]
  refine h1.set (by rw [ha]; exact h0) (by rw [ha]) ?_ (fun x hx => List.mem_append_left _ hx) ⟨hlive.type, hlive.key, hlive.iv, hlive.tag, ?_⟩
  · refine h1.keys.install (i, .dataRsp) kp (hk.sized kp (by simp)) (hk.nonzero kp (by simp)) (fun hm => ?_) ?_ (fun ⟨j, y⟩ hp => ?_)
    · rcases List.mem_append.mp hm with hm | hm
      · exact hk.fresh kp (by simp) hm
      · exact nd (List.mem_singleton.mp hm).symm
    · rw [hss, slots_set hl, if_pos rfl]; rfl
    · rw [hss, slots_set hl, slots_set hl]
      split
      · cases y
        · rfl
        · rfl
        · rfl
        · rename_i e; subst e; exact absurd rfl hp
      · rfl
  · rcases hlive.state with ⟨a, b, c, d⟩ | ⟨a, _⟩
    · exact .inl ⟨a, List.mem_append_left _ (List.mem_append_left _ b), List.mem_append_left _ (List.mem_append_left _ c), d⟩
    · rw [a] at hst; cases hst

theorem Inv.reset {m : Mgr} {L : List Bytes} {U : List Use} {ph : Nat → Phase} (h : Inv m L U ph) : Inv (resetSessionsAll m).2 L U (fun _ => .absent) := by
  have e : ∀ j, (resetSessionsAll m).2.at_ j = .zero := by
    intro j
    unfold resetSessionsAll Mgr.at_
    simp only [List.getD_eq_getElem?_getD, List.getElem?_replicate]
    split <;> rfl
  have hids : (resetSessionsAll m).2.ids = [] := by
    unfold resetSessionsAll Mgr.ids
    simp [Session.zero]
  refine ⟨⟨by rw [hids]; exact List.nodup_nil, by rw [hids]; rfl, ?_⟩, ?_, fun j hj => absurd (by rw [e j]; rfl) hj, fun _ _ => rfl⟩
  · show (List.replicate m.sessions.length Session.zero).length < _
    rw [List.length_replicate]; exact h.ok.small
  · refine h.keys.zap (fun ⟨j, y⟩ => .inr ?_)
    show ((resetSessionsAll m).2.at_ j).slot y = _
    rw [e]; cases y <;> rfl

end Verif.Spdm
