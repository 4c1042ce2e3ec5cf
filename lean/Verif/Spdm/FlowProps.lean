import Verif.Spdm.FlowSteps
namespace Verif.Spdm
open Verif.CmdMsg (Msg removeHeader addHeader setPayloadLength)
open Verif.Pcisig (put)

theorem reply_code {q q' : Msg} {code : UInt8} {body : Bytes} (h : reply q code body = some q') : q'.buf.getD (q'.off + 1) 0 = code := by
  unfold reply at h
  simp only [bind, Option.bind_eq_some_iff] at h
  obtain ⟨b, hb, h⟩ := h
  injection h with h; subst h
  show b.getD (q.off + 1) 0 = code
  have := put_drop hb
  have e : b[q.off + 1]? = (b.drop q.off)[1]? := by rw [List.getElem?_drop]
  rw [List.getD_eq_getElem?_getD, e, this]
  rfl

/-- What a handler does. -/
structure HOk (L : List Bytes) (U : List Use) (ph : Nat → Phase) (h : Handled) : Prop where
  lawful : Lawful ph h.events
  inv : Inv h.mgr (L ++ h.keys.map (·.key)) U (after ph h.events)
  reply : h.answer = true → ReplyOk h.mgr h.msg (L ++ h.keys.map (·.key)) (after ph h.events)

theorem ReplyOk.plain {m : Mgr} {q : Msg} {L : List Bytes} {ph : Nat → Phase} (h1 : q.buf.getD (q.off + 1) 0 ≠ 0x65) (h2 : q.buf.getD (q.off + 1) 0 ≠ 0x6c) :
    ReplyOk m q L ph := fun _ _ _ => ⟨fun h => absurd h h1, fun h => absurd h h2⟩

theorem error_ok {m : Mgr} {L : List Bytes} {U : List Use} {ph : Nat → Phase} (h : Inv m L U ph) {q : Msg} {r : Handled} (hr : replyError m q = some r) :
    HOk L U ph r ∧ r.keys = [] ∧ r.events = [] ∧ r.mgr = m ∧ r.msg.buf.getD (r.msg.off + 1) 0 = 0x7f := by
  unfold replyError at hr
  simp only [bind, Option.bind_eq_some_iff] at hr
  obtain ⟨q', hq, hr⟩ := hr
  injection hr with hr; subst hr
  have := reply_code hq
  refine ⟨⟨trivial, by rw [List.map_nil, List.append_nil]; exact h, fun _ => .plain ?_ ?_⟩, rfl, rfl, rfl, this⟩
  · show q'.buf.getD (q'.off + 1) 0 ≠ _; rw [this]; decide
  · show q'.buf.getD (q'.off + 1) 0 ≠ _; rw [this]; decide

theorem answer_ok {m : Mgr} {L : List Bytes} {U : List Use} {ph : Nat → Phase} (h : Inv m L U ph) {q q' : Msg} {code : UInt8} {body : Bytes} (hq : reply q code body = some q')
    (h1 : code ≠ 0x65) (h2 : code ≠ 0x6c) : HOk L U ph ⟨true, m, q', [], []⟩ := by
  have := reply_code hq
  refine ⟨trivial, by rw [List.map_nil, List.append_nil]; exact h, fun _ => .plain ?_ ?_⟩
  · show q'.buf.getD (q'.off + 1) 0 ≠ _; rw [this]; exact h1
  · show q'.buf.getD (q'.off + 1) 0 ≠ _; rw [this]; exact h2

theorem getVersion_ok {m : Mgr} {L : List Bytes} {U : List Use} {ph : Nat → Phase} (h : Inv m L U ph) {g : Given} {q : Msg} {r : Handled}
    (hr : getVersion g m q = some r) : HOk L U ph r := by
  unfold getVersion at hr
  split at hr
  · exact (error_ok h hr).1
  split at hr
  · exact (error_ok h hr).1
  split at hr
  · exact (error_ok h hr).1
  simp only [bind, Option.bind_eq_some_iff] at hr
  obtain ⟨q', hq, hr⟩ := hr
  injection hr with hr; subst hr
  refine ⟨trivial, by rw [List.map_nil, List.append_nil]; exact h.reset, ?_⟩
  intro _ i hv _
  cases hv

theorem keyExchange_ok {m : Mgr} {L : List Bytes} {U : List Use} {ph : Nat → Phase} (h : Inv m L U ph) {g : Given} {q : Msg} {r : Handled}
    (hg : g.new.type = .encMac ∧ g.new.keySize = 32 ∧ g.new.ivSize = 12 ∧ g.new.tagSize = 16)
    (hr : keyExchange g m q = some r) (hf : Fresh L r.keys) : HOk L U ph r := by
  unfold keyExchange at hr
  repeat (split at hr; exact (error_ok h hr).1)
  simp only [bind, Option.bind_eq_some_iff] at hr
  obtain ⟨x, _, hr⟩ := hr
  split at hr
  · exact (error_ok h hr).1
  · rename_i i m1 hc
    split at hr
    · exact (error_ok (h.dropNew hc) hr).1
    · rename_i kr kp hk
      simp only [Option.bind_eq_some_iff] at hr
      obtain ⟨q', hq, hr⟩ := hr
      injection hr with hr; subst hr
      obtain ⟨b1, b2⟩ := h.begin_ hc hg kr kp hf g.policy
      have := reply_code hq
      refine ⟨⟨b2, trivial⟩, b1, fun _ => .plain ?_ ?_⟩
      · show q'.buf.getD (q'.off + 1) 0 ≠ _; rw [this]; decide
      · show q'.buf.getD (q'.off + 1) 0 ≠ _; rw [this]; decide

theorem finish_ok {m : Mgr} {L : List Bytes} {U : List Use} {ph : Nat → Phase} (h : Inv m L U ph) {g : Given} {q : Msg} {r : Handled}
    (hr : finish g m q = some r) (hf : Fresh L r.keys) : HOk L U ph r := by
  unfold finish at hr
  iterate 5 (split at hr; exact (error_ok h hr).1)
  split at hr
  · exact (error_ok h hr).1
  · rename_i i hi
    obtain ⟨h0, hl, hid⟩ := find_some hi
    have h0' : (m.at_ i).id ≠ 0 := by rw [hid]; exact h0
    split at hr
    · exact (error_ok h hr).1
    · rename_i hst
      have hst : (m.at_ i).state = .handshaking := by simpa using hst
      split at hr
      · exact (error_ok h hr).1
      split at hr
      · split at hr
        · injection hr with hr; subst hr
          exact ⟨trivial, by rw [List.map_nil, List.append_nil]; exact h, fun h => nomatch h⟩
        · exact (error_ok h hr).1
      · split at hr
        · exact (error_ok h hr).1
        · rename_i kr _
          simp only [bind, Option.bind_eq_some_iff] at hr
          obtain ⟨r', hr', hr⟩ := hr
          injection hr with hr; subst hr
          have hi1 := h.installReq h0' hst kr hf
          obtain ⟨e1, e2, e3, e4, e5⟩ := error_ok hi1 hr'
          refine ⟨?_, ?_, fun _ => .plain ?_ ?_⟩
          · show Lawful ph r'.events; rw [e3]; trivial
          · show Inv r'.mgr _ _ (after ph r'.events); rw [e4, e3]; exact hi1
          · show r'.msg.buf.getD (r'.msg.off + 1) 0 ≠ _; rw [e5]; decide
          · show r'.msg.buf.getD (r'.msg.off + 1) 0 ≠ _; rw [e5]; decide
        · rename_i kr kp _
          simp only [bind, Option.bind_eq_some_iff] at hr
          obtain ⟨q', hq, hr⟩ := hr
          injection hr with hr; subst hr
          have hi1 := h.installBoth h0' hst kr kp hf
          have ha := at_set m i { m.at_ i with dataReq := { kr with seq := 0 }, dataRsp := { kp with seq := 0 } } hl
          have hi2 := hi1.phase (i := i) (by rw [ha]; exact h0')
          have hphid : ph m.lastId ≠ .absent := by
            rcases (h.live i h0').state with ⟨_, _, _, d⟩ | ⟨a, _⟩
            · rw [hid] at d; exact d
            · rw [a] at hst; cases hst
          rw [ha] at hi2
          have hid' : ({ m.at_ i with dataReq := { kr with seq := 0 }, dataRsp := { kp with seq := 0 } } : Session).id = m.lastId := hid
          rw [hid'] at hi2
          refine ⟨⟨hphid, trivial⟩, hi2, ?_⟩
          have hcode := reply_code hq
          intro _ j hv hj
          have hji : j = i := by
            obtain ⟨_, _, hjid⟩ := find_some hj
            have : ((m.set i { m.at_ i with dataReq := { kr with seq := 0 }, dataRsp := { kp with seq := 0 } }).at_ i).id = m.lastId := by rw [ha]; exact hid
            exact hi1.ok.unique (by rw [hjid]; exact h0) (by rw [this]; exact hjid)
          subst hji
          refine ⟨fun _ => ?_, fun hc => ?_⟩
          · show ((m.set j _).at_ j).dataReq.key ∈ _ ∧ ((m.set j _).at_ j).dataRsp.key ∈ _ ∧ _
            rw [ha]
            refine ⟨by simp, by simp, ?_⟩
            show phaseSet ph m.lastId .proved m.lastId = _
            unfold phaseSet; rw [if_pos rfl]
          · exact absurd (hcode.symm.trans hc) (by decide)

theorem endSession_ok {m : Mgr} {L : List Bytes} {U : List Use} {ph : Nat → Phase} (h : Inv m L U ph) {g : Given} {q : Msg} {r : Handled}
    (hr : endSession g m q = some r) : HOk L U ph r := by
  unfold endSession at hr
  iterate 4 (split at hr; exact (error_ok h hr).1)
  split at hr
  · exact (error_ok h hr).1
  · rename_i i hi
    obtain ⟨h0, hl, hid⟩ := find_some hi
    have h0' : (m.at_ i).id ≠ 0 := by rw [hid]; exact h0
    split at hr
    · exact (error_ok h hr).1
    · rename_i hst
      have hst : (m.at_ i).state = .established := by simpa using hst
      simp only [bind, Option.bind_eq_some_iff] at hr
      obtain ⟨q', hq, hr⟩ := hr
      injection hr with hr; subst hr
      have hcode := reply_code hq
      refine ⟨trivial, by rw [List.map_nil, List.append_nil]; exact h, fun _ j _ hj => ⟨fun hc => ?_, fun _ => ?_⟩⟩
      · exact absurd (hcode.symm.trans hc) (by decide)
      · show ph m.lastId = .proved
        rcases (h.live i h0').state with ⟨a, _⟩ | ⟨_, _, _, d⟩
        · rw [a] at hst; cases hst
        · rw [hid] at d; exact d

theorem served_law {m : Mgr} {L : List Bytes} {U : List Use} {ph : Nat → Phase} (h : Inv m L U ph) {i : Nat} (hi : findSession m m.lastId = some i)
    (hst : ¬ (m.at_ i).state ≠ .established) : Lawful ph [.served m.lastId] := by
  obtain ⟨h0, hl, hid⟩ := find_some hi
  have hst : (m.at_ i).state = .established := by simpa using hst
  refine ⟨?_, trivial⟩
  rcases (h.live i (by rw [hid]; exact h0)).state with ⟨a, _⟩ | ⟨_, _, _, d⟩
  · rw [a] at hst; cases hst
  · rw [hid] at d; exact d

theorem HOk.events {L : List Bytes} {U : List Use} {ph : Nat → Phase} {r : Handled} (h : HOk L U ph r) (h0 : r.events = []) (es : List Ev)
    (hl : Lawful ph es) (ha : after ph es = ph) : HOk L U ph { r with events := es } := by
  obtain ⟨_, h2, h3⟩ := h
  rw [h0] at h2 h3
  exact ⟨hl, by show Inv r.mgr _ _ (after ph es); rw [ha]; exact h2, by show r.answer = true → ReplyOk r.mgr r.msg _ (after ph es); rw [ha]; exact h3⟩

theorem vendorDefined_ok {m : Mgr} {L : List Bytes} {U : List Use} {ph : Nat → Phase} (h : Inv m L U ph) {g : Given} {enc : Bool} {q : Msg} {r : Handled}
    (hr : vendorDefined g enc m q = some r) : HOk L U ph r := by
  have serve : ∀ es, Lawful ph es → after ph es = ph → ∀ r,
      (do if g.handled = false then
            let h ← replyError m q
            return { h with events := es }
          return (⟨true, m, ← reply q 0x7e g.body, es, []⟩ : Handled)) = some r → HOk L U ph r := by
    intro es hl ha r hr
    split at hr
    · simp only [bind, Option.bind_eq_some_iff] at hr
      obtain ⟨r', hr', hr⟩ := hr
      injection hr with hr; subst hr
      obtain ⟨e1, _, e3, _⟩ := error_ok h hr'
      exact e1.events e3 es hl ha
    · simp only [bind, Option.bind_eq_some_iff] at hr
      obtain ⟨q', hq, hr⟩ := hr
      injection hr with hr; subst hr
      exact (answer_ok h hq (by decide) (by decide)).events rfl es hl ha
  unfold vendorDefined at hr
  iterate 4 (split at hr; exact (error_ok h hr).1)
  simp only [] at hr
  split at hr
  · split at hr
    · exact (error_ok h hr).1
    · split at hr
      · exact (error_ok h hr).1
      · rename_i i hi
        split at hr
        · exact (error_ok h hr).1
        · rename_i hst
          exact serve _ (served_law h hi hst) rfl _ hr
  · exact serve [] trivial rfl _ hr

theorem getMeasurements_ok {m : Mgr} {L : List Bytes} {U : List Use} {ph : Nat → Phase} (h : Inv m L U ph) {g : Given} {q : Msg} {r : Handled}
    (hr : getMeasurements g m q = some r) : HOk L U ph r := by
  have serve : ∀ es, Lawful ph es → after ph es = ph → ∀ r,
      (do if q.payloadLength < 4 ∨ versionOk g q = false ∨ g.ready = false ∨ g.checks = false ∨ g.handled = false then replyError m q
          else return (⟨true, m, ← reply q 0x60 g.body, es, []⟩ : Handled)) = some r → HOk L U ph r := by
    intro es hl ha r hr
    split at hr
    · exact (error_ok h hr).1
    · simp only [bind, Option.bind_eq_some_iff] at hr
      obtain ⟨q', hq, hr⟩ := hr
      injection hr with hr; subst hr
      exact (answer_ok h hq (by decide) (by decide)).events rfl es hl ha
  unfold getMeasurements at hr
  simp only [] at hr
  split at hr
  · split at hr
    · exact (error_ok h hr).1
    · rename_i i hi
      split at hr
      · exact (error_ok h hr).1
      · rename_i hst
        exact serve _ (served_law h hi hst) rfl _ hr
  · exact serve [] trivial rfl _ hr

theorem other_ok {m : Mgr} {L : List Bytes} {U : List Use} {ph : Nat → Phase} (h : Inv m L U ph) {g : Given} {code : UInt8} {q : Msg} {r : Handled}
    (h1 : code ≠ 0x65) (h2 : code ≠ 0x6c) (hr : otherHandler g code m q = some r) : HOk L U ph r := by
  unfold otherHandler at hr
  split at hr
  · exact (error_ok h hr).1
  · simp only [bind, Option.bind_eq_some_iff] at hr
    obtain ⟨q', hq, hr⟩ := hr
    injection hr with hr; subst hr
    exact answer_ok h hq h1 h2

theorem dispatch_ok {m : Mgr} {L : List Bytes} {U : List Use} {ph : Nat → Phase} (h : Inv m L U ph) {g : Given} {enc : Bool} {code : UInt8} {q : Msg} {r : Handled}
    (hg : g.new.type = .encMac ∧ g.new.keySize = 32 ∧ g.new.ivSize = 12 ∧ g.new.tagSize = 16)
    (hr : dispatch g enc code m q = some r) (hf : Fresh L r.keys) : HOk L U ph r := by
  unfold dispatch at hr
  split at hr; exact getVersion_ok h hr
  iterate 5 (split at hr; exact other_ok h (by decide) (by decide) hr)
  split at hr; exact getMeasurements_ok h hr
  split at hr; exact keyExchange_ok h hg hr hf
  split at hr; exact finish_ok h hr hf
  split at hr; exact endSession_ok h hr
  split at hr; exact vendorDefined_ok h hr
  exact (error_ok h hr).1

theorem respond_ok {c : SCfg} (hc : c.aead.Correct) (hmax : c.maxSeq ≤ 2 ^ 64) {m : Mgr} {L : List Bytes} {U : List Use} {ph : Nat → Phase} (h : Inv m L U ph)
    {g : Given} {enc : Bool} {q : Msg} {o : Outcome}
    (hg : g.new.type = .encMac ∧ g.new.keySize = 32 ∧ g.new.ivSize = 12 ∧ g.new.tagSize = 16)
    (hr : respond c m g enc q = some o) (hf : Fresh L o.keys) :
    Lawful ph o.events ∧ Inv o.mgr (L ++ o.keys.map (·.key)) (U ++ o.uses) (after ph o.events) := by
  have h1 : Inv { m with lastValid := false } L U ph := h.last m.lastId false
  have fin : ∀ {m' : Mgr} {U' : List Use}, Inv m' L U' ph → Lawful ph [] ∧ Inv m' (L ++ ([] : List Keys).map (·.key)) U' (after ph []) := by
    intro m' U' h; exact ⟨trivial, by rw [List.map_nil, List.append_nil]; exact h⟩
  unfold respond at hr
  simp only [] at hr
  split at hr
  · simp only [bind, Option.bind_eq_some_iff] at hr
    obtain ⟨⟨r, m1, q1, u⟩, hd, hr⟩ := hr
    have h2 := h1.decode hc hmax hd
    rcases r with e | ⟨⟩
    · simp only [Option.bind_eq_some_iff] at hr
      obtain ⟨q2, _, hr⟩ := hr
      injection hr with hr; subst hr
      exact fin h2
    · simp only [] at hr
      split at hr
      · injection hr with hr; subst hr
        exact fin h2
      · simp only [Option.bind_eq_some_iff] at hr
        obtain ⟨hh, hdp, hr⟩ := hr
        split at hr
        · rename_i hans
          simp only [Option.bind_eq_some_iff] at hr
          obtain ⟨⟨r, m3, q3, u', notes⟩, he, hr⟩ := hr
          rcases r with e | ⟨⟩
          · simp only [Option.bind_eq_some_iff] at hr
            obtain ⟨q4, _, hr⟩ := hr
            injection hr with hr; subst hr
            have hk := dispatch_ok h2 hg hdp hf
            obtain ⟨n1, n2, n3⟩ := hk.inv.encode hmax (hk.reply hans) he
            rw [n1 (fun h => nomatch h)] at n3
            rw [List.append_assoc] at n3
            exact ⟨hk.lawful, n3⟩
          · injection hr with hr; subst hr
            have hk := dispatch_ok h2 hg hdp hf
            obtain ⟨n1, n2, n3⟩ := hk.inv.encode hmax (hk.reply hans) he
            rw [List.append_assoc, ← after_append] at n3
            exact ⟨lawful_append hk.lawful n2, n3⟩
        · injection hr with hr; subst hr
          have hk := dispatch_ok h2 hg hdp hf
          exact ⟨hk.lawful, hk.inv⟩
  · split at hr
    · injection hr with hr; subst hr
      rw [List.append_nil]
      exact fin h1
    · simp only [bind, Option.bind_eq_some_iff] at hr
      obtain ⟨hh, hdp, hr⟩ := hr
      injection hr with hr; subst hr
      have hk := dispatch_ok h1 hg hdp hf
      rw [List.append_nil]
      exact ⟨hk.lawful, hk.inv⟩

theorem serveAll_ok {c : SCfg} (hc : c.aead.Correct) (hmax : c.maxSeq ≤ 2 ^ 64) :
    ∀ {rs : List Req} {m : Mgr} {L : List Bytes} {U : List Use} {ph : Nat → Phase} {o : History}, Inv m L U ph → (∀ r ∈ rs, r.Gcm) →
      serveAll c m rs = some o → Fresh L o.keys →
      Lawful ph o.events ∧ Inv o.mgr (L ++ o.keys.map (·.key)) (U ++ o.uses) (after ph o.events)
  | [], m, L, U, ph, o, h, _, hr, _ => by
    injection hr with hr; subst hr
    exact ⟨trivial, by rw [List.map_nil, List.append_nil, List.append_nil]; exact h⟩
  | r :: rs, m, L, U, ph, o, h, hg, hr, hf => by
    simp only [serveAll, bind, Option.bind_eq_some_iff] at hr
    obtain ⟨o1, h1, o2, h2, hr⟩ := hr
    injection hr with hr; subst hr
    have nd := hf.nodup
    simp only [List.map_append, List.nodup_append] at nd
    have f1 : Fresh L o1.keys := ⟨fun k hk => hf.sized k (List.mem_append_left _ hk), fun k hk => hf.nonzero k (List.mem_append_left _ hk),
      fun k hk => hf.fresh k (List.mem_append_left _ hk), nd.1⟩
    obtain ⟨a1, a2⟩ := respond_ok hc hmax h (hg r (by simp)) h1 f1
    have f2 : Fresh (L ++ o1.keys.map (·.key)) o2.keys := by
      refine ⟨fun k hk => hf.sized k (List.mem_append_right _ hk), fun k hk => hf.nonzero k (List.mem_append_right _ hk), fun k hk hm => ?_, nd.2.1⟩
      rcases List.mem_append.mp hm with hm | hm
      · exact hf.fresh k (List.mem_append_right _ hk) hm
      · exact nd.2.2 _ hm _ (List.mem_map_of_mem hk) rfl
    obtain ⟨b1, b2⟩ := serveAll_ok hc hmax a2 (fun r hr => hg r (by simp [hr])) h2 f2
    refine ⟨lawful_append a1 b1, ?_⟩
    rw [List.append_assoc, List.append_assoc, ← List.map_append, ← after_append] at b2
    exact b2

theorem noSessions_inv (n : Nat) (hn : n < 2 ^ 32) : Inv (noSessions n) [] [] (fun _ => .absent) := by
  have e : ∀ j, (noSessions n).at_ j = .zero := by
    intro j
    unfold noSessions Mgr.at_
    simp only [List.getD_eq_getElem?_getD, List.getElem?_replicate]
    split <;> rfl
  have hids : (noSessions n).ids = [] := by
    unfold noSessions Mgr.ids
    simp [Session.zero]
  refine ⟨⟨by rw [hids]; exact List.nodup_nil, by rw [hids]; rfl, ?_⟩, ?_, fun j hj => absurd (by rw [e j]; rfl) hj, fun _ _ => rfl⟩
  · show (List.replicate n Session.zero).length < _
    rw [List.length_replicate]; exact hn
  · exact KInv.init (fun ⟨j, y⟩ => by show ((noSessions n).at_ j).slot y = _; rw [e]; cases y <;> rfl)

/-- **No key is used twice with the same IV**, in any history of requests: neither to seal answers nor to open requests, nor in both. -/
theorem nonce_unique (c : SCfg) (hc : c.aead.Correct) (hmax : c.maxSeq ≤ 2 ^ 64) (n : Nat) (hn : n < 2 ^ 32) (rs : List Req) (hg : ∀ r ∈ rs, r.Gcm)
    (o : History) (h : serveAll c (noSessions n) rs = some o) (hk : GoodKeys o.keys) : o.uses.Nodup := by
  have := (serveAll_ok hc hmax (noSessions_inv n hn) hg h ⟨hk.sized, hk.nonzero, fun _ _ h => (nomatch h), hk.distinct⟩).2.keys.nodup
  simpa using this

/-- **Every history is lawful**: requests are served in a session only behind the key exchange and the verified FINISH of this session. -/
theorem sessions_lawful (c : SCfg) (hc : c.aead.Correct) (hmax : c.maxSeq ≤ 2 ^ 64) (n : Nat) (hn : n < 2 ^ 32) (rs : List Req) (hg : ∀ r ∈ rs, r.Gcm)
    (o : History) (h : serveAll c (noSessions n) rs = some o) (hk : GoodKeys o.keys) : Lawful (fun _ => .absent) o.events :=
  (serveAll_ok hc hmax (noSessions_inv n hn) hg h ⟨hk.sized, hk.nonzero, fun _ _ h => (nomatch h), hk.distinct⟩).1

end Verif.Spdm
