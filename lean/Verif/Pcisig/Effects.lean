import Verif.Pcisig.Handlers
namespace Verif.Pcisig

variable {versions : Bytes} {e : Env} {m : Msg} {s : St}

theorem getReport_good (wf : e.WF) (u : Usable m) (ht : typeOf m.q = 0x84) :
    Good m (getReport e m s) (bytesOf m.q (namedIn m.q) (replyTo versions e s.ctx m.room m.q)) (after versions e s m.room m.q) := by
  have hc : callsOf e s.ctx m.room m.q = [] := callsOf_type (by omega)
  have h24 := u.h24
  have hr := u.hr
  rw [after_none hc]
  unfold getReport
  refine good_checked u.h16 u.hb u.h24 u.hr (by omega) (by rw [ht]; rfl) (fun _ => rfl) ?_
  intro sz hv
  rw [replyTo_checked (by omega) (by rw [sz.q_length, ht]; rfl) hv, ht]
  show Good m (roomy m _ _ _ _) (bytesOf m.q (functionOf m.q) (if m.room < 20 then _ else _)) s
  unfold roomy
  have hno : ¬ m.room < 20 := by omega
  rw [if_neg hno, if_neg hno, if_neg (show ¬ (0x84 = 0x82) by decide)]
  unfold indexed target
  rw [sz.bdf]
  cases hi : e.index (bdfOf m.q) with
  | none => exact good_fail _ sz.fid u.h24 u.hr
  | some f =>
    simp only []
    rw [sz.rd (by omega), sz.rd (by omega)]
    simp only [Option.bind_eq_bind, Option.bind_some]
    have hcap : (if m.room - 20 > 65535 then 65535 else m.room - 20) = reportRoom m.room := by
      unfold reportRoom; split <;> omega
    rw [hcap]
    have hrep : replyFor versions e s.ctx m.room m.q f =
        if (e.report f (leNat (window m.q 16 2)) (leNat (window m.q 18 2)) (reportRoom m.room)).1 ≠ .ok then
          .error (reportError (e.report f (leNat (window m.q 16 2)) (leNat (window m.q 18 2)) (reportRoom m.room)).1)
        else .ok 0x04 false (toLE 2 (e.report f (leNat (window m.q 16 2)) (leNat (window m.q 18 2)) (reportRoom m.room)).2.1.length ++
          toLE 2 (e.report f (leNat (window m.q 16 2)) (leNat (window m.q 18 2)) (reportRoom m.room)).2.2 ++
          (e.report f (leNat (window m.q 16 2)) (leNat (window m.q 18 2)) (reportRoom m.room)).2.1) := by
      unfold replyFor; rw [if_neg (by omega), if_neg (by omega), if_pos ht]
    rw [hrep]
    have hlen := wf.report f (leNat (window m.q 16 2)) (leNat (window m.q 18 2)) (reportRoom m.room)
    have hrr : reportRoom m.room ≤ m.room - 20 := Nat.min_le_left _ _
    generalize e.report f (leNat (window m.q 16 2)) (leNat (window m.q 18 2)) (reportRoom m.room) = r at hlen ⊢
    obtain ⟨st, d, rem⟩ := r
    simp only [] at hlen ⊢
    rw [put_ok (by omega)]
    simp only [Option.bind_some]
    have hbl : (List.take 20 m.buf ++ d ++ List.drop (20 + d.length) m.buf).length = m.buf.length := by
      simp only [List.length_append, List.length_take, List.length_drop]; omega
    cases st with
    | ok =>
      simp only []
      rw [if_neg (by simp)]
      have h20 : (header 0x04 (functionOf m.q) ++ toLE 2 d.length ++ toLE 2 rem).length = 20 := by simp [header, sz.fid]
      rw [put_zero (by omega), h20]
      simp only [Option.bind_some]
      have hbytes : (bytesOf m.q (functionOf m.q) (.ok 0x04 false (toLE 2 d.length ++ toLE 2 rem ++ d))).length = 20 + d.length := by
        simp [bytesOf, sz.fid]; omega
      refine ⟨_, m.buf.drop (20 + d.length), ?_, rfl, ?_, by omega⟩
      · rw [hbytes]
        have : List.drop 20 (List.take 20 m.buf ++ d ++ List.drop (20 + d.length) m.buf) = d ++ List.drop (20 + d.length) m.buf := by
          rw [List.append_assoc, List.drop_left' (by rw [List.length_take]; omega)]
        rw [this]
        simp [header, bytesOf, List.replicate]
      · rw [List.length_append, hbytes, List.length_drop]; omega
    | _ => exact good_fail' _ sz.fid hbl u.h24 u.hr

/-- The answer reuses the request. -/
theorem echo_type {t : UInt8} {n : Nat} (sz : Sized m n) (hv : m.q.getD 0 0 = 0x10) (b : Bytes) (hb : b.take 16 = m.buf.take 16)
    (hl : b.length = m.buf.length) : put b 1 [t] = some (bytesOf m.q (functionOf m.q) (.ok t true []) ++ b.drop 16) := by
  have hn := sz.len; have h16 := sz.n16; have hbl := sz.buf
  have w1 : (window m.q 2 2).length = 2 := window_len (by rw [sz.q_length]; omega)
  have w2 : (window m.q 8 8).length = 8 := window_len (by rw [sz.q_length]; omega)
  rw [set_of_put (by omega)]
  congr 1
  rw [← List.take_append_drop 16 b, hb]
  have hq : m.buf.take 16 = [0x10] ++ ([m.q.getD 1 0] ++ (window m.q 2 2 ++ (functionOf m.q ++ window m.q 8 8))) := by
    have e16 : m.buf.take 16 = m.q.take 16 := by
      unfold Msg.q
      rw [List.take_take, Nat.min_eq_left (by omega)]
    rw [e16, ← hv, ← window_one (by rw [sz.q_length]; omega), ← window_one (by rw [sz.q_length]; omega)]
    unfold functionOf window
    rw [← List.drop_zero (l := m.q)]
    have c : ∀ (l : Bytes) (i n k : Nat), (l.drop i).take (n + k) = (l.drop i).take n ++ (l.drop (i + n)).take k := by
      intro l i n k
      rw [List.take_add, List.drop_drop]
    rw [show 16 = 1 + (1 + (2 + (4 + 8))) from rfl, c, c, c, c]
    simp
  have hd : (m.buf.take 16 ++ List.drop 16 b).drop 16 = List.drop 16 b := by
    rw [List.drop_left' (by rw [List.length_take]; omega)]
  rw [hd, hq]
  simp [bytesOf]

theorem stopInterface_good (u : Usable m) (ht : typeOf m.q = 0x87) :
    Good m (stopInterface e m s) (bytesOf m.q (namedIn m.q) (replyTo versions e s.ctx m.room m.q)) (after versions e s m.room m.q) := by
  unfold stopInterface
  refine good_checked u.h16 u.hb u.h24 u.hr (by omega) (by rw [ht]; rfl) (fun h => after_none (callsOf_bad (by rw [ht]; exact h))) ?_
  intro sz hv
  have hrt := replyTo_checked (versions := versions) (e := e) (ctx := s.ctx) (room := m.room) (q := m.q) (by omega) (by rw [sz.q_length, ht]; rfl) hv
  rw [ht, if_neg (show ¬ m.room < roomFor versions 0x87 from Nat.not_lt_zero _), if_neg (by decide)] at hrt
  have hcs : callsOf e s.ctx m.room m.q = match target e m.q with | none => [] | some f => [.stop f] := by
    unfold callsOf
    rw [if_neg (by rw [ht, sz.q_length, hv]; simp [sizeOf])]
    cases target e m.q with
    | none => rfl
    | some f => simp only []; rw [if_neg (by omega), if_neg (by omega), if_pos ht]
  unfold indexed
  rw [sz.bdf]
  cases hi : target e m.q with
  | none =>
    rw [hi] at hcs hrt
    rw [show e.index (bdfOf m.q) = none from hi, hrt, after_none hcs]
    exact good_fail _ sz.fid u.h24 u.hr
  | some f =>
    rw [hi] at hcs hrt
    rw [show e.index (bdfOf m.q) = some f from hi]
    have hrep : replyFor versions e s.ctx m.room m.q f = if e.stop f ≠ .ok then .error 0x05 else .ok 0x07 true [] := by
      unfold replyFor; rw [if_neg (by omega), if_neg (by omega), if_neg (by omega), if_neg (by omega), if_neg (by omega)]
    simp only [hrep] at hrt
    have haft : after versions e s m.room m.q = ⟨e.touch s.ctx, s.calls ++ [.stop f]⟩ := by
      unfold after
      simp only [] at hcs
      rw [hcs, if_neg (by simp), hrt]
      congr 1
      funext g
      split
      · rename_i heq; split at heq <;> cases heq
      · rfl
    rw [hrt, haft]
    simp only []
    by_cases hs : e.stop f = .ok
    · rw [if_neg (by simp [hs])]
      simp only [hs]
      have hp := echo_type (t := 0x07) sz hv m.buf rfl rfl
      have hlen : (bytesOf m.q (functionOf m.q) (.ok 0x07 true [])).length = 16 := by
        have w1 : (window m.q 2 2).length = 2 := window_len (by rw [sz.q_length]; omega)
        have w2 : (window m.q 8 8).length = 8 := window_len (by rw [sz.q_length]; omega)
        simp [bytesOf, w1, w2, sz.fid]
      refine ⟨_, m.buf.drop 16, ?_, rfl, ?_, ?_⟩
      · rw [hp, hlen]; rfl
      · have := sz.buf; have := sz.len
        rw [List.length_append, hlen, List.length_drop]; omega
      · have := u.h24; omega
    · rw [if_pos hs]
      have := good_fail (m := m) (fid := functionOf m.q) (code := 5) (s := ⟨e.touch s.ctx, s.calls ++ [.stop f]⟩) m.q sz.fid u.h24 u.hr
      revert hs
      cases e.stop f <;> intro hs <;> first | exact absurd rfl hs | exact this

theorem startInterface_good (u : Usable m) (ht : typeOf m.q = 0x86) :
    Good m (startInterface e m s) (bytesOf m.q (namedIn m.q) (replyTo versions e s.ctx m.room m.q)) (after versions e s m.room m.q) := by
  unfold startInterface
  refine good_checked u.h16 u.hb u.h24 u.hr (by omega) (by rw [ht]; rfl) (fun h => after_none (callsOf_bad (by rw [ht]; exact h))) ?_
  intro sz hv
  have hrt := replyTo_checked (versions := versions) (e := e) (ctx := s.ctx) (room := m.room) (q := m.q) (by omega) (by rw [sz.q_length, ht]; rfl) hv
  rw [ht, if_neg (show ¬ m.room < roomFor versions 0x86 from Nat.not_lt_zero _), if_neg (by decide)] at hrt
  have hcs : callsOf e s.ctx m.room m.q = match target e m.q with | none => [] | some f => if asksStart e s.ctx f m.q then [.start f] else [] := by
    unfold callsOf
    rw [if_neg (by rw [ht, sz.q_length, hv]; simp [sizeOf])]
    cases target e m.q with
    | none => rfl
    | some f =>
      simp only []
      rw [if_neg (by omega)]
      by_cases h : asksStart e s.ctx f m.q = true
      · rw [if_pos ⟨ht, h⟩, if_pos h]
      · rw [if_neg (fun x => h x.2), if_neg h, if_neg (by omega)]
  unfold indexed
  rw [sz.bdf]
  cases hi : target e m.q with
  | none =>
    rw [hi] at hcs hrt
    rw [show e.index (bdfOf m.q) = none from hi, hrt, after_none hcs]
    exact good_fail _ sz.fid u.h24 u.hr
  | some f =>
    rw [hi] at hcs hrt
    rw [show e.index (bdfOf m.q) = some f from hi]
    simp only [] at hcs hrt ⊢
    have hrep : replyFor versions e s.ctx m.room m.q f =
      if e.getOk f = false then .error 0x05
      else if Locked s.ctx f = false then .error 0x04
      else if window m.q 16 32 ≠ (s.ctx f).nonce then .error 0x102
      else if e.start f ≠ .ok then .error (startError (e.start f))
      else .ok 0x06 true [] := by
      unfold replyFor; rw [if_neg (by omega), if_neg (by omega), if_neg (by omega), if_neg (by omega), if_pos (by omega)]
    rw [hrep] at hrt
    by_cases h1 : e.getOk f = false
    · have hno : asksStart e s.ctx f m.q = false := by simp [asksStart, h1]
      rw [hno] at hcs
      rw [if_pos h1] at hrt ⊢
      rw [hrt, after_none hcs]
      exact good_fail _ sz.fid u.h24 u.hr
    · rw [if_neg h1] at hrt ⊢
      rw [hasNonce_locked]
      by_cases h2 : Locked s.ctx f = false
      · have hno : asksStart e s.ctx f m.q = false := by simp [asksStart, h2]
        rw [hno] at hcs
        rw [if_pos h2] at hrt
        rw [if_pos h2, hrt, after_none hcs]
        exact good_fail _ sz.fid u.h24 u.hr
      · rw [if_neg h2] at hrt
        rw [if_neg h2, sz.rd (by omega)]
        simp only [Option.bind_eq_bind, Option.bind_some]
        by_cases h3 : window m.q 16 32 = (s.ctx f).nonce
        · have hyes : asksStart e s.ctx f m.q = true := by
            simp only [Bool.not_eq_false] at h1 h2
            simp [asksStart, h1, h2, h3]
          rw [hyes, if_pos rfl] at hcs
          rw [if_neg (by simp [h3])] at hrt
          rw [if_neg (by simp [h3])]
          have hb := sz.buf; have hl := sz.len
          rw [put_ok (by simp; omega)]
          simp only [Option.bind_some, List.length_replicate]
          have hbl : (List.take 16 m.buf ++ List.replicate 32 0 ++ List.drop (16 + 32) m.buf).length = m.buf.length := by
            simp only [List.length_append, List.length_take, List.length_drop, List.length_replicate]; omega
          have haft : after versions e s m.room m.q = ⟨e.touch s.ctx, s.calls ++ [.start f]⟩ := by
            unfold after
            rw [hcs, if_neg (by simp), hrt]
            congr 1
            funext g
            split
            · rename_i heq; split at heq <;> cases heq
            · rfl
          rw [hrt, haft]
          by_cases hs : e.start f = .ok
          · rw [if_neg (by simp [hs])]
            simp only [hs]
            have hp := echo_type (t := 0x06) sz hv (List.take 16 m.buf ++ List.replicate 32 0 ++ List.drop (16 + 32) m.buf)
              (by rw [List.append_assoc, List.take_left' (by rw [List.length_take]; omega)]) hbl
            have hlen : (bytesOf m.q (functionOf m.q) (.ok 0x06 true [])).length = 16 := by
              have w1 : (window m.q 2 2).length = 2 := window_len (by rw [sz.q_length]; omega)
              have w2 : (window m.q 8 8).length = 8 := window_len (by rw [sz.q_length]; omega)
              simp [bytesOf, w1, w2, sz.fid]
            refine ⟨_, (List.take 16 m.buf ++ List.replicate 32 0 ++ List.drop (16 + 32) m.buf).drop 16, ?_, rfl, ?_, ?_⟩
            · rw [hp, hlen]; rfl
            · rw [List.length_append, hlen, List.length_drop]; omega
            · have := u.h24; omega
          · rw [if_pos hs]
            have := fun code => good_fail' (m := m) (fid := functionOf m.q) (code := code) (s := ⟨e.touch s.ctx, s.calls ++ [.start f]⟩) m.q sz.fid hbl u.h24 u.hr
            revert hs
            cases e.start f <;> intro hs <;> first | exact absurd rfl hs | exact this _
        · have hno : asksStart e s.ctx f m.q = false := by simp [asksStart, h3]
          rw [hno] at hcs
          rw [if_pos h3] at hrt
          rw [if_pos h3, hrt, after_none hcs]
          exact good_fail _ sz.fid u.h24 u.hr

theorem lockInterface_good (wf : e.WF) (u : Usable m) (ht : typeOf m.q = 0x83) :
    Good m (lockInterface e m s) (bytesOf m.q (namedIn m.q) (replyTo versions e s.ctx m.room m.q)) (after versions e s m.room m.q) := by
  unfold lockInterface
  refine good_checked u.h16 u.hb u.h24 u.hr (by omega) (by rw [ht]; rfl) (fun h => after_none (callsOf_bad (by rw [ht]; exact h))) ?_
  intro sz hv
  have hrt := replyTo_checked (versions := versions) (e := e) (ctx := s.ctx) (room := m.room) (q := m.q) (by omega) (by rw [sz.q_length, ht]; rfl) hv
  rw [ht, show roomFor versions 0x83 = 48 from rfl] at hrt
  have hcs : callsOf e s.ctx m.room m.q = match target e m.q with
      | none => []
      | some f => if 48 ≤ m.room ∧ asksLock e s.ctx f then [.lock f (window m.q 16 20)] else [] := by
    unfold callsOf
    rw [if_neg (by rw [ht, sz.q_length, hv]; simp [sizeOf])]
    cases target e m.q with
    | none => rfl
    | some f =>
      simp only []
      by_cases h : 48 ≤ m.room ∧ asksLock e s.ctx f
      · rw [if_pos ⟨ht, h⟩, if_pos h]
      · rw [if_neg (fun x => h x.2), if_neg h, if_neg (by omega), if_neg (by omega)]
  unfold roomy
  by_cases hroom : m.room < 48
  · rw [if_pos hroom] at hrt ⊢
    have : callsOf e s.ctx m.room m.q = [] := by
      rw [hcs]
      split
      · rfl
      · rw [if_neg (by omega)]
    rw [hrt, after_none this]
    exact good_fail _ sz.fid u.h24 u.hr
  · rw [if_neg hroom, if_neg (by decide)] at hrt
    rw [if_neg hroom]
    unfold indexed
    rw [sz.bdf]
    cases hi : target e m.q with
    | none =>
      rw [hi] at hcs hrt
      rw [show e.index (bdfOf m.q) = none from hi, hrt, after_none hcs]
      exact good_fail _ sz.fid u.h24 u.hr
    | some f =>
      rw [hi] at hcs hrt
      rw [show e.index (bdfOf m.q) = some f from hi]
      simp only [] at hcs hrt ⊢
      have hrep : replyFor versions e s.ctx m.room m.q f =
        if e.getOk f = false then .error 0x101
        else if Locked s.ctx f then .error 0x04
        else match e.rng with
          | none => .error 0x05
          | some n =>
            if e.lock f (window m.q 16 20) ≠ .ok then .error (lockError (e.lock f (window m.q 16 20)))
            else if e.setOk f = false then .error 0x05
            else .ok 0x03 false n := by
        unfold replyFor; rw [if_neg (by omega), if_pos ht]; rfl
      rw [hrep] at hrt
      by_cases h1 : e.getOk f = false
      · have hno : asksLock e s.ctx f = false := by simp [asksLock, h1]
        rw [hno, if_neg (by simp)] at hcs
        rw [if_pos h1] at hrt ⊢
        rw [hrt, after_none hcs]
        exact good_fail _ sz.fid u.h24 u.hr
      · rw [if_neg h1] at hrt ⊢
        rw [hasNonce_locked]
        by_cases h2 : Locked s.ctx f = true
        · have hno : asksLock e s.ctx f = false := by simp [asksLock, h2]
          rw [hno, if_neg (by simp)] at hcs
          rw [if_pos h2] at hrt
          rw [if_pos h2, hrt, after_none hcs]
          exact good_fail _ sz.fid u.h24 u.hr
        · rw [if_neg h2] at hrt
          rw [if_neg h2]
          cases hr : e.rng with
          | none =>
            have hno : asksLock e s.ctx f = false := by simp [asksLock, hr]
            rw [hno, if_neg (by simp)] at hcs
            rw [hr] at hrt
            rw [hrt, after_none hcs]
            exact good_fail _ sz.fid u.h24 u.hr
          | some n =>
            have hn := wf.rng _ hr
            have hyes : asksLock e s.ctx f = true := by
              simp only [Bool.not_eq_false] at h1
              simp [asksLock, h1, h2, hr]
            rw [hyes, if_pos (by simp; omega)] at hcs
            rw [hr] at hrt
            simp only [] at hrt ⊢
            rw [sz.rd (by omega)]
            simp only [Option.bind_eq_bind, Option.bind_some]
            have haft : ∀ code, replyTo versions e s.ctx m.room m.q = .error code →
                after versions e s m.room m.q = ⟨e.touch s.ctx, s.calls ++ [.lock f (window m.q 16 20)]⟩ := by
              intro code h
              unfold after
              rw [hcs, if_neg (by simp), h]
            by_cases hs : e.lock f (window m.q 16 20) = .ok
            · rw [if_neg (by simp [hs])] at hrt
              simp only [hs]
              by_cases h5 : e.setOk f = false
              · rw [if_pos h5] at hrt ⊢
                rw [hrt, haft _ hrt]
                exact good_fail _ sz.fid u.h24 u.hr
              · rw [if_neg h5] at hrt ⊢
                have hset : (e.touch s.ctx f).setNonce n = some { e.touch s.ctx f with nonce := n, mask := (e.touch s.ctx f).mask ||| 0x0001 } := by
                  unfold Ctx.setNonce; rw [if_neg (by simp [hn])]
                simp only [hset]
                have ha : after versions e s m.room m.q = ⟨fun g => if g = f then { e.touch s.ctx f with nonce := n, mask := (e.touch s.ctx f).mask ||| 0x0001 } else e.touch s.ctx g, s.calls ++ [.lock f (window m.q 16 20)]⟩ := by
                  unfold after
                  rw [hcs, if_neg (by simp), hrt, hi]
                  congr 1
                  funext g
                  by_cases hg : g = f
                  · rw [if_pos hg, hg]; simp
                  · rw [if_neg hg]; simp only [Option.some.injEq]; rw [if_neg (fun h => hg h.symm)]
                rw [hrt, ha]
                exact good_put _ 48 (by omega) sz.fid (by omega) u.hr
            · rw [if_pos hs] at hrt
              rw [hrt, haft _ hrt]
              have := fun code => good_fail (m := m) (fid := functionOf m.q) (code := code) (s := ⟨e.touch s.ctx, s.calls ++ [.lock f (window m.q 16 20)]⟩) m.q sz.fid u.h24 u.hr
              revert hs
              cases e.lock f (window m.q 16 20) <;> intro hs <;> first | exact absurd rfl hs | exact this _

end Verif.Pcisig
