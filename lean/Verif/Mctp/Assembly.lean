import Verif.Mctp.Deliver
namespace Verif.Mctp
open Res

theorem readType_safe (buf : Bytes) (som : Bool) (h : hdrLen < buf.length) : Safe (readType buf som) fun _ => True := by
  unfold readType
  refine .ite (fun _ => ?_) (fun _ => trivial)
  exact .bind (rd_safe h) fun _ _ => trivial

theorem checkPec_safe (buf : Bytes) (n : Nat) (a : UInt8) (h : n ≤ buf.length) : Safe (checkPec buf n a) fun _ => True := by
  unfold checkPec
  refine .ite (fun hc => ?_) (fun _ => trivial)
  refine .bind (rdN_safe (by omega)) fun _ _ => ?_
  refine .bind (rd_safe hc) fun _ _ => ?_
  exact .ite (fun _ => trivial) (fun _ => trivial)

/-- Parsing stays in the buffer, and a parsed packet has a payload and a two-bit sequence number. -/
theorem interpret_safe (buf : Bytes) (a : UInt8) :
    Safe (interpret buf a) fun p => 0 < p.payload.length ∧ p.hdr.seq < 4 ∧ p.payload.length < buf.length := by
  unfold interpret
  simp only [hdrLen] at *
  refine .ite (fun _ => trivial) (fun hl => ?_)
  refine .bind (rd_safe (by omega)) fun _ _ => ?_
  refine .bind (rd_safe (by omega)) fun _ _ => ?_
  refine .bind (rd_safe (by omega)) fun _ _ => ?_
  refine .bind (rd_safe (by omega)) fun _ _ => ?_
  refine .bind (rd_safe (by omega)) fun _ _ => ?_
  refine .bind (rd_safe (by omega)) fun _ _ => ?_
  refine .bind (rd_safe (by omega)) fun flags _ => ?_
  refine .ite (fun _ => trivial) (fun _ => ?_)
  refine .ite (fun _ => trivial) (fun h1 => ?_)
  refine .ite (fun _ => trivial) (fun h2 => ?_)
  refine .bind (rdN_safe (by omega)) fun pl hpl => ?_
  refine .bind (readType_safe _ _ (by simp only [hdrLen]; omega)) fun _ _ => ?_
  refine .bind (checkPec_safe _ _ _ (by omega)) fun _ _ => ?_
  simp only [pure_eq, safe_ok, hpl.2]
  omega

theorem parsed_append (a b : List Op) : parsed (a ++ b) = parsed a ++ parsed b := by
  induction a with
  | nil => rfl
  | cons op a ih =>
    cases op with
    | rx buf d => simp [parsed, ih]
    | send => simp [parsed, ih]
    | finish => simp [parsed, ih]

/-- The assembly state holds the packets `first :: rest` of an unfinished message. -/
structure Open (env : Env) (first : Pkt) (rest : List Pkt) (s : St) : Prop where
  chain : Chain first rest
  mid : ∀ p ∈ first :: rest, p.hdr.eom = false ∧ p.payload.length = first.payload.length
  data : s.data = payloads (first :: rest)
  size : s.data.length ≤ maxBody
  start : s.startLen = first.payload.length
  seq : s.seq = (first.hdr.seq + rest.length + 1) % 4
  tag : s.tag = first.hdr.tag
  owner : s.owner = first.hdr.owner
  src : s.srcEid = first.hdr.srcEid
  dst : first.hdr.dstEid = env.selfEid ∨ first.hdr.dstEid = 0
  sup : first.hdr.owner ≠ 0 → env.supported first.msgType = true

structure Inv (env : Env) (hist : List Op) (s : St) : Prop where
  asm : s.startLen = 0 ∨ ∃ first rest, (first :: rest).Sublist (parsed hist) ∧ Open env first rest s
  rsp : s.rsp = .waiting → s.rspMax.isSome = true

theorem Open.congr {env : Env} {first : Pkt} {rest : List Pkt} {s s' : St} (o : Open env first rest s) (h1 : s'.data = s.data)
    (h2 : s'.startLen = s.startLen) (h3 : s'.seq = s.seq) (h4 : s'.tag = s.tag) (h5 : s'.owner = s.owner)
    (h6 : s'.srcEid = s.srcEid) : Open env first rest s' :=
  { chain := o.chain, mid := o.mid, data := h1 ▸ o.data, size := h1 ▸ o.size, start := h2 ▸ o.start, seq := h3 ▸ o.seq,
    tag := h4 ▸ o.tag, owner := h5 ▸ o.owner, src := h6 ▸ o.src, dst := o.dst, sup := o.sup }

theorem Inv.weaken {env : Env} {hist : List Op} {s s' : St} (i : Inv env hist s) (op : Op) (h1 : s'.data = s.data)
    (h2 : s'.startLen = s.startLen) (h3 : s'.seq = s.seq) (h4 : s'.tag = s.tag) (h5 : s'.owner = s.owner)
    (h6 : s'.srcEid = s.srcEid) (h7 : s'.rsp = .waiting → s'.rspMax.isSome = true) : Inv env (hist ++ [op]) s' := by
  refine ⟨?_, h7⟩
  rcases i.asm with h | ⟨f, r, hs, ho⟩
  · exact .inl (by rw [h2, h])
  · refine .inr ⟨f, r, ?_, ho.congr h1 h2 h3 h4 h5 h6⟩
    rw [parsed_append]
    exact hs.trans (List.sublist_append_left _ _)

theorem Inv.reset {env : Env} {hist : List Op} {s : St} (op : Op) (h : s.rsp = .waiting → s.rspMax.isSome = true) :
    Inv env (hist ++ [op]) s.reset := ⟨.inl rfl, h⟩

theorem payloads_snoc (f : Pkt) (r : List Pkt) (p : Pkt) : payloads (f :: (r ++ [p])) = payloads (f :: r) ++ p.payload := by
  simp [payloads]

/-- The outcome of `accept` on a state that satisfies the invariant. -/
theorem accept_cases (env : Env) (hist : List Op) (s : St) (p : Pkt) (hp : 0 < p.payload.length)
    (i : Inv env hist s) :
    (∃ s' e, accept env s p = .inl (s', e) ∧ (s' = s ∨ s' = s.reset) ∧ (e = .ignored ∨ e = .dropped)) ∨
    (∃ s', accept env s p = .inr s' ∧ s'.rsp = s.rsp ∧ s'.rspMax = s.rspMax ∧ s'.tag = p.hdr.tag ∧ s'.owner = p.hdr.owner ∧
      s'.srcEid = p.hdr.srcEid ∧ s'.seq = p.hdr.seq ∧ (p.hdr.owner = 0 → s.rsp = .waiting ∨ s.rsp = .pending) ∧
      ((p.hdr.som = true ∧ s'.data = [] ∧ s'.startLen = p.payload.length ∧ (p.hdr.dstEid = env.selfEid ∨ p.hdr.dstEid = 0) ∧
          (p.hdr.owner ≠ 0 → env.supported p.msgType = true)) ∨
        (p.hdr.som = false ∧ s' = s ∧ s.startLen ≠ 0 ∧
          (p.payload.length = s.startLen ∨ p.hdr.eom = true ∧ p.payload.length < s.startLen)))) := by
  unfold accept
  split
  · exact .inl ⟨_, _, rfl, .inl rfl, .inl rfl⟩
  rename_i hd
  split
  · exact .inl ⟨_, _, rfl, .inl rfl, .inl rfl⟩
  rename_i hr
  split
  · exact .inl ⟨_, _, rfl, .inl rfl, .inr rfl⟩
  rename_i hs
  have hw : p.hdr.owner = 0 → s.rsp = .waiting ∨ s.rsp = .pending := by
    intro h
    simp only [h, true_and] at hr
    unfold isExpectedResponse at hr
    split at hr
    · simp at hr
    · rename_i h'
      cases hh : s.rsp <;> simp [hh] at h' ⊢
  split
  · rename_i hsom
    refine .inr ⟨_, rfl, rfl, rfl, rfl, rfl, rfl, rfl, hw, .inl ⟨hsom, rfl, rfl, ?_, ?_⟩⟩
    · by_cases h : p.hdr.dstEid = env.selfEid
      · exact .inl h
      · by_cases h' : p.hdr.dstEid = 0
        · exact .inr h'
        · exact absurd ⟨h, h'⟩ hd
    · intro h
      cases hh : env.supported p.msgType
      · exact absurd ⟨h, hsom, hh⟩ hs
      · rfl
  rename_i hsom
  split
  · exact .inl ⟨_, _, rfl, .inl rfl, .inr rfl⟩
  rename_i hst
  split
  · exact .inl ⟨_, _, rfl, .inl rfl, .inr rfl⟩
  rename_i htag
  split
  · exact .inl ⟨_, _, rfl, .inl rfl, .inr rfl⟩
  rename_i hsrc
  split
  · exact .inl ⟨_, _, rfl, .inr rfl, .inr rfl⟩
  rename_i hseq
  split
  · exact .inl ⟨_, _, rfl, .inr rfl, .inr rfl⟩
  rename_i hlen
  have hsom' : p.hdr.som = false := by simpa using hsom
  refine .inr ⟨_, rfl, rfl, rfl, ?_, ?_, ?_, ?_, hw, .inr ⟨hsom', rfl, hst, ?_⟩⟩
  · by_cases h : p.hdr.tag = s.tag
    · exact h.symm
    · exact absurd (.inl h) htag
  · by_cases h : p.hdr.owner = s.owner
    · exact h.symm
    · exact absurd (.inr h) htag
  · by_cases h : p.hdr.srcEid = s.srcEid
    · exact h.symm
    · exact absurd h hsrc
  · by_cases h : p.hdr.seq = s.seq
    · exact h.symm
    · exact absurd h hseq
  · by_cases h : p.payload.length = s.startLen
    · exact .inl h
    · refine .inr ?_
      by_cases h' : p.hdr.eom = true ∧ p.payload.length < s.startLen
      · exact h'
      · exact absurd ⟨h, h'⟩ hlen

/-- The packets held together with the accepted one. -/
theorem extend (env : Env) (hist : List Op) (s s' : St) (p : Pkt) (op : Op) (hop : parsed [op] = [p]) (i : Inv env hist s)
    (hp : 0 < p.payload.length) (hsq : p.hdr.seq < 4)
    (htag : s'.tag = p.hdr.tag) (hown : s'.owner = p.hdr.owner) (hsrc : s'.srcEid = p.hdr.srcEid) (hseq : s'.seq = p.hdr.seq)
    (hsz : p.payload.length + s'.data.length ≤ maxBody)
    (hc : (p.hdr.som = true ∧ s'.data = [] ∧ s'.startLen = p.payload.length ∧ (p.hdr.dstEid = env.selfEid ∨ p.hdr.dstEid = 0) ∧
          (p.hdr.owner ≠ 0 → env.supported p.msgType = true)) ∨
        (p.hdr.som = false ∧ s' = s ∧ s.startLen ≠ 0 ∧
          (p.payload.length = s.startLen ∨ p.hdr.eom = true ∧ p.payload.length < s.startLen))) :
    ∃ first rest, (first :: rest).Sublist (parsed (hist ++ [op])) ∧ Chain first rest ∧
      (∀ q ∈ (first :: rest).dropLast, q.hdr.eom = false ∧ q.payload.length = first.payload.length) ∧
      (first :: rest).getLast? = some p ∧ (p.payload.length = first.payload.length ∨ p.hdr.eom = true ∧
        p.payload.length < first.payload.length) ∧
      s'.data ++ p.payload = payloads (first :: rest) ∧
      s'.startLen = first.payload.length ∧ (s'.seq + 1) % 4 = (first.hdr.seq + rest.length + 1) % 4 ∧ s'.tag = first.hdr.tag ∧
      s'.owner = first.hdr.owner ∧ s'.srcEid = first.hdr.srcEid ∧ (first.hdr.dstEid = env.selfEid ∨ first.hdr.dstEid = 0) ∧
      (first.hdr.owner ≠ 0 → env.supported first.msgType = true) := by
  rcases hc with ⟨hsom, hd, hst, hdst, hsup⟩ | ⟨hsom, rfl, hst, hlen⟩
  · refine ⟨p, [], ?_, ⟨hsom, by simp, by simp, by simp⟩, by simp, by simp, .inl rfl, ?_, hst, ?_, htag, hown, hsrc, hdst, hsup⟩
    · rw [parsed_append, hop]; exact List.sublist_append_right _ _
    · rw [hd]; simp [payloads]
    · rw [hseq]; simp
  · rcases i.asm with h | ⟨f, r, hs, o⟩
    · exact absurd h hst
    · refine ⟨f, r ++ [p], ?_, ⟨o.chain.som, ?_, ?_, ?_⟩, ?_, ?_, ?_, ?_, o.start, ?_, o.tag, o.owner, o.src, o.dst, o.sup⟩
      · rw [parsed_append, hop]
        have := hs.append (List.Sublist.refl [p])
        simpa using this
      · intro q hq
        rcases List.mem_append.mp hq with hq | hq
        · exact o.chain.noSom q hq
        · rw [List.mem_singleton.mp hq]; exact hsom
      · intro q hq
        rcases List.mem_append.mp hq with hq | hq
        · exact o.chain.same q hq
        · rw [List.mem_singleton.mp hq, ← hsrc, ← htag, ← hown]; exact ⟨o.src, o.tag, o.owner⟩
      · intro j hj
        rw [List.length_append, List.length_singleton] at hj
        by_cases hj' : j < r.length
        · rw [List.getElem_append_left hj']; exact o.chain.seqs j hj'
        · have : j = r.length := by omega
          subst this
          rw [List.getElem_append_right (Nat.le_refl _)]
          simp only [Nat.sub_self, List.getElem_cons_zero]
          rw [← hseq, o.seq]
      · intro q hq
        rw [← List.cons_append, List.dropLast_concat] at hq
        exact o.mid q hq
      · rw [← List.cons_append, List.getLast?_concat]
      · rw [← o.start]; exact hlen
      · rw [o.data, payloads_snoc]
      · have := o.seq
        rw [List.length_append, List.length_singleton, this]; omega

theorem handleResponse_ok (s : St) (h : s.rsp = .waiting → s.rspMax.isSome = true) (h' : s.rsp = .waiting ∨ s.rsp = .pending) :
    ∃ (s' : St) (e : Event), handleResponse s = .ok (s'.reset, e) ∧ s'.rsp ≠ .waiting ∧
      (e = .response s.data ∨ e = .responseTooBig ∨ e = .responseDropped) := by
  unfold handleResponse
  rcases h' with h' | h'
  · rw [if_neg (by simp [h'])]
    obtain ⟨m, hm⟩ := Option.isSome_iff_exists.mp (h h')
    rw [hm]
    simp only
    split
    · exact ⟨_, _, rfl, by simp, .inl rfl⟩
    · exact ⟨_, _, rfl, by simp, .inr (.inl rfl)⟩
  · rw [if_pos h']
    exact ⟨_, _, rfl, by simp, .inr (.inr rfl)⟩

theorem step_inv (env : Env) (hist : List Op) (s : St) (op : Op) (i : Inv env hist s) :
    ∃ s' e, step env s op = .ok (s', e) ∧ Inv env (hist ++ [op]) s' ∧ Delivered env (hist ++ [op]) e := by
  cases op with
  | send tag type max =>
    refine ⟨_, _, rfl, i.weaken _ rfl rfl rfl rfl rfl rfl ?_, trivial⟩
    simp only
    intro h; split at h
    · assumption
    · simp at h
  | finish => exact ⟨_, _, rfl, i.weaken _ rfl rfl rfl rfl rfl rfl (by simp), trivial⟩
  | rx buf a =>
    rw [step]
    have hsafe := interpret_safe buf a
    unfold processPacket
    cases hint : interpret buf a with
    | oob => rw [hint] at hsafe; exact hsafe.elim
    | err e => exact ⟨_, _, rfl, i.weaken _ rfl rfl rfl rfl rfl rfl i.rsp, trivial⟩
    | ok p =>
      rw [hint, safe_ok] at hsafe
      simp only
      have hop : parsed [.rx buf a] = [p] := by simp [parsed, hint]
      rcases accept_cases env hist s p hsafe.1 i with ⟨s', e, ha, hs', he⟩ | ⟨s', ha, hrsp, hmax, htag, hown, hsrc, hseq, hw, hc⟩
      · rw [ha]
        refine ⟨s', e, rfl, ?_, ?_⟩
        · rcases hs' with rfl | rfl
          · exact i.weaken _ rfl rfl rfl rfl rfl rfl i.rsp
          · exact .reset _ i.rsp
        · rcases he with rfl | rfl <;> trivial
      · rw [ha]
        have hrsp' : s'.rsp = .waiting → s'.rspMax.isSome = true := by rw [hrsp, hmax]; exact i.rsp
        simp only
        by_cases hsz : p.payload.length + s'.data.length > maxBody
        · rw [if_pos hsz]
          exact ⟨_, _, rfl, .reset _ hrsp', trivial⟩
        · rw [if_neg hsz, addPayload, if_pos (by omega), ok_bind]
          obtain ⟨f, r, hsub, hch, hmid, hlast, hlen, hdat, hst, hsq, ht, ho, hsr, hds, hsup⟩ :=
            extend env hist s s' p _ hop i hsafe.1 hsafe.2.1 htag hown hsrc hseq (by omega) hc
          have hdl : (payloads (f :: r)).length ≤ maxBody := by
            rw [← hdat, List.length_append]; omega
          by_cases heom : p.hdr.eom = true
          · have hmsg : Message (f :: r) := by
              refine ⟨⟨f, r, rfl, hch, hmid, ?_⟩, ?_, hdl⟩
              · intro q hq
                by_cases hq' : q ∈ (f :: r).dropLast
                · exact Nat.le_of_eq (hmid q hq').2
                · have : q = p := by
                    obtain ⟨ys, hys⟩ := List.getLast?_eq_some_iff.mp hlast
                    rw [hys] at hq hq'
                    rw [List.dropLast_concat] at hq'
                    rcases List.mem_append.mp hq with h | h
                    · exact absurd h hq'
                    · exact List.mem_singleton.mp h
                  subst this; omega
              · intro q hq; rw [hlast] at hq; cases hq; exact heom
            simp only [heom, if_true]
            by_cases hown0 : p.hdr.owner = 0
            · rw [if_pos hown0]
              obtain ⟨s2, e, he, hne, hev⟩ := handleResponse_ok
                { s' with data := s'.data ++ p.payload, seq := (s'.seq + 1) % 4 } hrsp' (by simp only [hrsp]; exact hw hown0)
              refine ⟨_, _, he, .reset _ (fun h => absurd h hne), ?_⟩
              rcases hev with rfl | rfl | rfl
              · exact ⟨f, r, hsub, hmsg, hdat, by rw [← ho, hown, hown0], hds⟩
              · trivial
              · trivial
            · rw [if_neg hown0]
              refine ⟨_, _, rfl, .reset _ hrsp', f, r, hsub, hmsg, hdat, hsr, ht, ?_, ?_, hds⟩
              · rw [← ho, hown]; exact hown0
              · exact hsup (by rw [← ho, hown]; exact hown0)
          · simp only [heom, Bool.false_eq_true, if_false]
            refine ⟨_, _, rfl, ⟨.inr ⟨f, r, hsub, ?_⟩, hrsp'⟩, trivial⟩
            have heom' : p.hdr.eom = false := by simpa using heom
            refine { chain := hch, mid := ?_, data := hdat, size := by simp only [hdat]; exact hdl, start := hst, seq := hsq, tag := ht,
                     owner := ho, src := hsr, dst := hds, sup := hsup }
            intro q hq
            by_cases hq' : q ∈ (f :: r).dropLast
            · exact hmid q hq'
            · have : q = p := by
                obtain ⟨ys, hys⟩ := List.getLast?_eq_some_iff.mp hlast
                rw [hys] at hq hq'
                rw [List.dropLast_concat] at hq'
                rcases List.mem_append.mp hq with h | h
                · exact absurd h hq'
                · exact List.mem_singleton.mp h
              subst this
              refine ⟨heom', ?_⟩
              rcases hlen with h | h
              · exact h
              · rw [heom'] at h; simp at h

theorem run_inv (env : Env) : ∀ (ops hist : List Op) (s : St), Inv env hist s →
    ∃ s' es, run env s ops = .ok (s', es) ∧ es.length = ops.length ∧
      ∀ i (h : i < es.length), Delivered env (hist ++ ops.take (i + 1)) es[i] := by
  intro ops
  induction ops with
  | nil => intro hist s _; exact ⟨s, [], rfl, rfl, by simp⟩
  | cons op ops ih =>
    intro hist s i
    obtain ⟨s1, e, h1, hi, hd⟩ := step_inv env hist s op i
    obtain ⟨s2, es, h2, hl, hes⟩ := ih (hist ++ [op]) s1 hi
    refine ⟨s2, e :: es, ?_, by simp [hl], ?_⟩
    · rw [run_cons env s s1 e op ops h1, h2]; rfl
    · intro j hj
      cases j with
      | zero => simpa using hd
      | succ j =>
        have := hes j (by simpa using hj)
        simpa using this

end Verif.Mctp
