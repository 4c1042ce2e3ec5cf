import Verif.LoggingFlash.Init
/-! Loss of power at any time. -/
namespace Verif.LoggingFlash
open Spec

variable {s : St} {old : List (List Entry)} {cur : List Entry}

/-- A prefix of entries ends between two of them or within one. -/
theorem bytes_take : ∀ (es : List Entry) (K : Nat), K ≤ (bytes es).length →
    (∃ Q R, es = Q ++ R ∧ (bytes es).take K = bytes Q ∧ (bytes Q).length = K) ∨
    (∃ Q e R j, es = Q ++ e :: R ∧ 0 < j ∧ j < 7 + e.data.length ∧ (bytes es).take K = bytes Q ++ e.bytes.take j ∧ (bytes Q).length + j = K)
  | [], K, h => .inl ⟨[], [], rfl, by simp [bytes_nil], by simp [bytes_nil] at h ⊢; omega⟩
  | e :: es, K, h => by
    by_cases h0 : K = 0
    · exact .inl ⟨[], e :: es, rfl, by rw [h0]; rfl, by rw [h0]; rfl⟩
    rw [bytes_cons]
    by_cases hlt : K < 7 + e.data.length
    · right
      exact ⟨[], e, es, K, rfl, by omega, hlt, by rw [List.take_append_of_le_length (by rw [entry_length]; omega)]; rfl, by simp [bytes_nil]⟩
    · have hK : K = e.bytes.length + (K - (7 + e.data.length)) := by rw [entry_length]; omega
      have hl : K - (7 + e.data.length) ≤ (bytes es).length := by
        rw [bytes_cons, List.length_append, entry_length] at h; omega
      have ht : (e.bytes ++ bytes es).take K = e.bytes ++ (bytes es).take (K - (7 + e.data.length)) := by
        conv => lhs; rw [hK]
        rw [List.take_length_add_append]
      rw [ht]
      rcases bytes_take es _ hl with ⟨Q, R, q1, q2, q3⟩ | ⟨Q, f, R, j, q1, q2, q3, q4, q5⟩
      · exact .inl ⟨e :: Q, R, by rw [q1]; rfl, by rw [q2, bytes_cons], by rw [bytes_cons, List.length_append, q3, entry_length]; omega⟩
      · refine .inr ⟨e :: Q, f, R, j, by rw [q1]; rfl, q2, q3, by rw [q4, bytes_cons, List.append_assoc], ?_⟩
        rw [bytes_cons, List.length_append, entry_length]; omega

/-- What is left of an entry. -/
def cut (e : Entry) (k : Nat) : Entry := ⟨e.id, e.data.take k ++ List.replicate (e.data.length - k) 0xFF⟩

theorem cut_length (e : Entry) {k : Nat} (h : k ≤ e.data.length) : (cut e k).data.length = e.data.length := by
  unfold cut; simp only [List.length_append, List.length_take, List.length_replicate]; omega

theorem cut_ok {e : Entry} {k : Nat} (h : k ≤ e.data.length) (he : e.Ok) : (cut e k).Ok := by
  unfold Entry.Ok; rw [cut_length e h]; exact he

theorem cut_bytes (e : Entry) {k n : Nat} (h : k ≤ e.data.length) (hn : e.data.length - k ≤ n) :
    e.bytes.take (7 + k) ++ List.replicate n 0xFF = (cut e k).bytes ++ List.replicate (n - (e.data.length - k)) 0xFF := by
  have h1 : e.bytes.take (7 + k) = header e.data.length e.id ++ e.data.take k := by
    rw [entry_bytes]; exact take_add (header_length _ _) k
  have h2 : (cut e k).bytes = header e.data.length e.id ++ (e.data.take k ++ List.replicate (e.data.length - k) 0xFF) := by
    rw [entry_bytes, cut_length e h]; rfl
  rw [h1, h2, List.append_assoc, List.append_assoc, List.append_assoc, List.replicate_append_replicate,
    show e.data.length - k + (n - (e.data.length - k)) = n by omega]

theorem ids_from {es : List Entry} {n : Nat} (h : Consecutive es n) (hm : ∀ e ∈ es, e.id ≠ 2 ^ 32 - 1) :
    ∃ b, From b es ∧ b + es.length < 2 ^ 32 := by
  obtain ⟨base, h1, -⟩ := h
  by_cases h0 : es = []
  · subst h0; exact ⟨0, nofun, by decide⟩
  have hpos := List.length_pos_iff.2 h0
  have hlt : base % 2 ^ 32 + es.length < 2 ^ 32 := by
    by_cases hge : base % 2 ^ 32 + es.length < 2 ^ 32
    · exact hge
    · exfalso
      have hk : 2 ^ 32 - 1 - base % 2 ^ 32 < es.length := by have := Nat.mod_lt base (show 0 < 2 ^ 32 by decide); omega
      have := h1 (2 ^ 32 - 1 - base % 2 ^ 32) es[2 ^ 32 - 1 - base % 2 ^ 32] (List.getElem?_eq_getElem hk)
      apply hm _ (List.getElem_mem hk)
      rw [this]; have := Nat.mod_lt base (show 0 < 2 ^ 32 by decide); omega
  refine ⟨base % 2 ^ 32, fun k e hk => ?_, hlt⟩
  have := (List.getElem?_eq_some_iff.1 hk).1
  rw [h1 k e hk]; omega

theorem from_prefix {b : Nat} {A B : List Entry} (h : From b (A ++ B)) (hl : b + (A ++ B).length < 2 ^ 32) : ∃ b, From b A ∧ b + A.length < 2 ^ 32 :=
  ⟨b, h.append.1, by rw [List.length_append] at hl; omega⟩

theorem from_cut {b k : Nat} {A B : List Entry} {e : Entry} (h : From b (A ++ e :: B)) (hl : b + (A ++ e :: B).length < 2 ^ 32) :
    ∃ b, From b (A ++ [cut e k]) ∧ b + (A ++ [cut e k]).length < 2 ^ 32 := by
  refine ⟨b, fun i x hx => ?_, ?_⟩
  · by_cases hi : i < A.length
    · rw [List.getElem?_append_left hi] at hx
      exact h i x (by rw [List.getElem?_append_left hi]; exact hx)
    · have hlt := (List.getElem?_eq_some_iff.1 hx).1
      rw [List.length_append, List.length_singleton] at hlt
      have hie : i = A.length := by omega
      subst hie
      rw [List.getElem?_append_right (Nat.le_refl _), Nat.sub_self] at hx
      cases hx
      exact h A.length e (by rw [List.getElem?_append_right (Nat.le_refl _), Nat.sub_self]; rfl)
  · simp at hl ⊢; omega

/-- The flash can hold a log whose last sector has been completed or not. -/
theorem medium_of (hi : Inv s old cur) (hl : old.length < 16) {Q : List Entry} {tail : Bytes} (hok : ∀ e ∈ Q, e.Ok)
    (hf : s.flash (s.addr / 4096) = bytes Q ++ tail) (ht : Stop tail ∧ Q ≠ [] ∨ ∃ n, tail = List.replicate n 0xFF)
    (hids : ∃ b, From b (old.flatten ++ Q) ∧ b + (old.flatten ++ Q).length < 2 ^ 32) (hr : Restorable s.flash) :
    ∃ old' Q', Medium s.flash s.start old' Q' ∧ old'.flatten ++ Q' = old.flatten ++ Q := by
  have hpos := hi.pos
  have hw := hi.wrap
  have hst := hi.start
  have hlen := hi.flashLen _ (cur_pos hi)
  by_cases hstop : Stop tail ∧ Q ≠ []
  · refine ⟨old ++ [Q], [], ⟨hi.flashLen, hi.start, by simp; omega, by simp; omega, ?_, ?_, ?_, fun _ => rfl, nofun, ?_, ?_⟩, by simp⟩
    · intro i es h
      have hil := (List.getElem?_eq_some_iff.1 h).1
      simp at hil
      by_cases hlast : i = old.length
      · subst hlast
        rw [List.getElem?_append_right (Nat.le_refl _), Nat.sub_self] at h
        cases h
        rw [← hpos]
        exact ⟨hstop.2, hok, tail, hf, hstop.1⟩
      · rw [List.getElem?_append_left (by omega)] at h
        exact (hi.sec i es h).1
    · intro i h h16
      simp at h
      exact (hi.free i (by omega) h16).2
    · intro h16
      simp at h16
      refine ⟨4096, by decide, ?_⟩
      rw [List.length_append, List.length_singleton, (hi.free (old.length + 1) (by omega) (by omega)).2]; rfl
    · simpa using hids
    · rintro ⟨h1, h2, -⟩
      simp at h2; omega
  · obtain ⟨n, rfl⟩ : ∃ n, tail = List.replicate n 0xFF := by
      rcases ht with ht | ht
      · exact (hstop ht).elim
      · exact ht
    have hn7 : 7 ≤ n := by
      by_cases h7 : 7 ≤ n
      · exact h7
      · exfalso
        apply hstop
        refine ⟨.inl (by simp; omega), ?_⟩
        rintro rfl
        rw [hf, bytes_nil] at hlen; simp at hlen; omega
    refine ⟨old, Q, ⟨hi.flashLen, hi.start, hi.count, hw, fun i es h => (hi.sec i es h).1, fun i h h' => (hi.free i h h').2,
      fun _ => ⟨n, hn7, by rw [← hpos]; exact hf⟩, fun h => by omega, hok, hids, ?_⟩, rfl⟩
    rintro ⟨h1, h2, rfl⟩
    have h0 : s.addr / 4096 = 0 := by omega
    rw [h0, bytes_nil, List.nil_append] at hf
    rw [h0, hf, List.length_replicate] at hlen
    subst hlen
    obtain ⟨es, hes⟩ : ∃ es, old[14]? = some es := ⟨old[14], List.getElem?_eq_getElem (by omega)⟩
    have h15 := (hi.sec 14 es hes).1
    rw [h1] at h15
    have h15 : Sector (s.flash 15) es := h15
    rw [hr.2 hf] at h15
    obtain ⟨ne, ok, tl, hc, -⟩ := h15
    cases es with
    | nil => exact ne rfl
    | cons e l =>
      rw [bytes_cons, Entry.bytes] at hc
      have := congrArg List.head? hc
      rw [show List.head? (List.replicate 4096 (0xFF : UInt8)) = some 0xFF from rfl] at this
      simp at this

/-- After a loss of power all entries that had been flushed are still there. -/
theorem crash (hi : Inv s old cur) {p : Nat} (hd : Dur s cur p) (hr : Restorable s.flash) (hm : ∀ e ∈ old.flatten ++ cur, e.id ≠ 2 ^ 32 - 1) :
    ∃ old' Q', Medium s.flash s.start old' Q' ∧ Survives (old.flatten ++ cur) p (old'.flatten ++ Q') := by
  obtain ⟨b, hfrom, hb⟩ := ids_from hi.ids hm
  obtain ⟨F, P, hFP, hP, hF⟩ := hd
  by_cases h16 : old.length = 16
  · have ha0 : s.addr % 4096 = 0 := by
      by_cases h : 0 < s.addr % 4096
      · have := hi.room h; omega
      · omega
    have hF0 : F = [] := by
      cases F with
      | nil => rfl
      | cons e F =>
        have := bytes_pos (es := e :: F) nofun
        omega
    refine ⟨old, [], ⟨hi.flashLen, hi.start, hi.count, hi.wrap, fun i es h => (hi.sec i es h).1, fun i h h' => (hi.free i h h').2,
      fun h => by omega, fun _ => rfl, nofun, ?_, by omega⟩, old.flatten, cur, [], rfl, ?_, by simp, .none _⟩
    · rw [List.append_nil]; exact from_prefix hfrom hb
    · rw [hFP, hF0, List.nil_append]; exact hP
  have hl : old.length < 16 := by have := hi.count; omega
  obtain ⟨m, hm', hf⟩ := hi.ready hl
  have hrem := hi.remain
  have hcp := cur_pos hi
  have hA : ((s.flash (s.addr / 4096)).take (s.addr % 4096)).length = s.addr % 4096 := by
    rw [List.length_take, hi.flashLen _ hcp]; omega
  -- the part that is in the flash
  have hpre : (s.flash (s.addr / 4096)).take (s.addr % 4096) ++ s.buf.take m = (bytes cur ++ s.mark).take (s.addr % 4096 + m) := by
    rw [← hi.data, take_add hA]
  have hdl : s.addr % 4096 + s.buf.length = (bytes cur).length + s.mark.length := by
    have := congrArg List.length hi.data
    rw [List.length_append, List.length_append, hA] at this
    exact this
  rw [← List.append_assoc, hpre] at hf
  -- survival of a prefix of the current entries
  have surv1 : ∀ Q R, cur = Q ++ R → s.addr % 4096 ≤ (bytes Q).length → Survives (old.flatten ++ cur) p (old.flatten ++ Q) := by
    intro Q R hQR hle
    have hpl : F.length ≤ Q.length := by
      by_cases h : F.length ≤ Q.length
      · exact h
      · exfalso
        have hQ : Q = F.take Q.length := by
          have := congrArg (List.take Q.length) (hFP.symm.trans hQR)
          rw [List.take_append_of_le_length (by omega), List.take_left' rfl] at this
          exact this.symm
        have hsp : F = Q ++ F.drop Q.length := by
          conv => lhs; rw [← List.take_append_drop Q.length F, ← hQ]
        have : 0 < (bytes (F.drop Q.length)).length := bytes_pos (by intro h0; have := congrArg List.length h0; rw [List.length_drop] at this; simp at this; omega)
        rw [hsp, bytes_append, List.length_append] at hF
        omega
    have hQF : Q = F ++ Q.drop F.length := by
      have := congrArg (List.take F.length) (hFP.symm.trans hQR)
      rw [List.take_left' rfl, List.take_append_of_le_length hpl] at this
      conv => lhs; rw [← List.take_append_drop F.length Q, ← this]
    have hPQ : P = Q.drop F.length ++ R := by
      have := hFP.symm.trans hQR
      rw [hQF, List.append_assoc] at this
      have h2 := List.append_cancel_left this
      exact h2
    refine ⟨old.flatten ++ F, P, Q.drop F.length, by rw [hFP, List.append_assoc], hP, by rw [List.append_assoc, ← hQF], ?_⟩
    rw [hPQ]
    rcases List.eq_nil_or_concat (Q.drop F.length) with h | ⟨A, e, h⟩
    · rw [h]; exact .none _
    · rw [h]
      have := Torn.some A e R e.data.length (Nat.le_refl _)
      simpa using this
  -- survival of a prefix and of part of an entry
  have surv2 : ∀ Q e R k, cur = Q ++ e :: R → s.addr % 4096 ≤ (bytes Q).length + (7 + k) → k < e.data.length →
      Survives (old.flatten ++ cur) p (old.flatten ++ (Q ++ [cut e k])) := by
    intro Q e R k hQR hle hk
    have hpl : F.length ≤ Q.length := by
      by_cases h : F.length ≤ Q.length
      · exact h
      · exfalso
        have hQ : Q ++ [e] = F.take (Q.length + 1) := by
          have := congrArg (List.take (Q.length + 1)) (hFP.symm.trans hQR)
          rw [List.take_append_of_le_length (by omega), show Q ++ e :: R = (Q ++ [e]) ++ R by simp, List.take_left' (by simp)] at this
          exact this.symm
        have hsp : F = (Q ++ [e]) ++ F.drop (Q.length + 1) := by
          conv => lhs; rw [← List.take_append_drop (Q.length + 1) F, ← hQ]
        rw [hsp, bytes_append, List.length_append, bytes_append, List.length_append] at hF
        have : (bytes [e]).length = 7 + e.data.length := by rw [bytes_cons, List.length_append, entry_length]; simp [bytes_nil]
        omega
    have hQF : Q = F ++ Q.drop F.length := by
      have := congrArg (List.take F.length) (hFP.symm.trans hQR)
      rw [List.take_left' rfl, List.take_append_of_le_length hpl] at this
      conv => lhs; rw [← List.take_append_drop F.length Q, ← this]
    have hPQ : P = Q.drop F.length ++ e :: R := by
      have := hFP.symm.trans hQR
      rw [hQF, List.append_assoc] at this
      have h2 := List.append_cancel_left this
      exact h2
    refine ⟨old.flatten ++ F, P, Q.drop F.length ++ [cut e k], by rw [hFP, List.append_assoc], hP, ?_, ?_⟩
    · conv => lhs; rw [hQF]
      simp only [List.append_assoc]
    · rw [hPQ]; exact .some _ e R k (by omega)
  by_cases hK : s.addr % 4096 + m ≤ (bytes cur).length
  · rw [List.take_append_of_le_length hK] at hf
    rcases bytes_take cur _ hK with ⟨Q, R, q1, q2, q3⟩ | ⟨Q, e, R, j, q1, q2, q3, q4, q5⟩
    · rw [q2] at hf
      have hids : ∃ b, From b (old.flatten ++ Q) ∧ b + (old.flatten ++ Q).length < 2 ^ 32 := by
        rw [q1, ← List.append_assoc] at hfrom hb
        exact from_prefix hfrom hb
      obtain ⟨old', Q', hM, heq⟩ := medium_of hi hl (fun x hx => hi.ok x (by rw [q1]; simp [hx])) hf (.inr ⟨_, rfl⟩) hids hr
      exact ⟨old', Q', hM, by rw [heq]; exact surv1 Q R q1 (by omega)⟩
    · rw [q4, List.append_assoc] at hf
      have heok : e.Ok := hi.ok e (by rw [q1]; simp)
      by_cases hj : j < 7
      · exfalso
        exact hr.1 _ hcp ⟨Q, e, j, _, fun x hx => hi.ok x (by rw [q1]; simp [hx]), heok, q2, hj, hf⟩
      · obtain ⟨k, rfl⟩ : ∃ k, j = 7 + k := ⟨j - 7, by omega⟩
        have hroom : (bytes Q).length + (7 + e.data.length) ≤ 4096 := by
          have : (bytes cur).length = (bytes Q).length + (7 + e.data.length + (bytes R).length) := by
            rw [q1, bytes_append, List.length_append, bytes_cons, List.length_append, entry_length]
          omega
        have hroom' : e.data.length - k ≤ 4096 - s.addr % 4096 - m := by omega
        rw [cut_bytes e (by omega) hroom', ← List.append_assoc] at hf
        have hbq : bytes Q ++ (cut e k).bytes = bytes (Q ++ [cut e k]) := by rw [bytes_append]; simp [bytes]
        rw [hbq] at hf
        have hids : ∃ b, From b (old.flatten ++ (Q ++ [cut e k])) ∧ b + (old.flatten ++ (Q ++ [cut e k])).length < 2 ^ 32 := by
          rw [q1, ← List.append_assoc] at hfrom hb
          rw [← List.append_assoc]
          exact from_cut hfrom hb
        obtain ⟨old', Q', hM, heq⟩ := medium_of hi hl (Q := Q ++ [cut e k]) (by
          intro x hx
          rcases List.mem_append.1 hx with hx | hx
          · exact hi.ok x (by rw [q1]; simp [hx])
          · rw [List.mem_singleton] at hx; subst hx; exact cut_ok (by omega) heok) hf (.inr ⟨_, rfl⟩) hids hr
        exact ⟨old', Q', hM, by rw [heq]; exact surv2 Q e R k q1 (by omega) (by omega)⟩
  · -- part of the terminator
    have hmt : s.terminated = true := by
      cases ht : s.terminated
      · exfalso
        unfold St.mark at hdl; rw [ht] at hdl; simp at hdl; omega
      · rfl
    have hmk : s.mark = term := by unfold St.mark; rw [if_pos hmt]
    have hne := hi.marked hmt
    rw [hmk] at hf hdl
    have hj : s.addr % 4096 + m = (bytes cur).length + (s.addr % 4096 + m - (bytes cur).length) := by omega
    rw [hj, take_add rfl, List.append_assoc] at hf
    rw [term_length] at hdl
    have hids : ∃ b, From b (old.flatten ++ cur) ∧ b + (old.flatten ++ cur).length < 2 ^ 32 := ⟨b, hfrom, hb⟩
    obtain ⟨old', Q', hM, heq⟩ := medium_of hi hl hi.ok hf (.inl ⟨.inr ⟨_, _, by omega, by omega, rfl⟩, hne⟩) hids hr
    refine ⟨old', Q', hM, ?_⟩
    rw [heq]
    exact ⟨old.flatten ++ F, P, P, by rw [hFP, List.append_assoc], hP, by rw [hFP, List.append_assoc], by
      rcases List.eq_nil_or_concat P with h | ⟨A, e, h⟩
      · rw [h]; exact .none _
      · rw [h]
        have := Torn.some A e [] e.data.length (Nat.le_refl _)
        simpa using this⟩

end Verif.LoggingFlash
