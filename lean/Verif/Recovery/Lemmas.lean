import Verif.Recovery.Spec
import Verif.Flash.Props
/-! Lemmas about recovery images. -/
namespace Verif.Recovery
open Flash (Mem bytesAt u32)

theorem bytesAt_length (m : Mem) (a n : Nat) : (bytesAt m a n).length = n := by simp [bytesAt]

theorem bytesAt_take (m : Mem) (a n k : Nat) (h : k ≤ n) : (bytesAt m a n).take k = bytesAt m a k := by
  obtain ⟨j, rfl⟩ : ∃ j, n = k + j := ⟨n - k, by omega⟩
  rw [Flash.bytesAt_add, List.take_append_of_le_length (by rw [bytesAt_length]; exact Nat.le_refl _), List.take_of_length_le (by rw [bytesAt_length]; exact Nat.le_refl _)]

theorem bytesAt_drop (m : Mem) (a n k : Nat) (h : k ≤ n) : (bytesAt m a n).drop k = bytesAt m (a + k) (n - k) := by
  obtain ⟨j, rfl⟩ : ∃ j, n = k + j := ⟨n - k, by omega⟩
  rw [Flash.bytesAt_add, List.drop_append_of_le_length (by rw [bytesAt_length]; exact Nat.le_refl _), List.drop_of_length_le (by rw [bytesAt_length]; exact Nat.le_refl _),
    Nat.add_sub_cancel_left, List.nil_append]

theorem bytesAt_get (m : Mem) (a n k : Nat) (h : k < n) : (bytesAt m a n)[k]? = some (m (a + k)) := by
  simp [bytesAt, h]

theorem leNat_lt (l : Bytes) : leNat l < 256 ^ l.length := by
  induction l with
  | nil => simp [leNat]
  | cons b l ih =>
    have := b.toNat_lt
    simp only [leNat, List.length_cons, Nat.pow_succ]
    omega

theorem u16At_lt (m : Mem) (a : Nat) : u16At m a < 65536 := by
  have := leNat_lt (bytesAt m a 2)
  rw [bytesAt_length] at this
  exact this

theorem u32At_lt (m : Mem) (a : Nat) : u32At m a < 2 ^ 32 := by
  have := leNat_lt (bytesAt m a 4)
  rw [bytesAt_length] at this
  exact this

theorem rd_ok {env : Env} {m : Mem} {k a n : Nat} {b : Bytes} (h : rd env m k a n = .ok b) : b = bytesAt m a n ∧ a + n ≤ env.size ∧ env.fault k = false := by
  unfold rd at h
  split at h
  · cases h
  · split at h
    · cases h; exact ⟨rfl, by assumption, by simp_all⟩
    · cases h

theorem rd_of {env : Env} {m : Mem} {k a n : Nat} (h : a + n ≤ env.size) (hf : env.fault k = false) : rd env m k a n = .ok (bytesAt m a n) := by
  unfold rd
  rw [hf, if_neg nofun, if_pos h]

theorem imageHeader_ok {env : Env} {m : Mem} {k a marker max len fmt : Nat} (h : imageHeader env m k a marker max = .ok (len, fmt)) :
    a + 8 ≤ env.size ∧ 8 ≤ len ∧ len ≤ max ∧ u32At m (a + 4) = marker ∧ u16At m a = len ∧ u16At m (a + 2) = fmt := by
  unfold imageHeader at h
  cases hr : rd env m k a 8 with
  | error e => rw [hr] at h; cases h
  | ok b =>
    obtain ⟨rfl, h1, _⟩ := rd_ok hr
    rw [hr] at h
    simp only at h
    rw [bytesAt_take _ _ _ _ (by omega), bytesAt_drop _ _ _ _ (by omega), bytesAt_drop _ _ _ _ (by omega), bytesAt_take _ _ _ _ (by omega)] at h
    split at h
    · cases h
    split at h
    · cases h
    split at h
    · cases h
    cases h
    rename_i h2 h3 h4
    exact ⟨h1, by omega, by omega, by simpa [u32At] using h3, rfl, rfl⟩

theorem imageHeader_of {env : Env} {m : Mem} {k a marker max : Nat} (hs : a + 8 ≤ env.size) (hf : env.fault k = false) (h8 : 8 ≤ u16At m a) (hm : u16At m a ≤ max)
    (hk : u32At m (a + 4) = marker) : imageHeader env m k a marker max = .ok (u16At m a, u16At m (a + 2)) := by
  unfold imageHeader
  rw [rd_of hs hf]
  simp only
  rw [bytesAt_take _ _ _ _ (by omega), bytesAt_drop _ _ _ _ (by omega), bytesAt_drop _ _ _ _ (by omega), bytesAt_take _ _ _ _ (by omega)]
  rw [if_neg (by simp only [u16At] at h8; omega), if_neg (by simp only [u32At] at hk; simpa using hk), if_neg (by simp only [u16At] at hm; omega)]
  rfl

theorem loadData_ok {env : Env} {m : Mem} {k a len : Nat} {d : Bytes} (h : loadData env m k a len = .ok d) :
    d = bytesAt m (u32 (a + 8)) (len - 8) ∧ u32 (a + 8) + (len - 8) ≤ env.size := by
  unfold loadData at h
  split at h
  · cases h
  · exact ⟨(rd_ok h).1, (rd_ok h).2.1⟩

theorem secHeader_ok {env : Env} {m : Mem} {k a : Nat} {s : Sec} (hsz : env.size ≤ 2 ^ 30) (h : secHeader env m k a = .ok s) :
    IsSection m a s ∧ a + s.hlen ≤ env.size := by
  unfold secHeader at h
  cases hi : imageHeader env m k a sectionMarker 1024 with
  | error e => rw [hi] at h; cases h
  | ok lf =>
    obtain ⟨len, fmt⟩ := lf
    obtain ⟨h1, h2, h3, h4, h5, h6⟩ := imageHeader_ok hi
    rw [hi] at h
    simp only at h
    split at h
    · cases h
    rename_i hlen
    have hl : 16 ≤ len ∧ (fmt = 0 → len = 16) := by
      simp only [sectionLenOk, Bool.not_eq_true', Bool.not_eq_false] at hlen
      split at hlen <;> simp at hlen <;> omega
    cases hd : loadData env m (k + 1) a len with
    | error e => rw [hd] at h; cases h
    | ok d =>
      rw [hd] at h
      obtain ⟨rfl, h7⟩ := loadData_ok hd
      rw [Flash.u32_id (by omega)] at h7 h
      simp only at h
      cases h
      refine ⟨⟨h4, h5, ⟨hl.1, h3⟩, fun hf => hl.2 (h6 ▸ hf), ?_, ?_⟩, ?_⟩
      · rw [bytesAt_take _ _ _ _ (by omega)]; rfl
      · simp only
        rw [bytesAt_drop _ _ _ _ (by omega), bytesAt_take _ _ _ _ (by omega)]; rfl
      · simp only; omega

theorem secHeader_of {env : Env} {m : Mem} {k a : Nat} {s : Sec} (hsz : env.size ≤ 2 ^ 30) (hf : ∀ k, env.fault k = false) (h : IsSection m a s)
    (hr : a + s.hlen ≤ env.size) : secHeader env m k a = .ok s := by
  obtain ⟨h1, h2, ⟨h3, h3'⟩, h4, h5, h6⟩ := h
  unfold secHeader
  rw [imageHeader_of (by omega) (hf _) (by omega) (by omega) (show _ = sectionMarker from h1)]
  simp only
  rw [if_neg (by
    simp only [sectionLenOk]
    split
    · rename_i h0; have := h4 h0; simp; omega
    · simp; omega)]
  unfold loadData
  rw [hf, if_neg nofun, Flash.u32_id (by omega), rd_of (by omega) (hf _)]
  simp only
  rw [bytesAt_take _ _ _ _ (by omega), bytesAt_drop _ _ _ _ (by omega), bytesAt_take _ _ _ _ (by omega)]
  simp only [u32At] at h5 h6
  rw [h2, h5, h6]

/-! ### Strings -/

theorem strnlen_some : ∀ {b : Bytes} {max n : Nat}, strnlen b max = some n →
    n ≤ max ∧ n ≤ b.length ∧ 0 ∉ b.take n ∧ (n < max → b.take (n + 1) = b.take n ++ [0] ∧ n < b.length)
  | b, 0, n, h => by cases b <;> (cases h; simp)
  | [], max + 1, n, h => by cases h
  | b :: bs, max + 1, n, h => by
    unfold strnlen at h
    split at h
    · cases h
      rename_i h0
      subst h0
      simp
    · rename_i h0
      cases hs : strnlen bs max with
      | none => rw [hs] at h; cases h
      | some k =>
        rw [hs] at h
        cases h
        show k + 1 ≤ _ ∧ _
        obtain ⟨h1, h2, h3, h4⟩ := strnlen_some hs
        refine ⟨by omega, by simpa using h2, ?_, fun (hl : k + 1 < _) => ?_⟩
        · rw [List.take_succ_cons, List.mem_cons, not_or]
          exact ⟨fun h => h0 h.symm, h3⟩
        · have := h4 (by omega)
          exact ⟨by rw [List.take_succ_cons, this.1, List.take_succ_cons, List.cons_append], by simpa using this.2⟩

theorem strnlen_of : ∀ {v r : Bytes} {max : Nat}, 0 ∉ v → v.length < max → strnlen (v ++ 0 :: r) max = some v.length
  | [], r, max + 1, _, _ => by simp [strnlen]
  | b :: v, r, max + 1, h, hl => by
    rw [List.cons_append]
    unfold strnlen
    rw [List.mem_cons, not_or] at h
    rw [if_neg (fun x => h.1 x.symm), strnlen_of h.2 (by simp at hl; omega)]
    rfl
  | b :: v, r, 0, _, hl => by simp at hl
  | [], r, 0, _, hl => by simp at hl

theorem strnlen_none : ∀ {b : Bytes} {max : Nat}, max ≤ b.length → strnlen b max ≠ none
  | b, 0, _ => by cases b <;> nofun
  | [], max + 1, h => by simp at h
  | b :: bs, max + 1, h => by
    unfold strnlen
    split
    · nofun
    · have := strnlen_none (b := bs) (max := max) (by simpa using h)
      intro hn
      cases hs : strnlen bs max with
      | none => exact this hs
      | some k => rw [hs] at hn; cases hn

theorem strcmpEq_true : ∀ {x b : Bytes}, strcmpEq x b = some true → b.take (x.length + 1) = x ++ [0] ∧ x.length < b.length
  | [], [], h => by cases h
  | _ :: _, [], h => by cases h
  | [], b :: bs, h => by
    simp only [strcmpEq, Option.some.injEq, decide_eq_true_eq] at h
    subst h
    simp
  | x :: xs, b :: bs, h => by
    unfold strcmpEq at h
    split at h
    · rename_i he
      subst he
      obtain ⟨h1, h2⟩ := strcmpEq_true h
      exact ⟨by rw [List.length_cons, List.take_succ_cons, h1, List.cons_append], by simpa using h2⟩
    · cases h

theorem strcmpEq_of : ∀ {x b : Bytes}, b.take (x.length + 1) = x ++ [0] → strcmpEq x b = some true
  | [], [], h => by simp at h
  | _ :: _, [], h => by simp at h
  | [], b :: bs, h => by simp at h; simp [strcmpEq, h]
  | x :: xs, b :: bs, h => by
    simp only [List.length_cons, List.take_succ_cons, List.cons_append, List.cons.injEq] at h
    unfold strcmpEq
    rw [if_pos h.1.symm]
    exact strcmpEq_of h.2

/-! ### The header -/

theorem hdr_imageLen {m : Mem} {a len fmt : Nat} (h : 49 ≤ len) : Hdr.imageLen ⟨len, fmt, bytesAt m (a + 8) (len - 8)⟩ = u32At m (a + 40) := by
  simp only [Hdr.imageLen]
  rw [bytesAt_drop _ _ _ _ (by omega), bytesAt_take _ _ _ _ (by omega)]; rfl

theorem hdr_sigLen {m : Mem} {a len fmt : Nat} (h : 49 ≤ len) : Hdr.sigLen ⟨len, fmt, bytesAt m (a + 8) (len - 8)⟩ = u32At m (a + 44) := by
  simp only [Hdr.sigLen]
  rw [bytesAt_drop _ _ _ _ (by omega), bytesAt_take _ _ _ _ (by omega)]; rfl

theorem checkHeader_ok {w : Nat} {m : Mem} {a len fmt : Nat} (hw : 32 ≤ w) (h8 : 8 ≤ len) (hmax : len ≤ 1024)
    (h : checkHeader w ⟨len, fmt, bytesAt m (a + 8) (len - 8)⟩ = .ok ()) :
    49 ≤ len ∧ (fmt = 0 → (∃ v, v ≠ [] ∧ 0 ∉ v ∧ v.length < 32 ∧ bytesAt m (a + 8) (v.length + 1) = v ++ [0]) ∧
      (∃ p, 0 ∉ p ∧ len = 50 + p.length ∧ (m (a + 48)).toNat = p.length + 1 ∧ bytesAt m (a + 49) (p.length + 1) = p ++ [0]) ∧
      u32At m (a + 44) ≤ (u32At m (a + 40) + 2 ^ w - len) % 2 ^ w) := by
  have hpow : 2 ^ 32 ≤ 2 ^ w := Nat.pow_le_pow_right (by omega) hw
  unfold checkHeader at h
  simp only [bytesAt_length] at h
  split at h
  · split at h
    · cases h
    rename_i v hv
    split at h
    · cases h
    rename_i p hp
    have h40 : 40 < len - 8 := by
      apply Classical.byContradiction
      intro hc
      rw [List.getElem?_eq_none (by rw [bytesAt_length]; omega)] at hp
      cases hp
    rw [bytesAt_get _ _ _ _ h40] at hp
    cases hp
    split at h
    · cases h
    rename_i hlen
    have hp := (m (a + 8 + 40)).toNat_lt
    have hl : len - 8 = (m (a + 8 + 40)).toNat + 41 := by
      by_cases hc : (m (a + 8 + 40)).toNat ≤ len - 8
      · rw [show len - 8 + 2 ^ w - (m (a + 8 + 40)).toNat = len - 8 - (m (a + 8 + 40)).toNat + 2 ^ w by omega, Nat.add_mod_right,
          Nat.mod_eq_of_lt (by omega)] at hlen
        omega
      · rw [Nat.mod_eq_of_lt (by omega)] at hlen
        omega
    split at h
    · cases h
    rename_i n hn
    split at h
    · cases h
    rename_i hnp
    split at h
    · cases h
    rename_i hsig
    split at h
    · cases h
    rename_i hver
    refine ⟨by omega, fun _ => ⟨?_, ?_, ?_⟩⟩
    · obtain ⟨v1, v2, v3, v4⟩ := strnlen_some hv
      rw [bytesAt_length] at v2
      have v4 := (v4 (by omega)).1
      rw [bytesAt_take _ _ _ _ (by omega)] at v3
      rw [bytesAt_take _ _ _ _ (by omega), bytesAt_take _ _ _ _ (by omega)] at v4
      exact ⟨bytesAt m (a + 8) v, fun h0 => hver (.inr (by rw [← bytesAt_length m (a + 8) v, h0]; rfl)), v3, by rw [bytesAt_length]; omega,
        by rw [bytesAt_length]; exact v4⟩
    · obtain ⟨v1, v2, v3, v4⟩ := strnlen_some hn
      have v4 := (v4 (by omega)).1
      rw [bytesAt_drop _ _ _ _ (by omega)] at v2 v3 v4
      rw [bytesAt_length] at v2
      rw [bytesAt_take _ _ _ _ (by omega)] at v3
      rw [bytesAt_take _ _ _ _ (by omega), bytesAt_take _ _ _ _ (by omega)] at v4
      refine ⟨bytesAt m (a + 49) n, v3, ?_, ?_, by rw [bytesAt_length]; exact v4⟩ <;> rw [bytesAt_length]
      · omega
      · show (m (a + 8 + 40)).toNat = _
        omega
    · rw [hdr_sigLen (by omega), hdr_imageLen (by omega)] at hsig
      omega
  · rename_i hf
    split at h
    · cases h
    rename_i hl
    exact ⟨by omega, fun h0 => (hf h0).elim⟩

theorem recHeader_ok {env : Env} {m : Mem} {a : Nat} {h : Hdr} (hw : 32 ≤ env.w) (hsz : env.size ≤ 2 ^ 30) (hr : recHeader env m a = .ok h) :
    IsHeader m a h.len h.imageLen h.sigLen ∧ a + h.len ≤ env.size ∧ h.data = bytesAt m (a + 8) (h.len - 8) := by
  unfold recHeader at hr
  cases hi : imageHeader env m 0 a imageMarker 1024 with
  | error e => rw [hi] at hr; cases hr
  | ok lf =>
    obtain ⟨len, fmt⟩ := lf
    rw [hi] at hr
    simp only at hr
    obtain ⟨h1, h2, h3, h4, h5, h6⟩ := imageHeader_ok hi
    cases hd : loadData env m 1 a len with
    | error e => rw [hd] at hr; cases hr
    | ok d =>
      obtain ⟨rfl, h7⟩ := loadData_ok hd
      rw [hd] at hr
      rw [Flash.u32_id (by omega)] at h7 hr
      simp only at hr
      cases hc : checkHeader env.w ⟨len, fmt, bytesAt m (a + 8) (len - 8)⟩ with
      | error e => rw [hc] at hr; cases hr
      | ok u =>
        rw [hc] at hr
        cases hr
        obtain ⟨c1, c2⟩ := checkHeader_ok hw h2 h3 hc
        exact ⟨⟨h4, h5, ⟨c1, h3⟩, (hdr_imageLen c1).symm, (hdr_sigLen c1).symm, fun h0 => ⟨(c2 (h6 ▸ h0)).1, (c2 (h6 ▸ h0)).2.1⟩⟩, by show a + len ≤ _; omega, rfl⟩

theorem recHeader_of {env : Env} {m : Mem} {a hlen imgLen sigLen : Nat} (hw : 32 ≤ env.w) (hsz : env.size ≤ 2 ^ 30) (hf : ∀ k, env.fault k = false)
    (hh : IsHeader m a hlen imgLen sigLen) (ha : a + hlen ≤ env.size) (hl : hlen + sigLen ≤ imgLen) :
    recHeader env m a = .ok ⟨hlen, u16At m (a + 2), bytesAt m (a + 8) (hlen - 8)⟩ := by
  have hpow : 2 ^ 32 ≤ 2 ^ env.w := Nat.pow_le_pow_right (by omega) hw
  obtain ⟨h1, h2, ⟨h3, h3'⟩, h4, h5, h6⟩ := hh
  unfold recHeader
  rw [imageHeader_of (by omega) (hf _) (by omega) (by omega) (show _ = imageMarker from h1)]
  simp only
  unfold loadData
  rw [hf, if_neg nofun, h2, Flash.u32_id (by omega), rd_of (by omega) (hf _)]
  simp only
  have : checkHeader env.w ⟨hlen, u16At m (a + 2), bytesAt m (a + 8) (hlen - 8)⟩ = .ok () := by
    unfold checkHeader
    simp only
    by_cases h0 : u16At m (a + 2) = 0
    · obtain ⟨⟨v, v1, v2, v3, v4⟩, p, p1, p2, p3, p4⟩ := h6 h0
      have i4 : u32At m (a + 40) < 2 ^ 32 := u32At_lt _ _
      have e1 : bytesAt m (a + 8) (hlen - 8) = v ++ 0 :: bytesAt m (a + 8 + (v.length + 1)) (hlen - 8 - (v.length + 1)) := by
        rw [show hlen - 8 = (v.length + 1) + (hlen - 8 - (v.length + 1)) by omega, Flash.bytesAt_add, v4, Nat.add_sub_cancel_left]
        simp
      have e2 : bytesAt m (a + 49) (p.length + 1) = p ++ 0 :: [] := p4
      rw [if_pos h0, hdr_sigLen h3, hdr_imageLen h3, h4, h5]
      rw [show strnlen (bytesAt m (a + 8) (hlen - 8)) 32 = some v.length by rw [e1]; exact strnlen_of v2 v3]
      simp only
      rw [bytesAt_get _ _ _ _ (by omega), bytesAt_drop _ _ _ _ (by omega), bytesAt_length]
      simp only
      rw [show a + 8 + 40 = a + 48 by omega, show a + 8 + 41 = a + 49 by omega, p3, if_neg (by
        rw [show hlen - 8 + 2 ^ env.w - (p.length + 1) = 41 + 2 ^ env.w by omega, Nat.add_mod_right, Nat.mod_eq_of_lt (by omega)]
        simp), show hlen - 8 - 41 = p.length + 1 by omega, e2, strnlen_of p1 (by omega)]
      simp only
      rw [if_neg (by omega), if_neg (by
        rw [show imgLen + 2 ^ env.w - hlen = imgLen - hlen + 2 ^ env.w by omega, Nat.add_mod_right, Nat.mod_eq_of_lt (by omega)]
        omega), if_neg (by
        rintro (h | h)
        · omega
        · exact v1 (List.eq_nil_of_length_eq_zero h))]
    · rw [if_neg h0, if_neg (by rw [bytesAt_length]; omega)]
  rw [this]

theorem authenticate_ok {env : Env} {m : Mem} {a : Nat} {h : Hdr} {c : Option Bytes} (hw : 32 ≤ env.w) (hsz : env.size ≤ 2 ^ 30)
    (hr : authenticate env m a = (.ok h, c)) :
    recHeader env m a = .ok h ∧ a + h.imageLen ≤ env.size ∧ h.sigLen < h.imageLen ∧ 0 < h.sigLen ∧ c = some (digest env.sha m a h.imageLen h.sigLen) ∧
    Authentic env.sha env.sigOk m a h.imageLen h.sigLen := by
  have hpow : 2 ^ 32 ≤ 2 ^ env.w := Nat.pow_le_pow_right (by omega) hw
  unfold authenticate at hr
  cases hh : recHeader env m a with
  | error e => rw [hh] at hr; cases hr
  | ok g =>
    rw [hh] at hr
    simp only at hr
    split at hr
    · cases hr
    cases hs : rd env m 4 (u32 (a + g.imageLen + 2 ^ 32 - g.sigLen)) g.sigLen with
    | error e => rw [hs] at hr; cases hr
    | ok sig =>
      obtain ⟨rfl, hs1, _⟩ := rd_ok hs
      rw [hs] at hr
      simp only at hr
      have hi : g.imageLen < 2 ^ 32 := by
        obtain ⟨h1, _⟩ := recHeader_ok hw hsz hh
        rw [← h1.imgAt]; exact u32At_lt _ _
      unfold contentsVerification at hr
      by_cases h0 : (g.imageLen + 2 ^ env.w - g.sigLen) % 2 ^ env.w = 0 ∨ bytesAt m (u32 (a + g.imageLen + 2 ^ 32 - g.sigLen)) g.sigLen = []
      · rw [if_pos h0] at hr; cases hr
      rw [if_neg h0] at hr
      rw [not_or] at h0
      obtain ⟨h0, h00⟩ := h0
      have h00 : 0 < g.sigLen := by
        rcases Nat.eq_zero_or_pos g.sigLen with hz | hz
        · rw [hz] at h00; exact (h00 rfl).elim
        · exact hz
      cases hb : rd env m 5 a ((g.imageLen + 2 ^ env.w - g.sigLen) % 2 ^ env.w) with
      | error e => rw [hb] at hr; cases hr
      | ok b =>
        obtain ⟨rfl, hb1, _⟩ := rd_ok hb
        rw [hb] at hr
        have hlt : g.sigLen ≤ g.imageLen := by
          apply Classical.byContradiction
          intro hc
          rw [Nat.mod_eq_of_lt (by omega)] at hb1
          omega
        rw [show g.imageLen + 2 ^ env.w - g.sigLen = g.imageLen - g.sigLen + 2 ^ env.w by omega, Nat.add_mod_right, Nat.mod_eq_of_lt (by omega)] at h0 hb1 hr
        have ha : u32 (a + g.imageLen + 2 ^ 32 - g.sigLen) = a + g.imageLen - g.sigLen := by
          unfold u32
          rw [show a + g.imageLen + 2 ^ 32 - g.sigLen = a + g.imageLen - g.sigLen + 2 ^ 32 by omega, Nat.add_mod_right, Nat.mod_eq_of_lt (by omega)]
        rw [ha] at hs1 hr
        simp only at hr
        by_cases h6 : env.fault 6 = true
        · rw [if_pos h6] at hr; cases hr
        rw [if_neg h6] at hr
        by_cases hv : env.sigOk (env.sha (bytesAt m a (g.imageLen - g.sigLen))) (bytesAt m (a + g.imageLen - g.sigLen) g.sigLen) = true
        · rw [if_pos hv] at hr
          cases hr
          exact ⟨rfl, by omega, by omega, h00, rfl, hv⟩
        · rw [if_neg hv] at hr; cases hr

theorem authenticate_of {env : Env} {m : Mem} {a hlen imgLen sigLen : Nat} (hw : 32 ≤ env.w) (hsz : env.size ≤ 2 ^ 30) (hf : ∀ k, env.fault k = false)
    (hh : IsHeader m a hlen imgLen sigLen) (hb : Bounds env.size a hlen imgLen sigLen) (hs : Authentic env.sha env.sigOk m a imgLen sigLen) :
    authenticate env m a = (.ok ⟨hlen, u16At m (a + 2), bytesAt m (a + 8) (hlen - 8)⟩, some (digest env.sha m a imgLen sigLen)) := by
  have hpow : 2 ^ 32 ≤ 2 ^ env.w := Nat.pow_le_pow_right (by omega) hw
  obtain ⟨b1, b2, b3⟩ := hb
  have h3 := hh.range.1
  unfold authenticate
  rw [recHeader_of hw hsz hf hh (by omega) (by omega)]
  simp only
  rw [hf, if_neg nofun, hdr_imageLen h3, hdr_sigLen h3, hh.imgAt, hh.sigAt]
  rw [show u32 (a + imgLen + 2 ^ 32 - sigLen) = a + imgLen - sigLen by
    unfold u32
    rw [show a + imgLen + 2 ^ 32 - sigLen = a + imgLen - sigLen + 2 ^ 32 by omega, Nat.add_mod_right, Nat.mod_eq_of_lt (by omega)]]
  rw [rd_of (by omega) (hf _)]
  simp only
  rw [show imgLen + 2 ^ env.w - sigLen = imgLen - sigLen + 2 ^ env.w by omega, Nat.add_mod_right, Nat.mod_eq_of_lt (by omega)]
  unfold contentsVerification
  rw [if_neg (by
    rintro (h | h)
    · omega
    · have := congrArg List.length h
      rw [bytesAt_length] at this
      simp at this
      omega), rd_of (by omega) (hf _)]
  simp only
  rw [hf, if_neg nofun, if_pos (show env.sigOk (env.sha (bytesAt m a (imgLen - sigLen))) (bytesAt m (a + imgLen - sigLen) sigLen) = true from hs)]
  rfl

/-! ### The sections -/

theorem remNext_le {r : Nat} {s : Sec} (h : s.hlen + s.len ≤ r) (hr : r < 2 ^ 32) : remNext r s = r - (s.hlen + s.len) := by
  unfold remNext
  rw [show r + 2 ^ 33 - (s.hlen + s.len) = r - (s.hlen + s.len) + 2 ^ 32 + 2 ^ 32 by omega, Nat.add_mod_right, Nat.add_mod_right, Nat.mod_eq_of_lt (by omega)]

theorem remNext_gt {r : Nat} {s : Sec} (h : r < s.hlen + s.len) (hs : s.hlen + s.len ≤ 2 ^ 31) : 2 ^ 31 ≤ remNext r s := by
  unfold remNext
  rw [show r + 2 ^ 33 - (s.hlen + s.len) = r + 2 ^ 32 - (s.hlen + s.len) + 2 ^ 32 by omega, Nat.add_mod_right, Nat.mod_eq_of_lt (by omega)]
  omega

theorem sections_neg {env : Env} {m : Mem} {fuel i r next min : Nat} (h : 2 ^ 31 ≤ r) : sections env m fuel i r next min ≠ .ok () := by
  cases fuel with
  | zero => nofun
  | succ f =>
    unfold sections
    rw [if_neg (by simp [positive]; omega), if_neg (by omega)]
    nofun

/-- The sections accepted by the loop, from any point on: all of them are as they should be, or all are up to one that is too long. -/
theorem sections_ok {env : Env} {m : Mem} (hsz : env.size ≤ 2 ^ 30) {e : Nat} (he : e ≤ env.size) : ∀ {fuel i r next min : Nat}, next + r = e → r ≤ 2 ^ 30 →
    sections env m fuel i r next min = .ok () →
    (∃ l, Tiled m next e l ∧ InOrder l ∧ (∀ x ∈ l, Sane x.2) ∧ ∀ x ∈ l, min ≤ x.2.host) ∨
    (∃ l a s, Tiled m next a l ∧ a < e ∧ (∀ x ∈ l, Sane x.2) ∧ IsSection m a s ∧ ¬ Sane s)
  | 0, _, _, _, _, _, _, h => by cases h
  | fuel + 1, i, r, next, min, hn, hr, h => by
    unfold sections at h
    split at h
    · rename_i hp
      simp only [positive, Bool.and_eq_true, decide_eq_true_eq] at hp
      cases hs : secHeader env m (8 + 3 * i) next with
      | error e => rw [hs] at h; cases h
      | ok s =>
        rw [hs] at h
        simp only at h
        split at h
        · cases h
        rename_i hmin
        obtain ⟨hsec, _⟩ := secHeader_ok hsz hs
        have hsr := hsec.range
        by_cases hsane : Sane s
        · by_cases hle : s.hlen + s.len ≤ r
          · obtain ⟨hs1, hs2⟩ := hsane
            rw [remNext_le hle (by omega), Flash.u32_id (by omega), Flash.u32_id (by omega)] at h
            rcases sections_ok hsz he (by omega) (by omega) h with ⟨l, h1, h2, h3, h4⟩ | ⟨l, a, s', h1, h2, h3, h4, h5⟩
            · refine .inl ⟨(next, s) :: l, .cons _ _ _ _ hsec ?_, .cons ?_ h2, ?_, ?_⟩
              · rw [Nat.add_assoc]; exact h1
              · exact fun x hx => h4 x hx
              · intro x hx
                rcases List.mem_cons.1 hx with rfl | hx
                · exact ⟨hs1, hs2⟩
                · exact h3 x hx
              · intro x hx
                rcases List.mem_cons.1 hx with rfl | hx
                · show min ≤ s.host; omega
                · have := h4 x hx; omega
            · refine .inr ⟨(next, s) :: l, a, s', .cons _ _ _ _ hsec ?_, h2, ?_, h4, h5⟩
              · rw [Nat.add_assoc]; exact h1
              · intro x hx
                rcases List.mem_cons.1 hx with rfl | hx
                · exact ⟨hs1, hs2⟩
                · exact h3 x hx
          · exact (sections_neg (remNext_gt (by omega) (by have := hsane.1; omega)) h).elim
        · exact .inr ⟨[], next, s, .nil _, by omega, nofun, hsec, hsane⟩
    · rename_i hp
      simp only [positive, Bool.and_eq_true, decide_eq_true_eq, not_and] at hp
      split at h
      · refine .inl ⟨[], ?_, .nil, nofun, nofun⟩
        rw [← hn]
        rename_i h0
        rw [h0]
        exact .nil _
      · cases h

theorem Tiled.le {m : Mem} {a e : Nat} {l : List (Nat × Sec)} (h : Tiled m a e l) : a ≤ e := by
  induction h with
  | nil => exact Nat.le_refl _
  | cons a e s l _ _ ih => omega

theorem sections_of {env : Env} {m : Mem} (hsz : env.size ≤ 2 ^ 30) (hf : ∀ k, env.fault k = false) : ∀ {l : List (Nat × Sec)} {next e fuel i min : Nat}, e ≤ env.size →
    Tiled m next e l → InOrder l → (∀ x ∈ l, Sane x.2) → (∀ x ∈ l, min ≤ x.2.host) → l.length < fuel → sections env m fuel i (e - next) next min = .ok ()
  | [], next, e, fuel + 1, i, min, he, ht, _, _, _, _ => by
    cases ht
    unfold sections
    rw [Nat.sub_self, if_neg nofun, if_pos rfl]
  | (a, s) :: l, next, e, fuel + 1, i, min, he, ht, ho, hs, hm, hl => by
    cases ht with
    | cons _ _ _ _ hsec ht =>
      have hle := ht.le
      have hr := hsec.range
      obtain ⟨hs1, hs2⟩ : Sane s := hs (a, s) List.mem_cons_self
      have hmin : min ≤ s.host := hm (a, s) List.mem_cons_self
      unfold sections
      rw [if_pos (by simp [positive]; omega), secHeader_of hsz hf hsec (by omega)]
      simp only
      rw [if_neg (by omega), remNext_le (by omega) (by omega), Flash.u32_id (by omega), Flash.u32_id (by omega)]
      rw [show e - a - (s.hlen + s.len) = e - (a + (s.hlen + s.len)) by omega]
      rw [Nat.add_assoc] at ht
      refine sections_of hsz hf he ht (List.Pairwise.of_cons ho) (fun x hx => hs x (List.mem_cons_of_mem _ hx)) (fun x hx => ?_) (by simpa using hl)
      exact (List.pairwise_cons.1 ho).1 x hx

theorem remLen_eq {h : Hdr} (h1 : h.sigLen ≤ h.imageLen) (h2 : h.imageLen < 2 ^ 32) (h3 : h.len ≤ 1024) (h4 : h.imageLen - h.sigLen ≤ 2 ^ 30) (hp : positive (remLen h) = true) :
    h.len + h.sigLen < h.imageLen ∧ remLen h = h.imageLen - h.sigLen - h.len := by
  have hlt : h.len + h.sigLen < h.imageLen := by
    apply Classical.byContradiction
    intro hc
    unfold remLen at hp
    simp only [positive, Bool.and_eq_true, decide_eq_true_eq] at hp
    by_cases he : h.len + h.sigLen = h.imageLen
    · rw [show h.imageLen + 2 ^ 33 - h.len - h.sigLen = 2 ^ 33 by omega] at hp
      omega
    · rw [show h.imageLen + 2 ^ 33 - h.len - h.sigLen = h.imageLen + 2 ^ 32 - h.len - h.sigLen + 2 ^ 32 by omega, Nat.add_mod_right, Nat.mod_eq_of_lt (by omega)] at hp
      omega
  refine ⟨hlt, ?_⟩
  unfold remLen
  rw [show h.imageLen + 2 ^ 33 - h.len - h.sigLen = h.imageLen - h.sigLen - h.len + 2 ^ 32 + 2 ^ 32 by omega, Nat.add_mod_right, Nat.add_mod_right, Nat.mod_eq_of_lt (by omega)]

theorem strcmpEq_terminated : ∀ x p : Bytes, 0 ∉ x → strcmpEq x (p ++ [0]) ≠ none
  | [], [], _ => nofun
  | x :: _, [], h => by
    rw [List.mem_cons, not_or] at h
    rw [List.nil_append]
    unfold strcmpEq
    rw [if_neg fun hc => h.1 hc.symm]
    nofun
  | [], _ :: _, _ => nofun
  | x :: xs, b :: bs, h => by
    rw [List.mem_cons, not_or] at h
    rw [List.cons_append]
    unfold strcmpEq
    split
    · exact strcmpEq_terminated xs bs h.2
    · nofun

theorem sections_safe {env : Env} {m : Mem} : ∀ {fuel i r next min : Nat}, sections env m fuel i r next min ≠ .error .oob
  | 0, _, _, _, _ => nofun
  | fuel + 1, i, r, next, min => by
    unfold sections
    split
    · split
      · nofun
      · split
        · nofun
        · exact sections_safe
    · split <;> nofun

/-- Header parsing has no way to leave the buffer if the length covers the fixed part. -/
theorem checkHeader_safe {w : Nat} {h : Hdr} (hd : 41 ≤ h.data.length) (hmax : h.data.length ≤ 1016) (hw : 32 ≤ w) : checkHeader w h ≠ .error .oob := by
  have hpow : 2 ^ 32 ≤ 2 ^ w := Nat.pow_le_pow_right (by omega) hw
  unfold checkHeader
  split
  · split
    · rename_i hn
      exact (strnlen_none (by omega) hn).elim
    split
    · rename_i hn
      rw [List.getElem?_eq_getElem (by omega)] at hn
      cases hn
    rename_i p _
    split
    · nofun
    rename_i hlen
    have hp := p.toNat_lt
    split
    · rename_i hn
      refine (strnlen_none ?_ hn).elim
      rw [List.length_drop]
      by_cases hc : p.toNat ≤ h.data.length
      · rw [show h.data.length + 2 ^ w - p.toNat = h.data.length - p.toNat + 2 ^ w by omega, Nat.add_mod_right, Nat.mod_eq_of_lt (by omega)] at hlen
        omega
      · rw [Nat.mod_eq_of_lt (by omega)] at hlen
        omega
    split
    · nofun
    split
    · nofun
    split <;> nofun
  · split <;> nofun

end Verif.Recovery
