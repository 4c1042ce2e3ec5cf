import Verif.LoggingFlash.Save
/-! What the scan of the flash finds. -/
namespace Verif.LoggingFlash
open Spec

/-- An entry is read. -/
def Scan.read (sec : Nat) (v : Scan) (e : Entry) : Scan := v.entry sec (7 + e.data.length) e.id

theorem scan_cons (sec : Nat) (e : Entry) (he : e.Ok) (rest : Bytes) (v : Scan) :
    scanEntries sec (e.bytes ++ rest) v = scanEntries sec rest (v.read sec e) := by
  obtain ⟨h1, h2, h3⟩ := he
  have hlen : (e.bytes ++ rest).length = 7 + e.data.length + rest.length := by rw [List.length_append, entry_length]
  have hform : e.bytes ++ rest = [0xCB] ++ (toLE 2 (7 + e.data.length) ++ (toLE 4 e.id ++ (e.data ++ rest))) := by
    unfold Entry.bytes; simp only [List.append_assoc]
  have hlf : lengthField (e.bytes ++ rest) = 7 + e.data.length := by
    unfold lengthField
    rw [hform, List.drop_left' (by rfl), List.take_left' (by simp), leNat_toLE, Nat.mod_eq_of_lt (by omega)]
  have hid : idField (e.bytes ++ rest) = e.id := by
    unfold idField
    rw [hform, ← List.append_assoc, List.drop_left' (by simp), List.take_left' (by simp), leNat_toLE, Nat.mod_eq_of_lt (by omega)]
  have hd : (e.bytes ++ rest).drop (7 + e.data.length) = rest := List.drop_left' (entry_length e)
  have hm : (7 + e.data.length) % 2 ^ 15 = 7 + e.data.length := Nat.mod_eq_of_lt (by omega)
  rw [scanEntries]
  rw [dif_neg (by rw [hlen]; simp only [hdrLen]; omega)]
  have h0 : (e.bytes ++ rest).getD 0 0 = 0xCB := by rw [hform]; rfl
  rw [h0, if_neg (by decide), hlf, hm]
  rw [dif_neg (by rw [hlen]; simp only [hdrLen]; omega), if_neg (by omega), hid, hd]
  rfl

theorem scan_entries (sec : Nat) (rest : Bytes) : ∀ (es : List Entry) (v : Scan), (∀ e ∈ es, e.Ok) →
    scanEntries sec (bytes es ++ rest) v = scanEntries sec rest (es.foldl (Scan.read sec) v)
  | [], v, _ => rfl
  | e :: es, v, h => by
    rw [bytes_cons, List.append_assoc, scan_cons sec e (h e (by simp)), scan_entries sec rest es _ (fun x hx => h x (by simp [hx]))]
    rfl

theorem scan_short (sec : Nat) (rest : Bytes) (v : Scan) (h : rest.length < 7) : scanEntries sec rest v = v := by
  rw [scanEntries, dif_pos (show rest.length < hdrLen from h)]

theorem scan_blank (sec n : Nat) (v : Scan) (h : 7 ≤ n) : scanEntries sec (List.replicate n 0xFF) v = v.noEntry (List.replicate n 0xFF) := by
  rw [scanEntries, dif_neg (by simp [hdrLen]; omega)]
  have h0 : (List.replicate n (0xFF : UInt8)).getD 0 0 = 0xFF := by
    obtain ⟨m, rfl⟩ : ∃ m, n = m + 1 := ⟨n - 1, by omega⟩
    rfl
  rw [h0, if_pos (by decide)]

theorem take3 (j n : Nat) (h1 : 1 ≤ j) (h7 : j ≤ 7) (hn : 7 ≤ j + n) : ∃ a b rest, term.take j ++ List.replicate n 0xFF = [0xCB, a, b] ++ rest ∧
    ((a = 0xFF ∧ b = 0xFF) ∨ (a = 7 ∧ b = 0xFF) ∨ (a = 7 ∧ b = 0x80)) := by
  have ht : term = [0xCB, 7, 0x80, 0, 0, 0, 0] := by decide
  obtain ⟨m, rfl⟩ : ∃ m, j = m + 1 := ⟨j - 1, by omega⟩
  rw [ht]
  match m with
  | 0 =>
    obtain ⟨k, rfl⟩ : ∃ k, n = k + 2 := ⟨n - 2, by omega⟩
    exact ⟨0xFF, 0xFF, List.replicate k 0xFF, rfl, .inl ⟨rfl, rfl⟩⟩
  | 1 =>
    obtain ⟨k, rfl⟩ : ∃ k, n = k + 1 := ⟨n - 1, by omega⟩
    exact ⟨7, 0xFF, List.replicate k 0xFF, rfl, .inr (.inl ⟨rfl, rfl⟩)⟩
  | k + 2 => exact ⟨7, 0x80, [0, 0, 0, 0].take k ++ List.replicate n 0xFF, rfl, .inr (.inr ⟨rfl, rfl⟩)⟩

theorem scan_stop (sec : Nat) (tail : Bytes) (v : Scan) (hs : Stop tail) (h4 : tail.length ≤ 4096) :
    scanEntries sec tail v = if tail.length < 7 then v else v.skip := by
  by_cases h7 : tail.length < 7
  · rw [if_pos h7, scan_short _ _ _ h7]
  rw [if_neg h7]
  rcases hs with hs | ⟨j, n, j1, j7, rfl⟩
  · exact (h7 hs).elim
  have hl : (term.take j ++ List.replicate n (0xFF : UInt8)).length = j + n := by
    rw [List.length_append, List.length_take, List.length_replicate, term_length]; omega
  obtain ⟨a, b, rest, e, hab⟩ := take3 j n j1 j7 (by omega)
  rw [e] at h4 h7 ⊢
  rw [scanEntries, dif_neg (by exact h7)]
  rw [show ([0xCB, a, b] ++ rest).getD 0 0 = (0xCB : UInt8) from rfl, if_neg (by decide)]
  have hlf : lengthField ([0xCB, a, b] ++ rest) = leNat [a, b] := rfl
  rw [hlf]
  have h4' : rest.length ≤ 4093 := by simp at h4; omega
  rcases hab with ⟨rfl, rfl⟩ | ⟨rfl, rfl⟩ | ⟨rfl, rfl⟩
  · rw [dif_pos (by left; rw [show leNat [0xFF, 0xFF] % 2 ^ 15 = 32767 by decide]; simp; omega)]
  · rw [dif_pos (by left; rw [show leNat [7, 0xFF] % 2 ^ 15 = 32519 by decide]; simp; omega)]
  · rw [dif_neg (by rw [show leNat [7, 0x80] % 2 ^ 15 = 7 by decide]; simp [hdrLen]; simp at h7; omega), if_pos (by decide)]

/-! ### Entries of one sector -/

/-- Identifiers of entries from a first one on, without wrapping. -/
def From (b : Nat) (es : List Entry) : Prop := ∀ k e, es[k]? = some e → e.id = b + k

theorem From.append {b : Nat} {a c : List Entry} (h : From b (a ++ c)) : From b a ∧ From (b + a.length) c := by
  constructor
  · intro k e hk
    exact h k e (by rw [List.getElem?_append_left (List.getElem?_eq_some_iff.1 hk).1]; exact hk)
  · intro k e hk
    rw [Nat.add_assoc]
    exact h (a.length + k) e (by rw [List.getElem?_append_right (by omega), Nat.add_sub_cancel_left]; exact hk)

theorem From.cons {b : Nat} {e : Entry} {l : List Entry} (h : From b (e :: l)) : e.id = b ∧ From (b + 1) l :=
  ⟨h 0 e rfl, (From.append (a := [e]) h).2⟩

theorem fold_newer (sec : Nat) : ∀ (es : List Entry) (b : Nat) (v : Scan), From b es → b + es.length < 2 ^ 32 → v.found = 0 → v.prev ≤ b + 1 →
    (es.foldl (Scan.read sec) v).found = 0 ∧ (es.foldl (Scan.read sec) v).start = v.start ∧
    (es.foldl (Scan.read sec) v).addr = v.addr + (bytes es).length ∧
    (es.foldl (Scan.read sec) v).prev = (if es = [] then v.prev else b + es.length) ∧
    (es.foldl (Scan.read sec) v).id = (if es = [] then v.id else b + es.length) ∧
    (es.foldl (Scan.read sec) v).used sec = v.used sec + (bytes es).length ∧
    (∀ j, j ≠ sec → (es.foldl (Scan.read sec) v).used j = v.used j)
  | [], b, v, _, _, hf, _ => ⟨hf, rfl, rfl, rfl, rfl, rfl, fun _ _ => rfl⟩
  | e :: es, b, v, h, hb, hf, hp => by
    obtain ⟨he, ht⟩ := h.cons
    rw [List.length_cons] at hb
    have hm : (b + 1) % 2 ^ 32 = b + 1 := Nat.mod_eq_of_lt (by omega)
    have hv : v.read sec e = { v with id := b + 1, addr := v.addr + (7 + e.data.length), prev := b + 1, used := set v.used sec (v.used sec + (7 + e.data.length)) } := by
      unfold Scan.read Scan.entry
      dsimp only
      rw [if_pos (by omega), he, hm, if_neg (by omega), if_pos hf]
    have hv' : v.read sec e = { v with id := b + 1, addr := v.addr + (7 + e.data.length), prev := b + 1, used := set v.used sec (v.used sec + (7 + e.data.length)) } := hv
    have ih := fold_newer sec es (b + 1) (v.read sec e) ht (by omega) (by rw [hv]; exact hf) (by rw [hv]; simp)
    rw [List.foldl_cons]
    obtain ⟨i1, i2, i3, i4, i5, i6, i7⟩ := ih
    refine ⟨i1, by rw [i2, hv], ?_, ?_, ?_, ?_, ?_⟩
    · rw [i3, hv, bytes_cons, List.length_append, entry_length]; dsimp only; omega
    · rw [i4, hv, if_neg (c := e :: es = []) nofun, List.length_cons]
      by_cases hes : es = []
      · subst hes; rw [if_pos rfl]; rfl
      · rw [if_neg hes]; omega
    · rw [i5, hv, if_neg (c := e :: es = []) nofun, List.length_cons]
      by_cases hes : es = []
      · subst hes; rw [if_pos rfl]; rfl
      · rw [if_neg hes]; omega
    · rw [i6, hv, bytes_cons, List.length_append, entry_length]; dsimp only; rw [set_same]; omega
    · intro j hj; rw [i7 j hj, hv]; exact set_ne _ _ hj

theorem fold_two (sec : Nat) : ∀ (es : List Entry) (v : Scan), v.found = 2 →
    (es.foldl (Scan.read sec) v).found = 2 ∧ (es.foldl (Scan.read sec) v).start = v.start ∧
    (es.foldl (Scan.read sec) v).addr = v.addr ∧ (es.foldl (Scan.read sec) v).id = v.id ∧
    (es.foldl (Scan.read sec) v).used sec = v.used sec + (bytes es).length ∧
    (∀ j, j ≠ sec → (es.foldl (Scan.read sec) v).used j = v.used j)
  | [], v, hf => ⟨hf, rfl, rfl, rfl, rfl, fun _ _ => rfl⟩
  | e :: es, v, hf => by
    have hv : v.read sec e = { v with used := set v.used sec (v.used sec + (7 + e.data.length)) } := by
      unfold Scan.read Scan.entry
      dsimp only
      rw [if_neg (by omega)]
    obtain ⟨i1, i2, i3, i5, i6, i7⟩ := fold_two sec es (v.read sec e) (by rw [hv]; exact hf)
    rw [List.foldl_cons]
    refine ⟨i1, by rw [i2, hv], by rw [i3, hv], by rw [i5, hv], ?_, ?_⟩
    · rw [i6, hv, bytes_cons, List.length_append, entry_length]; dsimp only; rw [set_same]; omega
    · intro j hj; rw [i7 j hj, hv]; exact set_ne _ _ hj

theorem fold_older (sec : Nat) {es : List Entry} {b : Nat} {v : Scan} (h : From b es) (hne : es ≠ []) (hb : b + 1 < 2 ^ 32) (hf : v.found < 2)
    (hp : b + 1 < v.prev) :
    (es.foldl (Scan.read sec) v).found = 2 ∧ (es.foldl (Scan.read sec) v).start = sec ∧
    (es.foldl (Scan.read sec) v).addr = v.addr ∧ (es.foldl (Scan.read sec) v).id = v.prev ∧
    (es.foldl (Scan.read sec) v).used sec = v.used sec + (bytes es).length ∧
    (∀ j, j ≠ sec → (es.foldl (Scan.read sec) v).used j = v.used j) := by
  cases es with
  | nil => exact (hne rfl).elim
  | cons e es =>
    obtain ⟨he, -⟩ := h.cons
    have hm : (b + 1) % 2 ^ 32 = b + 1 := Nat.mod_eq_of_lt hb
    have hv : v.read sec e = { v with id := v.prev, start := sec, found := 2, used := set v.used sec (v.used sec + (7 + e.data.length)) } := by
      unfold Scan.read Scan.entry
      dsimp only
      rw [if_pos hf, he, hm, if_pos (by omega)]
    obtain ⟨i1, i2, i3, i5, i6, i7⟩ := fold_two sec es (v.read sec e) (by rw [hv])
    rw [List.foldl_cons]
    refine ⟨i1, by rw [i2, hv], by rw [i3, hv], by rw [i5, hv], ?_, ?_⟩
    · rw [i6, hv, bytes_cons, List.length_append, entry_length]; dsimp only; rw [set_same]; omega
    · intro j hj; rw [i7 j hj, hv]; exact set_ne _ _ hj

/-! ### Sectors -/

/-- The correction at the end of a sector. -/
def Scan.fix (v : Scan) : Scan := if secLen - v.addr % secLen < hdrLen then { v with addr := v.addr / secLen * secLen + secLen } else v

theorem scanSector_eq (v : Scan) (sec : Nat) (data : Bytes) : scanSector v sec data = (scanEntries sec data v).fix := rfl

theorem fix_id {v : Scan} (h : v.addr % 4096 ≤ 4089) : v.fix = v := by
  unfold Scan.fix; rw [if_neg (by simp only [secLen, hdrLen]; omega)]

/-- Sectors that continue the log. -/
theorem sector_newer {sec : Nat} {v : Scan} {b : Nat} {es : List Entry} {data : Bytes} (hs : Sector data es) (hd : data.length = 4096) (h : From b es)
    (hb : b + es.length < 2 ^ 32) (hf : v.found = 0) (hp : v.prev ≤ b + 1) (ha : v.addr = sec * 4096) :
    (scanSector v sec data).found = 0 ∧ (scanSector v sec data).start = v.start ∧ (scanSector v sec data).addr = (sec + 1) * 4096 ∧
    (scanSector v sec data).prev = b + es.length ∧ (scanSector v sec data).id = b + es.length ∧
    (scanSector v sec data).used sec = v.used sec + (bytes es).length ∧ (∀ j, j ≠ sec → (scanSector v sec data).used j = v.used j) := by
  obtain ⟨hne, hok, tail, rfl, hst⟩ := hs
  obtain ⟨f1, f2, f3, f4, f5, f6, f7⟩ := fold_newer sec es b v h hb hf hp
  rw [if_neg hne] at f4 f5
  rw [List.length_append] at hd
  have hpos := bytes_pos hne
  rw [scanSector_eq, scan_entries sec tail es v hok, scan_stop _ _ _ hst (by omega)]
  generalize es.foldl (Scan.read sec) v = w at *
  by_cases h7 : tail.length < 7
  · rw [if_pos h7]
    by_cases h0 : tail.length = 0
    · rw [fix_id (by rw [f3, ha]; omega)]
      exact ⟨f1, f2, by rw [f3, ha]; omega, f4, f5, f6, f7⟩
    · have : w.fix = { w with addr := w.addr / 4096 * 4096 + 4096 } := by
        unfold Scan.fix; rw [if_pos (by rw [f3, ha]; simp only [secLen, hdrLen]; omega)]; rfl
      rw [this]
      exact ⟨f1, f2, by dsimp only; rw [f3, ha]; omega, f4, f5, f6, f7⟩
  · rw [if_neg h7]
    have : w.skip = { w with addr := w.addr / 4096 * 4096 + 4096 } := by
      unfold Scan.skip; rw [if_pos f1]; rfl
    rw [this, fix_id (by dsimp only; omega)]
    exact ⟨f1, f2, by dsimp only; rw [f3, ha]; omega, f4, f5, f6, f7⟩

/-- The sector that is being filled. -/
theorem sector_current {sec : Nat} {v : Scan} {b n : Nat} {es : List Entry} (hok : ∀ e ∈ es, e.Ok) (hn : 7 ≤ n) (hd : (bytes es).length + n = 4096) (h : From b es)
    (hb : b + es.length < 2 ^ 32) (hf : v.found = 0) (hp : v.prev ≤ b + 1) (ha : v.addr = sec * 4096) :
    (scanSector v sec (bytes es ++ List.replicate n 0xFF)).found = 1 ∧ (scanSector v sec (bytes es ++ List.replicate n 0xFF)).start = v.start ∧
    (scanSector v sec (bytes es ++ List.replicate n 0xFF)).addr = sec * 4096 + (bytes es).length ∧
    (scanSector v sec (bytes es ++ List.replicate n 0xFF)).prev = (if es = [] then v.prev else b + es.length) ∧
    (scanSector v sec (bytes es ++ List.replicate n 0xFF)).id = (if es = [] then v.id else b + es.length) ∧
    (scanSector v sec (bytes es ++ List.replicate n 0xFF)).used sec = v.used sec + (bytes es).length ∧
    (∀ j, j ≠ sec → (scanSector v sec (bytes es ++ List.replicate n 0xFF)).used j = v.used j) := by
  obtain ⟨f1, f2, f3, f4, f5, f6, f7⟩ := fold_newer sec es b v h hb hf hp
  rw [scanSector_eq, scan_entries sec _ es v hok, scan_blank _ _ _ hn]
  generalize es.foldl (Scan.read sec) v = w at *
  have : w.noEntry (List.replicate n 0xFF) = { w with found := 1 } := by
    unfold Scan.noEntry
    rw [if_pos f1]
    split
    · rfl
    · rw [if_pos (by simp)]
  rw [this, fix_id (by dsimp only; rw [f3, ha]; omega)]
  exact ⟨rfl, f2, by dsimp only; rw [f3, ha], f4, f5, f6, f7⟩

/-- An empty sector behind the end. -/
theorem sector_blank {sec : Nat} {v : Scan} (hf : v.found = 1 ∨ (v.found = 0 ∧ v.addr % 4096 = 0)) (ha : v.addr % 4096 ≤ 4089) :
    scanSector v sec blank = { v with found := 1 } := by
  rw [scanSector_eq]
  have : blank = List.replicate 4096 0xFF := rfl
  rw [this, scan_blank _ _ _ (by decide)]
  have : v.noEntry (List.replicate 4096 0xFF) = { v with found := 1 } := by
    unfold Scan.noEntry
    rcases hf with hf | ⟨hf, h0⟩
    · rw [if_neg (by omega)]; cases v; cases hf; rfl
    · rw [if_pos hf, if_pos (show v.addr % secLen = 0 from h0)]
  rw [this]
  exact fix_id ha

theorem skip_found {v : Scan} (h : v.found = 2) : v.skip = v := by unfold Scan.skip; rw [if_neg (by omega)]

theorem sector_two {sec : Nat} {v : Scan} {es : List Entry} {data : Bytes} (hs : Sector data es) (hd : data.length = 4096) (hf : v.found = 2) (ha : v.addr % 4096 ≤ 4089) :
    (scanSector v sec data).found = 2 ∧ (scanSector v sec data).start = v.start ∧ (scanSector v sec data).addr = v.addr ∧
    (scanSector v sec data).id = v.id ∧
    (scanSector v sec data).used sec = v.used sec + (bytes es).length ∧ (∀ j, j ≠ sec → (scanSector v sec data).used j = v.used j) := by
  obtain ⟨hne, hok, tail, rfl, hst⟩ := hs
  obtain ⟨f1, f2, f3, f5, f6, f7⟩ := fold_two sec es v hf
  rw [List.length_append] at hd
  rw [scanSector_eq, scan_entries sec tail es v hok, scan_stop _ _ _ hst (by omega), skip_found f1, ite_self, fix_id (by rw [f3]; exact ha)]
  exact ⟨f1, f2, f3, f5, f6, f7⟩

theorem sector_older {sec : Nat} {v : Scan} {es : List Entry} {data : Bytes} {b : Nat} (hs : Sector data es) (hd : data.length = 4096) (h : From b es)
    (hb : b + 1 < 2 ^ 32) (hf : v.found < 2) (hp : b + 1 < v.prev) (ha : v.addr % 4096 ≤ 4089) :
    (scanSector v sec data).found = 2 ∧ (scanSector v sec data).start = sec ∧ (scanSector v sec data).addr = v.addr ∧
    (scanSector v sec data).id = v.prev ∧
    (scanSector v sec data).used sec = v.used sec + (bytes es).length ∧ (∀ j, j ≠ sec → (scanSector v sec data).used j = v.used j) := by
  obtain ⟨hne, hok, tail, rfl, hst⟩ := hs
  obtain ⟨f1, f2, f3, f5, f6, f7⟩ := fold_older sec h hne hb hf hp
  rw [List.length_append] at hd
  rw [scanSector_eq, scan_entries sec tail es v hok, scan_stop _ _ _ hst (by omega), skip_found f1, ite_self, fix_id (by rw [f3]; exact ha)]
  exact ⟨f1, f2, f3, f5, f6, f7⟩

end Verif.LoggingFlash
