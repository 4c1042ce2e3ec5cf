import Verif.Protocol.Cert
import Verif.Protocol.Answer
/-! The handlers give exactly the answers of the specification. -/
namespace Verif.Protocol
open Spec

/-- Some bytes stand at an offset of a buffer. -/
def At (mem : Nat → Option UInt8) (i : Nat) (d : Bytes) : Prop := ∀ j, j < d.length → mem (i + j) = d[j]?

theorem At.nil {mem : Nat → Option UInt8} {i : Nat} : At mem i [] := nofun

theorem At.upd {mem : Nat → Option UInt8} {i : Nat} {d : Bytes} : At (upd mem i d) i d := by
  intro j hj
  unfold Protocol.upd
  rw [if_pos (by omega), Nat.add_sub_cancel_left]

theorem At.skip {mem : Nat → Option UInt8} {i k : Nat} {d e : Bytes} (h : i + d.length ≤ k ∨ k + e.length ≤ i)
    (he : At mem k e) : At (Protocol.upd mem i d) k e := by
  intro j hj
  unfold Protocol.upd
  rw [if_neg (by omega)]
  exact he j hj

theorem At.append {mem : Nat → Option UInt8} {i : Nat} {a b : Bytes} (ha : At mem i a) (hb : At mem (i + a.length) b) :
    At mem i (a ++ b) := by
  intro j hj
  rw [List.length_append] at hj
  by_cases h : j < a.length
  · rw [List.getElem?_append_left h]; exact ha j h
  · rw [List.getElem?_append_right (by omega), ← hb (j - a.length) (by omega)]
    congr 1; omega

theorem At.cons {mem : Nat → Option UInt8} {i : Nat} {a : UInt8} {b : Bytes} (ha : At mem i [a]) (hb : At mem (i + 1) b) :
    At mem i (a :: b) := At.append (a := [a]) ha hb

/-- A part of what stands there. -/
theorem At.take {mem : Nat → Option UInt8} {i n : Nat} {d : Bytes} (h : At mem i d) : At mem i (d.take n) := by
  intro j hj
  rw [List.length_take] at hj
  rw [List.getElem?_take_of_lt (by omega)]
  exact h j (by omega)

theorem At.slice {mem : Nat → Option UInt8} {msg : Bytes} (hv : ∀ i, i < msg.length → mem i = msg[i]?) {i n : Nat}
    (h : i + n ≤ msg.length) : At mem i (slice msg i n) := by
  intro j hj
  unfold Spec.slice at hj ⊢
  rw [List.length_take, List.length_drop] at hj
  rw [List.getElem?_take_of_lt (by omega), List.getElem?_drop]
  exact hv _ (by omega)

/-- The outcome of a handler is the answer. -/
def Gives (x : Except Stop Unit × St) : Ans → Prop
  | .ok none => x.1 = .ok () ∧ x.2.len = 0
  | .ok (some d) => x.1 = .ok () ∧ x.2.len = 5 + d.length ∧ At x.2.mem 5 d
  | .error e => x.1 = .error (.err e)

/-- The same, from a state. -/
def AV (mem : Nat → Option UInt8) (l : Nat) (cs : List Call) (ka : Nat) (m : M Unit) (o : Ans) : Prop :=
  Gives (m ⟨mem, l, cs, ka⟩) o

section
variable {mem : Nat → Option UInt8} {l ka a : Nat} {cs : List Call} {msg : Bytes} {env : Env} {o : Ans}

theorem AV.fail {e : Err} : AV mem l cs ka (Protocol.fail e) (.error e) := rfl
theorem AV.rcErr {e : Rc} : AV mem l cs ka (Protocol.rcErr e) (.error (.sub e)) := rfl
theorem AV.none : AV mem l cs ka (Protocol.setLen 0) finished := ⟨rfl, rfl⟩
theorem AV.some {n : Nat} {d : Bytes} (hn : n = 5 + d.length) (h : At mem 5 d) : AV mem l cs ka (Protocol.setLen n) (data d) :=
  ⟨rfl, hn, h⟩
theorem AV.pure {d : Bytes} (hn : l = 5 + d.length) (h : At mem 5 d) : AV mem l cs ka (Pure.pure ()) (data d) :=
  ⟨rfl, hn, h⟩

theorem AV.lenB {f : Nat → M Unit} (h : AV mem l cs ka (f l) o) : AV mem l cs ka (Protocol.len >>= f) o := h
theorem AV.pureB {x : β} {f : β → M Unit} (h : AV mem l cs ka (f x) o) : AV mem l cs ka (Pure.pure x >>= f) o := h
theorem AV.setLenB {n : Nat} {f : Unit → M Unit} (h : AV mem n cs ka (f ()) o) : AV mem l cs ka (Protocol.setLen n >>= f) o := h
theorem AV.setKeyAlgB {n : Nat} {f : Unit → M Unit} (h : AV mem l cs n (f ()) o) : AV mem l cs ka (Protocol.setKeyAlg n >>= f) o := h
theorem AV.callB {c : Call} {f : Reply → M Unit} (h : AV mem l (c :: cs) ka (f (env.reply cs c)) o) :
    AV mem l cs ka (Protocol.call env c >>= f) o := h

theorem AV.u8B {i : Nat} {f : Nat → M Unit} (hv : ∀ i, a ≤ i → i < msg.length → mem i = msg[i]?) (ha : a ≤ i) (hi : i < msg.length)
    (hc : i < env.cap) (h : AV mem l cs ka (f (byte msg i)) o) : AV mem l cs ka (Protocol.u8 env i >>= f) o := by
  unfold AV; rw [bind_run (u8_run (s := ⟨mem, l, cs, ka⟩) hv ha hi hc)]; exact h
theorem AV.u16B {i : Nat} {f : Nat → M Unit} (hv : ∀ i, a ≤ i → i < msg.length → mem i = msg[i]?) (ha : a ≤ i) (hi : i + 1 < msg.length)
    (hc : i + 1 < env.cap) (h : AV mem l cs ka (f (word msg i)) o) : AV mem l cs ka (Protocol.u16 env i >>= f) o := by
  unfold AV; rw [bind_run (u16_run (s := ⟨mem, l, cs, ka⟩) hv ha hi hc)]; exact h
theorem AV.u32B {i : Nat} {f : Nat → M Unit} (hv : ∀ i, a ≤ i → i < msg.length → mem i = msg[i]?) (ha : a ≤ i) (hi : i + 3 < msg.length)
    (hc : i + 3 < env.cap) (h : AV mem l cs ka (f (dword msg i)) o) : AV mem l cs ka (Protocol.u32 env i >>= f) o := by
  unfold AV; rw [bind_run (u32_run (s := ⟨mem, l, cs, ka⟩) hv ha hi hc)]; exact h
theorem AV.bytesB {i n : Nat} {f : Bytes → M Unit} (hv : ∀ i, 0 ≤ i → i < msg.length → mem i = msg[i]?) (hi : i + n ≤ msg.length)
    (hc : msg.length ≤ env.cap) (h : AV mem l cs ka (f (slice msg i n)) o) : AV mem l cs ka (Protocol.bytes env i n >>= f) o := by
  unfold AV; rw [bind_run (bytes_run (s := ⟨mem, l, cs, ka⟩) (fun i h => hv i (by omega) h) hc _ _ hi)]; exact h

theorem AV.putB {i : Nat} {d : Bytes} {f : Unit → M Unit} (hi : i + d.length ≤ env.cap) (h : AV (upd mem i d) l cs ka (f ()) o) :
    AV mem l cs ka (Protocol.put env i d >>= f) o := by
  unfold AV; rw [bind_run (m := Protocol.put env i d) (s := ⟨mem, l, cs, ka⟩) (x := ()) (t := ⟨upd mem i d, l, cs, ka⟩)]
  · exact h
  · unfold Protocol.put; rw [if_neg (by rintro ⟨h1, -⟩; omega)]
theorem AV.put8B {i v : Nat} {f : Unit → M Unit} (hi : i + 1 ≤ env.cap) (h : AV (upd mem i (le 1 v)) l cs ka (f ()) o) :
    AV mem l cs ka (Protocol.put8 env i v >>= f) o := AV.putB (by rw [le_length]; exact hi) h
theorem AV.put16B {i v : Nat} {f : Unit → M Unit} (hi : i + 2 ≤ env.cap) (h : AV (upd mem i (le 2 v)) l cs ka (f ()) o) :
    AV mem l cs ka (Protocol.put16 env i v >>= f) o := AV.putB (by rw [le_length]; exact hi) h
theorem AV.put32B {i v : Nat} {f : Unit → M Unit} (hi : i + 4 ≤ env.cap) (h : AV (upd mem i (le 4 v)) l cs ka (f ()) o) :
    AV mem l cs ka (Protocol.put32 env i v >>= f) o := AV.putB (by rw [le_length]; exact hi) h
theorem AV.callAtB {i : Nat} {c : Call} {f : Reply → M Unit} (hi : i + (env.reply cs c).data.length ≤ env.cap)
    (h : AV (upd mem i (env.reply cs c).data) l (c :: cs) ka (f (env.reply cs c)) o) :
    AV mem l cs ka (Protocol.callAt env i c >>= f) o := by
  unfold callAt
  rw [M.assoc]
  refine AV.callB ?_
  rw [M.assoc]
  exact AV.putB hi h

theorem AV.callAtA {i : Nat} {c : Call} {f : Reply → M Unit} (he : Faithful env) (hi : ∀ r, Answer c r → i + r.data.length ≤ env.cap)
    (h : Answer c (env.reply cs c) → AV (upd mem i (env.reply cs c).data) l (c :: cs) ka (f (env.reply cs c)) o) :
    AV mem l cs ka (Protocol.callAt env i c >>= f) o :=
  AV.callAtB (hi _ (he.answer _ _)) (h (he.answer _ _))

theorem AV.unlessB {c : Bool} {p : Prop} [Decidable p] {e : Err} {f : Unit → M Unit} {g : Unit → Ans} (hc : c = true ↔ p)
    (h : ¬ p → AV mem l cs ka (f ()) (g ())) : AV mem l cs ka (Protocol.unlessErr c e >>= f) (refuse p e >>= g) := by
  unfold refuse
  by_cases hp : p
  · rw [if_pos hp, hc.2 hp]; rfl
  · rw [if_neg hp, show c = false by rw [← Bool.not_eq_true]; exact fun h => hp (hc.1 h)]
    exact h hp
/-- A check that cannot fail. -/
theorem AV.passB {p : Prop} [Decidable p] {e : Err} {m : M Unit} {g : Unit → Ans} (hp : ¬ p)
    (h : AV mem l cs ka m (g ())) : AV mem l cs ka m (refuse p e >>= g) := by
  unfold refuse; rw [if_neg hp]; exact h
theorem AV.noB {c : Bool} {e : Err} {f : Unit → M Unit} (hc : c = false) (h : AV mem l cs ka (f ()) o) :
    AV mem l cs ka (Protocol.unlessErr c e >>= f) o := by subst hc; exact h
theorem AV.doneB {r : Reply} {f : Unit → M Unit} {g : Unit → Ans} (h : r.rc = .ok 0 → AV mem l cs ka (f ()) (g ())) :
    AV mem l cs ka (Protocol.done r >>= f) (ended r >>= g) := by
  unfold ended Protocol.done
  by_cases h0 : r.rc = .ok 0
  · rw [if_pos h0, h0]; exact h h0
  · rw [if_neg h0]
    split
    · contradiction
    · rfl
theorem AV.valueB {r : Reply} {f : Nat → M Unit} {g : Nat → Ans} (h : ∀ v, r.rc = .ok v → AV mem l cs ka (f v) (g v)) :
    AV mem l cs ka (Protocol.value r >>= f) (given r >>= g) := by
  unfold given Protocol.value
  split
  · rename_i v hv; rw [hv]; exact h v hv
  · rename_i rc hrc
    split
    · rename_i v hv; exact absurd hv (hrc v)
    · rfl
theorem AV.ite {p q : Prop} [Decidable p] [Decidable q] {m n : M Unit} {o o' : Ans} (hpq : p ↔ q) (h1 : p → AV mem l cs ka m o)
    (h2 : ¬ p → AV mem l cs ka n o') : AV mem l cs ka (if p then m else n) (if q then o else o') := by
  by_cases h : p
  · rw [if_pos h, if_pos (hpq.1 h)]; exact h1 h
  · rw [if_neg h, if_neg (fun x => h (hpq.2 x))]; exact h2 h

theorem AV.releasing {k : Kind} {b : Bool} {m : M Unit} (h : AV mem l cs ka m o) : AV mem l cs ka (Protocol.releasing env k b m) o := by
  unfold AV Protocol.releasing at *
  rcases hm : m ⟨mem, l, cs, ka⟩ with ⟨r, s⟩
  rw [hm] at h
  cases b
  · exact h
  · rcases r with (_ | _ | _) | _ <;> rcases o with _ | _ | _ <;> exact h

end

/-- One step of a handler. -/
syntax "astep" : tactic
set_option hygiene false in
macro_rules
  | `(tactic| astep) => `(tactic| first
    | exact AV.fail
    | exact AV.rcErr
    | exact AV.none
    | refine AV.lenB ?_
    | refine AV.u8B hv (by omega) (by omega) (by omega) ?_
    | refine AV.u16B hv (by omega) (by omega) (by omega) ?_
    | refine AV.u32B hv (by omega) (by omega) (by omega) ?_
    | refine AV.bytesB hv (by omega) (by omega) ?_
    | refine AV.callB ?_
    | refine AV.callAtA he (fun r hr => by simp only [Answer] at hr; omega) fun ha => ?_
    | refine AV.setLenB ?_
    | refine AV.setKeyAlgB ?_
    | refine AV.unlessB (by first | (simp; done) | (simp; omega)) fun _ => ?_
    | refine AV.doneB fun h0 => ?_
    | refine AV.valueB fun v h0 => ?_
    | refine AV.put8B (by omega) ?_
    | refine AV.put16B (by omega) ?_
    | refine AV.put32B (by omega) ?_
    | refine AV.releasing ?_
    | (with_reducible refine AV.pureB ?_)
    | rw [M.assoc])

/-- Bytes stored one after the other. -/
macro "atleaf" : tactic => `(tactic| repeat' first
  | exact At.upd
  | exact At.nil
  | refine At.skip (by simp only [le_length, List.length_cons, List.length_nil, List.length_append, List.length_replicate]; omega) ?_
  | (refine At.append ?_ ?_ <;> try simp only [le_length, List.length_append, Nat.reduceAdd])
  | refine At.cons ?_ ?_)

section
variable {env : Env} (he : Faithful env) (h12 : 12 ≤ env.maxResp) (hm : env.maxResp ≤ 4096) {msg : Bytes}
  (hl : 5 ≤ msg.length) (hc : msg.length ≤ 4096) {mem : Nat → Option UInt8} (hv : ∀ i, 0 ≤ i → i < msg.length → mem i = msg[i]?)
  {ka : Nat} {cs : List Call} (il : ItemLen)
include he h12 hm hl hc hv

theorem exact_getFwVersion (h : byte msg 4 = 0x01) : AV mem msg.length cs ka (getFwVersion env) (answer env cs il msg) := by
  have hcap := he.cap
  simp only [answer, h]
  unfold getFwVersion
  repeat' astep
  have hf : versionField ((env.fwVersions[byte msg 5]?).getD none) = text 32 ((env.fwVersions.getD (byte msg 5) none).getD []) := by
    rw [List.getD_eq_getElem?_getD]
    rcases (env.fwVersions[byte msg 5]?).getD none with _ | s
    · rfl
    · simp only [versionField, text, Option.getD_some]
      by_cases hs : s.length ≤ 31
      · rw [List.take_of_length_le hs, List.take_append, List.take_of_length_le hs, List.take_replicate,
          Nat.min_eq_left (by omega), List.append_assoc, show [(0 : UInt8)] = List.replicate 1 0 from rfl,
          List.replicate_append_replicate, show 31 - s.length + 1 = 32 - s.length by omega]
      · rw [List.take_append_of_le_length (by simp; omega), List.take_take, List.length_take, Nat.min_self,
          Nat.min_eq_left (by omega)]
        rfl
  have hlen : (versionField ((env.fwVersions[byte msg 5]?).getD none)).length = 32 := by
    rw [hf]; simp [text]; omega
  rw [← hf]
  refine AV.putB (by omega) ?_
  exact AV.some (by omega) At.upd

theorem exact_getDeviceId (h : byte msg 4 = 0x03) : AV mem msg.length cs ka (getDeviceId env) (answer env cs il msg) := by
  have hcap := he.cap
  simp only [answer, h]
  unfold getDeviceId
  repeat' astep
  refine AV.some (by simp [le_length]) ?_
  atleaf

theorem exact_getCapabilities (h : byte msg 4 = 0x02) : AV mem msg.length cs ka (getCapabilities env) (answer env cs il msg) := by
  have hcap := he.cap
  simp only [answer, h]
  unfold getCapabilities
  repeat' astep
  refine AV.some ?_ ?_
  · have := ha.2 _ h0; omega
  atleaf

omit h12 hl hc hv in
theorem digest_tail (hcap : env.cap = 4096) {r : Reply} {slot : Nat} (ha : Answer (.digests slot (env.maxResp - 7)) r) :
    AV (upd mem 7 r.data) msg.length cs ka
      (match r.rc with
        | .ok _ => do
          put8 env 5 1
          put8 env 6 r.val
          setLen (32 * (r.val % 256) + 7)
        | .invalidSlot | .certNotAvailable => do
          put8 env 5 1
          put8 env 6 0
          setLen (32 * 0 + 7)
        | rc => rcErr rc) (digestAnswer r) := by
  unfold digestAnswer
  rcases hr : r.rc with v | _ | _ | _ | _ | _ | _ | _ <;> simp only
  all_goals repeat' astep
  · obtain ⟨h1, h2⟩ := ha.2 _ hr
    refine AV.some (by simp only [List.length_append, List.length_cons, le_length]; omega) ?_
    atleaf
  · refine AV.some rfl ?_
    atleaf
  · refine AV.some rfl ?_
    atleaf

theorem exact_getDigests (h : byte msg 4 = 0x81) : AV mem msg.length cs ka (getDigests env) (answer env cs il msg) := by
  have hcap := he.cap
  simp only [answer, h]
  unfold getDigests
  unfold digestsSession digestsTail
  rw [room_eq he h12 hm (by decide)]
  repeat' astep
  by_cases h0 : byte msg 6 = 0
  · rw [if_pos h0, if_neg (by omega)]
    refine AV.passB (by omega) ?_
    refine AV.pureB ?_
    repeat' astep
    exact digest_tail he hm hcap ha
  · rw [if_neg h0]
    rcases hs : env.has .session with _ | _
    · simp only [Bool.false_eq_true, if_false]
      unfold refuse
      rw [if_pos ⟨by omega, trivial⟩]
      exact AV.fail
    · simp only [if_true]
      refine AV.passB (by simp) ?_
      repeat' astep
      by_cases hb : byte msg 3 / 32 % 2 = 0
      · rw [if_pos hb, if_pos ⟨by omega, hb⟩]
        repeat' astep
        refine AV.pureB ?_
        repeat' astep
        exact digest_tail he hm hcap ha
      · rw [if_neg hb, if_neg (by omega)]
        refine AV.pureB ?_
        repeat' astep
        exact digest_tail he hm hcap ha

omit hl in
theorem cert_tail (h11 : msg.length = 11) (hcap : env.cap = 4096) (r : Reply) :
    AV mem msg.length cs ka (certCopy env r (word msg 7) (word msg 9) >>= fun n => do
      put8 env 5 (byte msg 5)
      put8 env 6 (byte msg 6)
      setLen (n + 7)) (certAnswer env r msg) := by
  have hs2 : slice msg 5 2 = le 1 (byte msg 5) ++ le 1 (byte msg 6) := by
    unfold slice
    rw [List.drop_eq_getElem_cons (i := 5) (by omega), List.drop_eq_getElem_cons (i := 6) (by omega), byte_eq (i := 5) (by omega), byte_eq (i := 6) (by omega)]
    show [msg[5], msg[6]] = [UInt8.ofNat (msg[5].toNat % 256), UInt8.ofNat (msg[6].toNat % 256)]
    simp
  have hp := certPart_eq he h12 hm r.data msg
  have hle := (certLen_le he h12 hm r.data.length (word msg 7) (word msg 9)).1
  unfold certCopy certAnswer
  rw [hp.1, hp.2, hs2]
  rw [hp.2] at hle
  clear hp hs2
  generalize certPart env.maxResp r.data msg = part at hle ⊢
  generalize hrc : r.rc = rc
  rcases rc with v | _ | _ | _ | _ | _ | _ | _ <;> simp only [M.assoc]
  · refine AV.putB (by omega) ?_
    refine AV.pureB ?_
    repeat' astep
    refine AV.some (by simp only [List.length_append, le_length]; omega) ?_
    atleaf
  · refine AV.pureB ?_
    repeat' astep
    refine AV.some rfl ?_
    atleaf
  · refine AV.pureB ?_
    repeat' astep
    refine AV.some rfl ?_
    atleaf
  · refine AV.pureB ?_
    repeat' astep
    refine AV.some rfl ?_
    atleaf
  all_goals rfl

theorem exact_getCertificate (h : byte msg 4 = 0x82) : AV mem msg.length cs ka (getCertificate env) (answer env cs il msg) := by
  have hcap := he.cap
  simp only [answer, h]
  unfold getCertificate
  repeat' astep
  exact cert_tail he h12 hm hc hv (by omega) hcap _

omit he h12 hm hl hc hv in
theorem bytes_known {s : St} : ∀ (n i : Nat), (∀ j, i ≤ j → j < i + n → ∃ b, s.mem j = some b) → i + n ≤ env.cap →
    ∃ p, bytes env i n s = (.ok p, s)
  | 0, _, _, _ => ⟨[], rfl⟩
  | n + 1, i, hk, hi => by
    obtain ⟨b, hb⟩ := hk i (by omega) (by omega)
    obtain ⟨p, hp⟩ := bytes_known n (i + 1) (fun j h1 h2 => hk j (by omega) (by omega)) (by omega)
    unfold bytes
    have h1 : u8 env i s = (.ok b.toNat, s) := by
      unfold u8; rw [if_neg (by omega), hb]
    rw [bind_run h1, bind_run hp]
    exact ⟨_, rfl⟩

omit h12 hl hc hv in
theorem challenge_rest (hcap : env.cap = 4096) {nonce chal : Bytes} {r : Reply} {v : Nat} (ha : Answer (.challenge chal (env.maxResp - 5)) r)
    (h0 : r.rc = .ok v) : AV (upd mem 5 r.data) (5 + v) cs ka (challengeSession env nonce) (data r.data) := by
  obtain ⟨h1, h2⟩ := ha.2 _ h0
  have hle := ha.1
  unfold challengeSession AV
  rw [bind_run (m := getKeyAlg) (x := ka) (t := ⟨upd mem 5 r.data, 5 + v, cs, ka⟩) rfl]
  by_cases hk : (env.has .session && ka == 1) = true
  · rw [if_pos hk]
    obtain ⟨p, hp⟩ := bytes_known (env := env) (s := ⟨upd mem 5 r.data, 5 + v, cs, ka⟩) 32 11 (by
      intro j hj1 hj2
      show ∃ b, upd mem 5 r.data j = some b
      unfold upd
      rw [if_pos (by omega), List.getElem?_eq_getElem (by omega)]
      exact ⟨_, rfl⟩) (by omega)
    rw [bind_run hp]
    exact ⟨rfl, by show 5 + v = _; omega, At.upd⟩
  · rw [if_neg hk]
    exact ⟨rfl, by show 5 + v = _; omega, At.upd⟩

theorem exact_getChallenge (h : byte msg 4 = 0x83) : AV mem msg.length cs ka (getChallenge env) (answer env cs il msg) := by
  have hcap := he.cap
  simp only [answer, h]
  unfold getChallenge
  rw [room_eq he h12 hm (by decide)]
  unfold deliver
  repeat' astep
  exact challenge_rest he hm hcap ha h0

theorem exact_exportCsr (h : byte msg 4 = 0x20) : AV mem msg.length cs ka (exportCsr env) (answer env cs il msg) := by
  have hcap := he.cap
  simp only [answer, h]
  unfold exportCsr
  rw [roomS_eq he h12 hm (by decide) (by decide)]
  repeat' astep
  unfold csrAnswer
  generalize env.reply cs (.csr (byte msg 5)) = r
  rcases hr : r.rc with (_ | v) | _ | _ | _ | _ | _ | _ | _ <;> simp only
  all_goals repeat' astep
  refine AV.putB (by omega) ?_
  exact AV.some (by omega) At.upd

theorem exact_importCert (h : byte msg 4 = 0x21) : AV mem msg.length cs ka (importCert il env) (answer env cs il msg) := by
  have hcap := he.cap
  simp only [answer, h]
  unfold importCert work
  refine AV.lenB <| AV.unlessB (by simp) fun _ => AV.u16B hv (by omega) (by omega) (by omega) ?_
  refine AV.unlessB (by simp) fun _ => AV.bytesB hv (by omega) (by omega) ?_
  rw [show slice msg 8 (word msg 6) = msg.drop 8 by
    rw [show word msg 6 = msg.length - 8 by omega]; exact slice_rest msg 8]
  repeat' astep

theorem exact_getCertState (h : byte msg 4 = 0x22) : AV mem msg.length cs ka (getCertState env) (answer env cs il msg) := by
  have hcap := he.cap
  simp only [answer, h]
  unfold getCertState
  repeat' astep
  refine AV.some (by simp [le_length]) ?_
  atleaf

theorem exact_getDeviceInfo (h : byte msg 4 = 0x04) : AV mem msg.length cs ka (getDeviceInfo env) (answer env cs il msg) := by
  have hcap := he.cap
  simp only [answer, h]
  unfold getDeviceInfo
  rw [roomS_eq he h12 hm (by decide) (by decide)]
  unfold deliver
  repeat' astep
  have h1 : v = (env.reply cs (.uuid (env.maxResp - 5))).data.length := ha.2 _ h0
  exact AV.some (by rw [← h1]; omega) At.upd

theorem exact_resetCounter (h : byte msg 4 = 0x87) : AV mem msg.length cs ka (resetCounter env) (answer env cs il msg) := by
  have hcap := he.cap
  simp only [answer, h]
  unfold resetCounter
  repeat' astep
  have := ha.2 _ h0
  exact AV.some (by omega) At.upd

theorem exact_fwInit (h : byte msg 4 = 0x66) : AV mem msg.length cs ka (fwInit env) (answer env cs il msg) := by
  have hcap := he.cap
  simp only [answer, h]
  unfold fwInit
  unfold work
  repeat' astep

theorem exact_fwUpdate (h : byte msg 4 = 0x67) : AV mem msg.length cs ka (fwUpdate env) (answer env cs il msg) := by
  have hcap := he.cap
  simp only [answer, h]
  unfold fwUpdate
  unfold work
  repeat' astep
  rw [slice_rest]
  repeat' astep

theorem exact_fwComplete (h : byte msg 4 = 0x69) : AV mem msg.length cs ka (fwComplete env) (answer env cs il msg) := by
  have hcap := he.cap
  simp only [answer, h]
  unfold fwComplete
  unfold work
  repeat' astep
  by_cases h5 : msg.length = 5
  · simp only []
    rw [if_pos h5]
    refine AV.pureB ?_
    show AV mem msg.length cs ka (do let r ← call env (.fwStart (1 != 0)); done r; setLen 0) _
    rw [show (1 != 0) = decide (msg.length = 5 ∨ byte msg 5 ≠ 0) by simp [h5]]
    repeat' astep
  · simp only []
    rw [if_neg h5]
    repeat' astep
    rw [show (byte msg 5 != 0) = decide (msg.length = 5 ∨ byte msg 5 ≠ 0) by
      rw [Bool.eq_iff_iff]; simp [h5]]
    repeat' astep

theorem exact_logInfo (h : byte msg 4 = 0x4F) : AV mem msg.length cs ka (logInfo env) (answer env cs il msg) := by
  have hcap := he.cap
  simp only [answer, h]
  unfold logInfo
  repeat' astep
  refine AV.some (by simp [le_length]) ?_
  atleaf

theorem exact_logRead (h : byte msg 4 = 0x50) : AV mem msg.length cs ka (logRead env) (answer env cs il msg) := by
  have hcap := he.cap
  simp only [answer, h]
  unfold logRead
  rw [room_eq he h12 hm (by decide)]
  unfold deliver
  repeat' astep
  rcases (show byte msg 5 = 1 ∨ byte msg 5 = 2 ∨ byte msg 5 = 4 ∨ (byte msg 5 ≠ 1 ∧ byte msg 5 ≠ 2 ∧ byte msg 5 ≠ 4) by omega) with hb | hb | hb | ⟨hb1, hb2, hb4⟩
  · rw [if_pos hb, hb]
    simp only [logOf]
    repeat' astep
    have := ha.2 _ h0
    exact AV.some (by omega) At.upd
  · rw [if_neg (by omega), if_pos hb, hb]
    simp only [logOf]
    repeat' astep
    have := ha.2 _ h0
    exact AV.some (by omega) At.upd
  · rw [if_neg (by omega), if_neg (by omega), if_pos hb, hb]
    simp only [logOf]
    repeat' astep
    have := ha.2 _ h0
    exact AV.some (by omega) At.upd
  · rw [if_neg hb1, if_neg hb2, if_neg hb4]
    rw [show logOf (byte msg 5) = none by unfold logOf; split <;> first | rfl | contradiction]
    exact AV.fail

theorem exact_logClear (h : byte msg 4 = 0x51) : AV mem msg.length cs ka (logClear env) (answer env cs il msg) := by
  have hcap := he.cap
  simp only [answer, h]
  unfold logClear
  unfold work
  repeat' astep
  refine AV.ite Iff.rfl (fun _ => ?_) fun _ => AV.ite Iff.rfl (fun _ => ?_) fun _ => ?_
  all_goals repeat' astep

end

end Verif.Protocol
