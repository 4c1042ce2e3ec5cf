import Verif.SessionManager.Model
/-! What the properties of sessions talk about. -/
namespace Verif.SessionManager

/-- The sessions the table holds for an endpoint. -/
def sessions (s : St) (e : UInt8) : List Entry := s.table.filter fun x => decide (x.eid = e) && decide (x.state ≠ .unused)

/-- The endpoint an operation is about. -/
def Op.eid : Op → UInt8
  | .add e _ _ => e
  | .establish q => q.eid
  | .isEstablished e => e
  | .pairingState e _ => e
  | .decrypt m => m.eid
  | .encrypt m => m.eid
  | .reset e _ _ => e
  | .pair q => q.eid
  | .sync e _ _ => e

/-- `Reach c n keys calls s`: starting with `n` empty entries and the key store `keys`, some sequence of operations made these calls and led to `s`. -/
inductive Reach (c : Cfg) (n : Nat) (keys : Nat → Option Bytes) : List Call → St → Prop
  | start : Reach c n keys [] (init n keys)
  | next {calls s} (op : Op) : Reach c n keys calls s → Reach c n keys (calls ++ (step c s op).calls) (step c s op).st

/-- The session keys derived, in order. -/
def derivedKeys : List Call → List Bytes
  | [] => []
  | .derived k :: l => k :: derivedKeys l
  | .encrypted _ _ :: l => derivedKeys l

/-- The pairs of key and initialization vector given to the encryption engine, in order. -/
def used : List Call → List (Bytes × Bytes)
  | [] => []
  | .derived _ :: l => used l
  | .encrypted k iv :: l => (k, iv) :: used l

/-- Where a session found after an operation comes from, and with which result of the operation: it was there before; it was added, waiting for the
key exchange; the key exchange made it established; a failed key exchange left it waiting; a message was encrypted; it was paired by someone who could
compute the HMAC of the pairing key `pk`; the same, but the pairing key could not be saved. -/
inductive Origin (c : Cfg) (s : St) : Op → Ans → Entry → Prop
  | kept {op a x} : x ∈ sessions s op.eid → Origin c s op a x
  | added {e d n x} (old : Entry) : x = { old with devNonce := d, cerNonce := n, iv := firstIv, state := .setup, eid := e } →
      Origin c s (.add e d n) .ok x
  | exchanged {q x} (old : Entry) : old ∈ sessions s q.eid → old.state = .setup →
      x = { old with key := c.crypto.kdf q.secret old.devNonce old.cerNonce, hmacKey := c.crypto.kdf q.secret old.cerNonce old.devNonce,
                     state := .established } → Origin c s (.establish q) .ok x
  | broken {q a x} : x.state = .setup → a ≠ .ok → Origin c s (.establish q) a x
  | used {m a x} (old : Entry) (iv : Bytes) : old ∈ sessions s m.eid → x = { old with iv := iv } → Origin c s (.encrypt m) a x
  | paired {q x} (old : Entry) (pk : Bytes) : old ∈ sessions s q.eid → old.state.live = true → c.crypto.hmac old.hmacKey pk = q.hmac →
      x = { old with key := c.crypto.kdf pk old.key [], state := .paired } → Origin c s (.pair q) .ok x
  | unsaved {q x} (old : Entry) (pk : Bytes) : old ∈ sessions s q.eid → old.state.live = true → c.crypto.hmac old.hmacKey pk = q.hmac →
      x = { old with key := c.crypto.kdf pk old.key [] } → Origin c s (.pair q) (.err .store) x

/-- A decryption that undoes the encryption, which keeps the length and makes tags of 16 bytes. -/
def Sound (c : Crypto) : Prop :=
  ∀ k iv p, (c.enc k iv p).1.length = p.length ∧ (c.enc k iv p).2.length = 16 ∧ c.dec k iv (c.enc k iv p).1 (c.enc k iv p).2 = some p

end Verif.SessionManager
