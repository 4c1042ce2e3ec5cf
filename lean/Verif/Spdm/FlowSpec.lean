import Verif.Spdm.Flow
/-! The life of a session, and what is assumed of keys. -/
namespace Verif.Spdm

/-- Where a session is. -/
inductive Phase
  | absent
  | begun
  | proved
  deriving DecidableEq

/-- Change one session. -/
def phaseSet (ph : Nat → Phase) (id : Nat) (p : Phase) : Nat → Phase := fun x => if x = id then p else ph x

/-- A lawful history: a session begins with a key exchange under an identifier that is not in use; FINISH is accepted behind it; requests are served, and a session
is ended, only behind FINISH; a reset drops all sessions. -/
def Lawful : (Nat → Phase) → List Ev → Prop
  | _, [] => True
  | ph, .begun id :: t => ph id = .absent ∧ Lawful (phaseSet ph id .begun) t
  | ph, .proved id :: t => ph id ≠ .absent ∧ Lawful (phaseSet ph id .proved) t
  | ph, .served id :: t => ph id = .proved ∧ Lawful ph t
  | ph, .ended id :: t => ph id = .proved ∧ Lawful (phaseSet ph id .absent) t
  | _, .reset :: t => Lawful (fun _ => .absent) t

/-- Keys as a key derivation makes them: all different, not 0, of the right size. -/
structure GoodKeys (ks : List Keys) : Prop where
  sized : ∀ k ∈ ks, k.key.length = 32 ∧ k.salt.length = 12
  nonzero : ∀ k ∈ ks, k.key ≠ List.replicate 32 0
  distinct : (ks.map (·.key)).Nodup

/-- The sessions use AES-256-GCM. -/
def Req.Gcm (r : Req) : Prop :=
  r.given.new.type = .encMac ∧ r.given.new.keySize = 32 ∧ r.given.new.ivSize = 12 ∧ r.given.new.tagSize = 16

/-- No session yet. -/
def noSessions (n : Nat) : Mgr := ⟨List.replicate n .zero, 0, 0, false⟩

end Verif.Spdm
