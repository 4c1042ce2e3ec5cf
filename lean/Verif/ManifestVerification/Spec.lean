import Verif.ManifestVerification.Model
/-! Histories, and what it means for a key to be endorsed. -/
namespace Verif.ManifestVerification

inductive Op
  | init (env : BootEnv)
  | activated (m : Option (Bytes × Bytes)) (f : Fault) (r : Save)
  | update (r : Save)

/-- A device that is not initialized is not called. -/
def step (W : World) (s : State) (op : Op) : State :=
  match op with
  | .init env => init W s env
  | .activated m f r => if s.up then activated W s m f r else s
  | .update r => if s.up then (updateStart s r).1 else s

/-- Before the first start: any contents of the keystore. -/
inductive Reach (W : World) : State → Prop
  | start (store : Option Bytes) (d : Bytes) : Reach W ⟨false, none, false, false, d, store⟩
  | step {s : State} (op : Op) : Reach W s → Reach W (step W s op)

inductive From (W : World) (P : State → Op → Prop) (s : State) : State → Prop
  | refl : From W P s s
  | step {t : State} (op : Op) : From W P s t → P t op → From W P s (step W t op)

/-- The root key has signed the record, and its key can be used. -/
def Endorsed (W : World) (k : Bytes) : Prop :=
  W.sigOk W.root (W.hash (k.take (4 + W.pubLen))) (window k (4 + W.pubLen) W.sigLen) = true ∧ W.keyOk (window k 4 W.pubLen) = true

/-- The signature is accepted because of key record `k`. -/
def Signed (W : World) (k digest sig : Bytes) : Prop := W.sigOk (window k 4 W.pubLen) digest sig = true

/-- Same boot: no initialization. -/
def SameBoot (_ : State) : Op → Prop
  | .init _ => False
  | _ => True

/-- What a failing save leaves in the keystore is the old or the new key. -/
def Save.Keeps (s : State) : Save → Prop
  | .ok => True
  | .failed l => l = s.store ∨ l = some s.default

/-- Failing saves do not destroy the keystore, and the default keys of all firmware versions have the same length. -/
def KeepsStore (len : Nat) (s : State) : Op → Prop
  | .init env => env.save.Keeps { s with default := env.default } ∧ env.default.length = len
  | .activated _ _ r => r.Keeps s
  | .update r => r.Keeps s

end Verif.ManifestVerification
