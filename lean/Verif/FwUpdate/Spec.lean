import Verif.FwUpdate.Model
/-! What is expected of firmware updates. -/
namespace Verif.FwUpdate

/-- The device can be booted: the active or the recovery image is good under the present revocation state. -/
def Bootable (c : Cfg) (d : Dev) : Prop :=
  c.fw.boots d.rev (d.mem .active) = true ∨ c.fw.boots d.rev (d.mem .recovery) = true

/-- An image is determined by as many bytes as its size: what follows it in the region does not matter. -/
def Fw.Local (fw : Fw) : Prop :=
  ∀ x n, fw.size x = some n → n ≤ x.length ∧ ∀ t,
    fw.size (x.take n ++ t) = some n ∧ fw.sigOk (x.take n ++ t) = fw.sigOk x ∧ fw.keyId (x.take n ++ t) = fw.keyId x ∧
    fw.header (x.take n ++ t) = fw.header x

/-- The state after a boot from the active (`false`) or the recovery image, before `prepare`. -/
def bootSt (d : Dev) (stale : Bool) : St := ⟨d, initRam, 0, [], stale⟩

/-- Histories: a device that can be booted is booted, from an image that is good; it handles requests one after the other, whether they succeed or not;
and at every moment it may be reset, also in the middle of a request, and boots again. `E` restricts the environments. -/
inductive Reach (c : Cfg) (E : Env → Prop) : St → Prop
  | boot (d : Dev) (b : Bool) (e : Env) (h : c.fw.boots d.rev (d.mem (if b then .recovery else .active)) = true) (he : E e) :
    Reach c E (handlerPrepare c e b (bootSt d false)).2
  | op (s : St) (o : Op) (e : Env) (h : Reach c E s) (he : E e) : Reach c E (exec c e o s.fresh).2
  | reset (s : St) (d : Dev) (b : Bool) (e : Env) (h : Reach c E s) (hd : d = s.dev ∨ d ∈ s.trace)
      (hb : c.fw.boots d.rev (d.mem (if b then .recovery else .active)) = true) (he : E e) :
    Reach c E (handlerPrepare c e b (bootSt d s.stale)).2

/-- In no state that the device passes through it is bricked. -/
def NeverBricked (c : Cfg) (s : St) : Prop := Bootable c s.dev ∧ ∀ d ∈ s.trace, Bootable c d

/-- The image at the start of a region is the one at the start of another. -/
def SameImage (c : Cfg) (new old : Bytes) : Prop := ∃ n, c.fw.size old = some n ∧ c.fw.size new = some n ∧ new.take n = old.take n

/-- The contents of a region are an image that the update was authorized for: the bytes announced have the digest given. -/
def Authorized (c : Cfg) (m : Ram) (x : Bytes) : Prop := ∃ alg dig, m.digest = some (alg, dig) ∧ c.hash alg (x.take m.imgLength) = dig

/-- The image in the staging region may be installed: it is complete, has the digest given if one was given, is signed with a manifest that is not revoked,
and, if rollback is not allowed, is not older than the least revision. Images without header have no revision and are accepted only if the updater was told so. -/
structure Acceptable (c : Cfg) (s : St) : Prop where
  complete : s.ram.remaining = 0
  digest : ∀ alg dig, s.ram.digest = some (alg, dig) → c.hash alg ((s.dev.mem .staging).take s.ram.imgLength) = dig
  signed : c.fw.boots s.dev.rev (s.dev.mem .staging) = true
  header : c.fw.header (s.dev.mem .staging) = none → c.noFwHeader = true
  revision : ∀ v, c.fw.header (s.dev.mem .staging) = some v → c.antiRollback = true → c.minRev ≤ v

/-- Neither the active nor the recovery image nor the revocation state were touched. -/
def Untouched (s s' : St) : Prop :=
  ∀ d, d = s'.dev ∨ d ∈ s'.trace → d.mem .active = s.dev.mem .active ∧ d.mem .recovery = s.dev.mem .recovery ∧ d.rev = s.dev.rev

end Verif.FwUpdate
