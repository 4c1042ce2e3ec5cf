/-!
What a host can answer, and what power-on and forced recovery may ask it to do, independent of the code.
-/
namespace Verif.HostIrq.Spec

/-- Results of the operations of a host. -/
inductive Status where
  | ok
  | noRollback
  | rollbackDirty
  | recoveryUnsupported
  | noRecoveryImage
  | flashNotSupported
  | other (code : Nat)
deriving DecidableEq, Repr

/-- Operations of a host. `bypass` boots without validation, with or without swapping the flash devices. -/
inductive Call where
  | validate
  | rollback
  | recover
  | bypass (swap : Bool)
deriving DecidableEq, Repr

/-- Any host: what it answers to the last operation of a history. -/
abbrev Host := List Call → Status

/-- The answer that there cannot be a rollback. -/
def noRollback (s : Status) : Prop := s = .noRollback ∨ s = .rollbackDirty

/-- The answer that there cannot be a recovery. -/
def noRecovery (s : Status) : Prop := s = .recoveryUnsupported ∨ s = .noRecoveryImage ∨ s = .flashNotSupported

/-- Order of preference. -/
def Call.level : Call → Nat
  | .validate => 0
  | .rollback => 1
  | .recover => 2
  | .bypass _ => 3

/-- The answer to the `i`th operation of a history. -/
def answer (h : Host) (t : List Call) (i : Nat) : Status := h (t.take (i + 1))

end Verif.HostIrq.Spec
