import Verif.HostIrq.Spec
/-!
Model of `core/host_fw/host_irq_handler.c`: power-on and forced recovery with any host. The host is a function of the history of its operations, which includes the last one; logging, the
engines and NULL arguments are left out.
-/
namespace Verif.HostIrq
open Spec

/-- The operations so far, and the status. -/
abbrev Run := List Call × Status

/-- An operation of the host. -/
def call (h : Host) (c : Call) (t : List Call) : Run := (t ++ [c], h (t ++ [c]))

/-- The loop of host_irq_handler.c:26-33 after the first attempt, with the retries left. -/
def porLoop (h : Host) : Nat → Run → Run
  | 0, r => r
  | n + 1, r => if r.2 ≠ .ok then porLoop h n (call h .validate r.1) else r

/-- The loop of host_irq_handler.c:35-40. -/
def rollbackLoop (h : Host) : Nat → Run → Run
  | 0, r => r
  | n + 1, r => if r.2 ≠ .ok ∧ r.2 ≠ .noRollback ∧ r.2 ≠ .rollbackDirty then rollbackLoop h n (call h .rollback r.1) else r

/-- The loop of host_irq_handler.c:42-48. -/
def recoverLoop (h : Host) : Nat → Run → Run
  | 0, r => r
  | n + 1, r =>
    if r.2 ≠ .ok ∧ r.2 ≠ .recoveryUnsupported ∧ r.2 ≠ .noRecoveryImage ∧ r.2 ≠ .flashNotSupported then recoverLoop h n (call h .recover r.1) else r

/-- The loop of host_irq_handler.c:50-68. -/
def bypassLoop (h : Host) (allow : Bool) : Nat → Bool → Run → Run
  | 0, _, r => r
  | n + 1, switched, r =>
    if allow ∧ r.2 ≠ .ok then
      if !switched ∧ r.2 ≠ .recoveryUnsupported ∧ r.2 ≠ .noRecoveryImage ∧ r.2 ≠ .flashNotSupported then bypassLoop h allow n true (call h (.bypass true) r.1)
      else bypassLoop h allow n switched (call h (.bypass false) r.1)
    else r

/-- `host_irq_handler_power_on`, host_irq_handler.c:11-71. -/
def powerOn (h : Host) (allow : Bool) : Run :=
  bypassLoop h allow 2 false (recoverLoop h 2 (rollbackLoop h 2 (porLoop h 1 (call h .validate []))))

/-- `host_irq_handler_force_recovery`, host_irq_handler.c:119-146; `none` if it has not ended after `n` attempts. -/
def forceRecovery (h : Host) : Nat → List Call → Option Run
  | 0, _ => none
  | n + 1, t =>
    let r := call h .recover t
    if r.2 = .recoveryUnsupported ∨ r.2 = .noRecoveryImage then some r
    else if r.2 ≠ .ok then forceRecovery h n r.1
    else some r

end Verif.HostIrq
