import Verif.HostProc.Model
/-! What is expected of the host processor. -/
namespace Verif.HostProc
variable {P C : Type}

/-- What is assumed of the verification functions: a verification of the whole device also verifies the images, and contents that were verified with the
PFM `g` and pass the comparison of `p` with `g` are good for `p`. -/
structure Sound (c : Cfg P C) : Prop where
  full : ∀ p x, c.passes p true x = true → c.passes p false x = true
  quick : ∀ p g x, c.quick p g x = true → c.passes g false x = true → c.passes p false x = true

/-- If the host runs and is not in bypass mode although a PFM is active, then the filter protects the read-only flash, and the read-only flash has contents
that were verified with a genuine PFM, namely the active one unless its activation failed, or got the recovery image since. -/
def RunsVerified (c : Cfg P C) (T : P → Prop) (s : St P C) : Prop :=
  s.running = true → s.bypass = false → ∀ a, s.active = some a →
    s.filter.mode = .dual ∧ s.filter.fullRw = false ∧
    (s.recov s.filter.ro = true ∨ ∃ p, T p ∧ c.passes p false (s.flash s.filter.ro) = true ∧ (s.lapse = false → p = a))

/-- The PFMs in the events are genuine. -/
def Ev.Genuine (T : P → Prop) : Ev P → Prop
  | .pfmVerified p => T p
  | _ => True

/-- A start: any flash contents, any settings; the filter is not in bypass mode, there is no result of an earlier verification, and the PFMs are genuine. -/
structure Start (T : P → Prop) (s : St P C) : Prop where
  mode : s.filter.mode = .dual
  preval : s.preval = .none
  active : ∀ p, s.active = some p → T p
  pending : ∀ p, s.pending = some p → T p

/-- The host boots from the device `d`, which holds `x`: it is selected and the filter protects it; a PFM is active, and the host not in bypass mode. -/
structure Selected (d : Cs) (x : C) (s : St P C) : Prop where
  mode : s.filter.mode = .dual
  filter : s.filter.ro = d
  ro : s.override = none ∧ s.nvRo = d
  data : s.flash d = x
  bypass : s.bypass = false
  cur : s.active.isSome = true

/-- The run that starts in a state. -/
def Run.init (s : St P C) : Run P C := ⟨s, 0, []⟩

end Verif.HostProc
