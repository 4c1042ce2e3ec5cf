import Verif.HostState.Model
/-!
The settings as independent fields of a record, and what each call is meant to do to them.
-/
namespace Verif.HostState

/-- What the getters return. -/
structure Settings where
  /-- active PFM region (0 or 1) -/
  pfm : Nat
  /-- configured read-only flash -/
  ro : Nat
  /-- read-only flash override in effect -/
  override : Option Nat
  inactiveDirty : Bool
  roEvents : Nat
  recovery : Nat
  pfmDirty : Bool
  runTime : Prevalidated
  bypass : Bool
  flashSupported : Bool
  deriving Repr, DecidableEq

/-- The intended effect of each call. Only `restoreDefault`, marking the inactive flash dirty and
marking the PFM dirty touch more than one field: the last two withdraw a run-time validation result
that they invalidate. -/
def Settings.apply (t : Settings) : Op → Settings
  | .activePfm r => if r < 2 then { t with pfm := r } else t
  | .restoreDefault =>
    ⟨0, 0, none, false, 3, 0, true, .none, t.bypass, t.flashSupported⟩
  | .roFlash cs => if cs < 2 then { t with ro := cs } else t
  | .overrideRo cs => if cs < 2 then { t with override := some cs } else t
  | .clearOverride => { t with override := none }
  | .inactiveDirty d =>
    if d then { t with inactiveDirty := true, runTime := .none } else { t with inactiveDirty := false }
  | .roEvents e => if e < 4 then { t with roEvents := e } else t
  | .recovery r => if r < 2 then { t with recovery := r } else t
  | .pfmDirty d =>
    if d then
      { t with pfmDirty := true, runTime := if t.runTime = .flashAndPfm then .none else t.runTime }
    else { t with pfmDirty := false }
  | .runTime p => { t with runTime := p }
  | .bypass b => { t with bypass := b }
  | .unsupported b => { t with flashSupported := !b }

/-- An out-of-range argument is refused. -/
def Op.valid : Op → Bool
  | .activePfm r => r < 2
  | .roFlash cs => cs < 2
  | .overrideRo cs => cs < 2
  | .roEvents e => e < 4
  | .recovery r => r < 2
  | _ => true

open Verif.StateManager (State) in
/-- The getters of `s` return the settings `t`. -/
structure Shows (s : State) (t : Settings) : Prop where
  pfm : getActivePfm s = t.pfm
  roNv : getRoFlashNv s = t.ro
  hasOverride : hasRoOverride s = t.override.isSome
  ro : getRoFlash s = t.override.getD t.ro
  inactiveDirty : isInactiveDirty s = t.inactiveDirty
  roEvents : getRoEvents s = t.roEvents
  recovery : getRecovery s = t.recovery
  pfmDirty : isPfmDirty s = t.pfmDirty
  runTime : getRunTime s = t.runTime.code
  bypass : isBypass s = t.bypass
  flashSupported : isFlashSupported s = t.flashSupported

end Verif.HostState
