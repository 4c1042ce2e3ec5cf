import Verif.Common.Bytes
/-! When a device may reset itself after a firmware update, and what the status says. -/
namespace Verif.UpdateReset.Spec

/-- What was asked of the device and what came of it. -/
structure Update where
  /-- the update was applied -/
  applied : Bool
  /-- the new firmware is to be executed at once -/
  execute : Bool
  /-- the device is built without self-reset -/
  noSelfReset : Bool
  /-- the update has no impact on the system -/
  harmless : Bool
deriving DecidableEq, Repr

/-- The device resets itself. -/
def resets (u : Update) : Bool := u.applied && u.execute && !u.noSelfReset && u.harmless

/-- The first byte of the status reported after an update that was applied: 0 if the device resets, `0x22` if it does not. -/
def successCode (u : Update) : Nat := if resets u then 0 else 0x22

end Verif.UpdateReset.Spec
