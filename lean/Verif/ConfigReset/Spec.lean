import Verif.ConfigReset.Model
/-! What the property of configuration resets talks about. -/
namespace Verif.ConfigReset

/-- Everything under control of the reset, in the order in which it is cleared. -/
def everything (c : Config) : List Item :=
  (List.range c.bypass).map .bypass ++ (List.range c.config).map .config ++ (List.range c.component).map .component ++
  (List.range c.state).map .state ++ opt c.riot .riot ++ opt c.aux .aux ++ opt c.recovery .recovery ++ (List.range c.keystore).map .keystore

/-- What each kind of operation is to clear. -/
def scope : Kind → Config → List Item
  | .bypass, c => (List.range c.bypass).map .bypass
  | .defaults, c => everything c
  | .platform, c => (List.range c.config).map .config
  | .components, c => (List.range c.component).map .component
  | .certificates, c => opt c.riot .riot

/-- The items up to and including the first that fails. -/
def untilFailure (res : Item → Nat) : List Item → List Item
  | [] => []
  | i :: l => if res i = 0 then i :: untilFailure res l else [i]

/-- There is something left to clear after the manifests. -/
def hasMore (c : Config) : Bool := c.state ≠ 0 || c.riot || c.aux || c.recovery || c.keystore ≠ 0

end Verif.ConfigReset
