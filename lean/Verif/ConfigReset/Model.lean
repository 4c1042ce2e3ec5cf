/-! Resetting the configuration: `core/cmd_interface/config_reset.c` and `authorized_execution_config_reset.c`. Null arguments and log entries are not
modelled. -/
namespace Verif.ConfigReset

/-- What can be cleared: entry `i` of a list of `struct config_reset`, or one of its single managers, config_reset.h:45-59. -/
inductive Item
  | bypass (i : Nat)
  | config (i : Nat)
  | component (i : Nat)
  | state (i : Nat)
  | riot
  | aux
  | recovery
  | keystore (i : Nat)
  deriving DecidableEq, Repr

/-- `struct config_reset`: the lengths of the lists, and which managers there are. -/
structure Config where
  bypass : Nat
  config : Nat
  component : Nat
  state : Nat
  riot : Bool
  aux : Bool
  recovery : Bool
  keystore : Nat
  deriving DecidableEq, Repr

/-- Status codes: 0 is success. `CONFIG_RESET_NO_MANIFESTS` and `CONFIG_RESET_NO_CERTS` of config_reset.h:88-89 with the module number of rot_status.h
left out; codes of the managers are other numbers. -/
def noManifests : Nat := 2
/-- `CONFIG_RESET_NO_CERTS`. -/
def noCerts : Nat := 3

/-- `config_reset_init`, config_reset.c:33-70. -/
def init (c : Config) : Except Nat Config :=
  if c.state ≠ 0 ∧ c.config = 0 ∧ c.bypass = 0 then .error noManifests else .ok c

/-- What an operation returns and the managers it called. -/
structure Out where
  status : Nat
  calls : List Item
  deriving DecidableEq, Repr

/-- The manager calls in a row until one fails; `res` is what the managers return. The loops of config_reset.c. -/
def clearList (res : Item → Nat) : List Item → Out
  | [] => ⟨0, []⟩
  | i :: l => if res i ≠ 0 then ⟨res i, [i]⟩ else { clearList res l with calls := i :: (clearList res l).calls }

/-- `config_reset_restore_bypass`, config_reset.c:93-114. -/
def restoreBypass (res : Item → Nat) (c : Config) : Out :=
  if c.bypass = 0 then ⟨noManifests, []⟩ else clearList res ((List.range c.bypass).map .bypass)

/-- `config_reset_restore_platform_config`, config_reset.c:192-213. -/
def restorePlatformConfig (res : Item → Nat) (c : Config) : Out :=
  if c.config = 0 then ⟨noManifests, []⟩ else clearList res ((List.range c.config).map .config)

/-- `config_reset_clear_component_manifests`, config_reset.c:222-244. -/
def clearComponentManifests (res : Item → Nat) (c : Config) : Out :=
  if c.component = 0 then ⟨noManifests, []⟩ else clearList res ((List.range c.component).map .component)

/-- `config_reset_clear_provisioned_certificates`, config_reset.c:253-264. -/
def clearCertificates (res : Item → Nat) (c : Config) : Out :=
  if c.riot = false then ⟨noCerts, []⟩ else ⟨res .riot, [.riot]⟩

/-- One part after what was done before, of which the status is tolerated: the status of the part, and the calls of both. -/
def Out.andThen (a b : Out) : Out := ⟨b.status, a.calls ++ b.calls⟩

/-- `(status != 0) && (status != CONFIG_RESET_NO_MANIFESTS)`. -/
def stops (s : Nat) : Bool := s ≠ 0 && s ≠ noManifests

/-- A part that is only there if something is configured; the status of what was done before remains if it is not. -/
def Out.andList (a : Out) (res : Item → Nat) (l : List Item) : Out :=
  if l = [] then a else a.andThen (clearList res l)

/-- A single manager as a list. -/
def opt (b : Bool) (i : Item) : List Item := if b then [i] else []

/-- Such a part with the return after a failure, and what comes after it. -/
def Out.stage (a : Out) (res : Item → Nat) (l : List Item) (k : Out → Out) : Out :=
  if l ≠ [] ∧ (a.andList res l).status ≠ 0 then a.andList res l else k (a.andList res l)

/-- The rest of `config_reset_restore_defaults` after the manifests, config_reset.c:147-182. -/
def restoreRest (res : Item → Nat) (c : Config) (a : Out) : Out :=
  a.stage res ((List.range c.state).map .state) fun a =>
  a.stage res (opt c.riot .riot) fun a =>
  a.stage res (opt c.aux .aux) fun a =>
  a.stage res (opt c.recovery .recovery) fun a =>
  a.andList res ((List.range c.keystore).map .keystore)

/-- `config_reset_restore_defaults`, config_reset.c:123-183. -/
def restoreDefaults (res : Item → Nat) (c : Config) : Out :=
  let b := restoreBypass res c
  if stops b.status then b
  else
    let p := b.andThen (restorePlatformConfig res c)
    if stops p.status then p
    else
      let m := p.andThen (clearComponentManifests res c)
      if stops m.status then m
      else restoreRest res c m

/-- The operations that an authorized reset can be set up for, authorized_execution_config_reset.c:117-194. -/
inductive Kind | bypass | defaults | platform | components | certificates
  deriving DecidableEq, Repr

/-- `reset_handler` of an operation, as set by the init functions. -/
def handler : Kind → (Item → Nat) → Config → Out
  | .bypass => restoreBypass
  | .defaults => restoreDefaults
  | .platform => restorePlatformConfig
  | .components => clearComponentManifests
  | .certificates => clearCertificates

/-- `authorized_execution_config_reset_execute`, authorized_execution_config_reset.c:11-42: also whether a device reset is requested. -/
def execute (k : Kind) (res : Item → Nat) (c : Config) : Out × Bool :=
  let o := handler k res c
  (o, o.status = 0 && k = .platform)

end Verif.ConfigReset
