import Verif.Requester.Model
/-! When a key may be used to check the signatures of a device. -/
namespace Verif.Requester

/-- Certificates, each of which is accepted with the one before as the only one trusted, and all of which but the last may issue certificates. -/
inductive Chain (env : Env) : Bytes → List Bytes → Prop
  | leaf {anchor cert : Bytes} (h1 : env.certOk cert = true) (h2 : env.auth anchor cert = true) : Chain env anchor [cert]
  | link {anchor cert : Bytes} {rest : List Bytes} (h1 : env.certOk cert = true) (h2 : env.auth anchor cert = true) (h3 : env.caOk cert = true)
      (hr : Chain env cert rest) : Chain env anchor (cert :: rest)

/-- The certificate a chain starts from: if the component has a list of roots, the root of the device, which is in the list; otherwise our own root, if there is one. -/
def TrustedRoot (env : Env) (c : Component) (root anchor : Bytes) : Prop :=
  env.rootOk anchor = true ∧ match c.root, env.localRoot with
    | some r, _ => anchor = root ∧ env.hash r.type root ∈ r.list
    | none, some l => anchor = l
    | none, none => anchor = root

/-- Key `k` is that of the last certificate of a chain from a trusted root, and `d` is the digest of the chain. -/
def Vouched (env : Env) (c : Component) (k : Key) (d : Bytes) : Prop :=
  ∃ header root anchor certs leaf t, TrustedRoot env c root anchor ∧ Chain env anchor certs ∧ certs.getLast? = some leaf ∧ env.keyOf leaf = some k ∧
    d = env.hash t (header ++ root ++ certs.flatten)

/-- The key that is held is vouched for by one of the components; the digest that is held for the same device is that of its chain. -/
def KeyOk (env : Env) (P : Component → Prop) (s : St) : Prop :=
  ∀ e k, s.alias = some (e, k) → ∃ c d, P c ∧ Vouched env c k d ∧ ∀ d', s.chain = some (e, d') → d' = d

/-- A history of attestations, each of a device with the rules for its components. -/
def history (env : Env) : List (Nat × List (Option Component)) → St → St
  | [], s => s
  | (eid, l) :: rest, s => history env rest (attestDevice env eid l s).2

end Verif.Requester
