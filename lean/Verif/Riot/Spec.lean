import Verif.Riot.Model
/-! What users of the certificates rely on. -/
namespace Verif.Riot

/-- The device identity certificate in use. -/
def devidCert (s : St) : Option Bytes :=
  match s.devid with
  | .static d => some d
  | .heap p => s.heap.lookup p

/-- The CA certificates in use. -/
def rootCert (s : St) : Option Bytes := match s.root with
  | none => none
  | some p => s.heap.lookup p

def interCert (s : St) : Option Bytes := match s.inter with
  | none => none
  | some p => s.heap.lookup p

/-- The chain in use was checked: the engine accepts it. -/
def ChainGood (cfg : Cfg) (s : St) : Prop := ∃ d r, devidCert s = some d ∧ rootCert s = some r ∧ (s.inter ≠ none → interCert s ≠ none) ∧ cfg.chainOk d (interCert s) r = true

/-- The blocks the manager has pointers to. -/
def refs (s : St) : List Nat :=
  (match s.devid with | .static _ => [] | .heap p => [p]) ++ s.root.toList ++ s.inter.toList ++
  (match s.verify with | .idle => [] | .check p => [p] | .swap p => [p])

/-- Every live block is in use: nothing is lost. -/
def NoLeak (s : St) : Prop := ∀ p d, s.heap.lookup p = some d → p ∈ refs s

end Verif.Riot
