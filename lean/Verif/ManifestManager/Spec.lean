import Verif.ManifestManager.Model
/-! Histories of manifest manager calls, and what is said about them. -/
namespace Verif.ManifestManager

/-- The calls, with the choices of the environment. -/
inductive Op
  | boot (env : BootEnv)
  | get (active : Bool)
  | free (r : Bool)
  | activate
  | clearPending (size : Nat) (e : Erase)
  | write (length : Nat) (content : Bytes) (written : Option Nat)
  | verify (fail post : Bool)
  | clearAll (e1 e2 : Erase)

/-- The manager and the handles the callers hold for each region. -/
structure Sys where
  s : State
  held : Bool → Nat

/-- One call. A manager that is not initialized is not called, and a caller frees only what it holds. A restart ends the life of the handles. -/
def step (W : World) (y : Sys) (op : Op) : Sys × Result × Trace :=
  match op with
  | .boot env =>
    match boot W y.s env with
    | (s, r, t) => (⟨s, fun _ => 0⟩, r, t)
  | op =>
    if !y.s.up then (y, .ok (), []) else
    match op with
    | .boot _ => (y, .ok (), [])
    | .get a =>
      match get y.s a with
      | (s, none) => (⟨s, y.held⟩, .ok (), [])
      | (s, some r) => (⟨s, fun q => if q = r then y.held q + 1 else y.held q⟩, .ok (), [])
    | .free r =>
      if y.held r = 0 then (y, .ok (), [])
      else (⟨free y.s (some r), fun q => if q = r then y.held q - 1 else y.held q⟩, .ok (), [])
    | .activate => match activate y.s with | (s, r) => (⟨s, y.held⟩, r, [])
    | .clearPending size e => match clearPending y.s size e with | (s, r, t) => (⟨s, y.held⟩, r, t)
    | .write l c w => match writePending y.s l c w with | (s, r, t) => (⟨s, y.held⟩, r, t)
    | .verify f p => match verifyPending W y.s f p with | (s, r) => (⟨s, y.held⟩, r, [])
    | .clearAll e1 e2 => match clearAll y.s e1 e2 with | (s, r, t) => (⟨s, y.held⟩, r, t)

/-- Before the first start: any flash contents. -/
def start (c1 c2 : Bytes) : Sys :=
  ⟨reset ⟨false, true, fun r => ⟨0, false, if r then c1 else c2, none, 0, 0⟩, none⟩ true, fun _ => 0⟩

inductive Reach (W : World) : Sys → Prop
  | start (c1 c2 : Bytes) : Reach W (start c1 c2)
  | step {y : Sys} (op : Op) : Reach W y → Reach W (step W y op).1

/-- The manifest in force. -/
def current (s : State) : Option Bytes :=
  if s.up && (s.region s.active).valid then some (s.region s.active).content else none

/-- `b` may follow `a`. -/
def Follows (W : World) (a b : Bytes) : Prop :=
  W.good b = true ∧ W.id a < W.id b ∧
    (if W.sku then ∃ rest, W.platform b = W.platform a ++ rest else W.platform a = W.platform b)

/-- A restart finds the active region where it was left. -/
def Keeps (y : Sys) : Op → Prop
  | .boot env => env.active = y.s.active
  | _ => True

end Verif.ManifestManager
