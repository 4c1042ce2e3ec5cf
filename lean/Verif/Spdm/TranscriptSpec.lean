import Verif.Spdm.Transcript
/-! What transcripts are: each context holds its own sequence of messages, after the version, capability and algorithm messages (VCA) known when it was
begun. -/
namespace Verif.Spdm

/-- Operations of the manager. -/
inductive TOp
  | setAlgo (a : Nat)
  | setVersion (v : Nat)
  | update (k : Kind) (msg : Bytes) (session : Bool) (idx : Nat) (f : Faults)
  | getHash (k : Kind) (finish session : Bool) (idx : Nat) (fails : Bool)
  | resetContext (k : Kind) (session : Bool) (idx : Nat)
  | resetSession (idx : Nat)
  | reset

/-- What an operation returns. -/
inductive TRes
  | none
  | status (s : TStatus)
  | digestOf (algo : Nat) (data : Bytes)
  deriving DecidableEq, Repr

/-- An operation of the code. -/
def TOp.run (c : Cfg) (s : Tm) : TOp → Option (TRes × Tm)
  | .setAlgo a => let r := Verif.Spdm.setAlgo s a; some (.status r.1, r.2)
  | .setVersion v => some (.none, Verif.Spdm.setVersion s v)
  | .update k msg ses idx f => (tmUpdate c s k msg ses idx f).map fun r => (.status r.1, r.2)
  | .getHash k fin ses idx fl => (tmGetHash c s k fin ses idx fl).map fun r => (match r.1 with | .ok d => .digestOf d.1 d.2 | .error e => .status e, r.2)
  | .resetContext k ses idx => some (.none, Verif.Spdm.resetContext s k ses idx)
  | .resetSession idx => some (.none, Verif.Spdm.resetSession s idx)
  | .reset => some (.none, resetAll s)

/-- The transcripts. -/
structure Book where
  algo : Option Nat
  vca : Bytes
  version : Nat
  open_ : Target → Option (Nat × Bytes)

/-- The transcript an operation with these arguments means, if there is one. -/
def meant (sessions : Nat) (k : Kind) (session : Bool) (idx : Nat) : Except TStatus Target :=
  match k, session with
  | .m1m2, true => .error .invalidArgument
  | .th, false => .error .invalidArgument
  | .m1m2, false => .ok .m1m2
  | .l1l2, false => .ok .l1l2
  | .l1l2, true => if idx < sessions then .ok (.sessionL1l2 idx) else .error .invalidSession
  | .th, true => if idx < sessions then .ok (.th idx) else .error .invalidSession
  | _, true => if idx < sessions then .error .unsupportedKind else .error .invalidSession
  | _, false => .error .unsupportedKind

def Book.put (b : Book) (t : Target) (v : Option (Nat × Bytes)) : Book := { b with open_ := fun u => if u = t then v else b.open_ u }

/-- L1/L2 transcripts begin with VCA only from version 1.2 on. -/
def beginsWithVca (version : Nat) : Target → Bool
  | .l1l2 | .sessionL1l2 _ => version > 0x11
  | _ => true

/-- One more message for a transcript; calls of the hash engine may fail. -/
def Book.add (b : Book) (t : Target) (msg : Bytes) (f : Faults) : TStatus × Book :=
  match b.open_ t, b.algo with
  | some (a, d), _ => if f.data then (.engine, b) else (.ok, b.put t (some (a, d ++ msg)))
  | none, none => (.engine, b)
  | none, some a =>
    if f.start then (.engine, b)
    else if beginsWithVca b.version t ∧ f.vca then (.engine, b.put t (some (a, [])))
    else
      let d := if beginsWithVca b.version t then b.vca else []
      if f.data then (.engine, b.put t (some (a, d))) else (.ok, b.put t (some (a, d ++ msg)))

/-- One operation on the transcripts. -/
def Book.step (vcaSize sessions : Nat) (b : Book) : TOp → TRes × Book
  | .setAlgo a => if a ≥ 7 then (.status .invalidArgument, b) else if b.algo.isSome then (.status .algoAlreadySet, b) else (.status .ok, { b with algo := some a })
  | .setVersion v => (.none, { b with version := v })
  | .update k msg ses idx f =>
    if msg = [] then (.status .invalidArgument, b)
    else if k = .vca then
      if b.vca.length + msg.length ≤ vcaSize then (.status .ok, { b with vca := b.vca ++ msg }) else (.status .bufferFull, b)
    else if k = .other then (.status .unsupportedKind, b)
    else match meant sessions k (if k = .m1m2 then false else ses) idx with
      | .error e => (.status e, b)
      | .ok t => let r := b.add t msg f; (.status r.1, r.2)
  | .getHash k fin ses idx fl =>
    match meant sessions k ses idx with
    | .error e => (.status e, b)
    | .ok t =>
      match b.open_ t with
      | none => (.status .notStarted, b)
      | some (a, d) => if fl then (.status .engine, b) else (.digestOf a d, if fin then b.put t none else b)
  | .resetContext k ses idx =>
    if k = .vca ∧ (ses = true → idx < sessions) then (.none, { b with vca := [] })
    else match meant sessions k ses idx with
      | .error _ => (.none, b)
      | .ok t => (.none, b.put t none)
  | .resetSession idx => (.none, if idx < sessions then (b.put (.sessionL1l2 idx) none).put (.th idx) none else b)
  | .reset => (.none, { b with algo := none, vca := [], open_ := fun _ => none })

/-- The contexts an operation may name: existing sessions, and TH only for sessions. -/
def TOp.Proper (sessions : Nat) : TOp → Prop
  | .update .l1l2 _ true idx _ => idx < sessions
  | .update .th _ ses idx _ => ses = true ∧ idx < sessions
  | _ => True

end Verif.Spdm
