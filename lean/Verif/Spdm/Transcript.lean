import Verif.Common.Bytes
/-! Transcripts of SPDM messages: `core/spdm/spdm_transcript_manager.c`. The hash engines are modelled by the data hashed so far; their calls may
fail (`Faults`). An engine in use refuses a new start, as hash_mbedtls.c:59-61 does. Null arguments are not modelled. -/
namespace Verif.Spdm

/-- The hash contexts of `struct spdm_transcript_manager_state`, spdm_transcript_manager.h: the global ones and those of the sessions. -/
inductive Target
  | m1m2
  | l1l2
  | sessionL1l2 (i : Nat)
  | th (i : Nat)
  deriving DecidableEq, Repr

/-- `enum spdm_transcript_manager_context_type`; `other` is any other number. -/
inductive Kind
  | vca
  | m1m2
  | l1l2
  | th
  | other
  deriving DecidableEq, Repr

/-- `struct spdm_transcript_manager_hash_context`. -/
structure Hc where
  engine : Nat
  started : Bool
  deriving DecidableEq, Repr

/-- Sizes: number of engines, `SPDM_MAX_SESSION_COUNT` and `SPDM_TRANSCRIPT_MANAGER_VCA_BUFFER_MAX_SIZE`. -/
structure Cfg where
  engines : Nat
  maxSessions : Nat
  vcaSize : Nat

/-- `struct spdm_transcript_manager_state` and the engines (algorithm and data). An algorithm of 7 is `HASH_TYPE_INVALID`. -/
structure Tm where
  algo : Nat
  vca : Bytes
  version : Nat
  count : Nat
  ctx : Target → Hc
  engine : Nat → Option (Nat × Bytes)

/-- Which engine calls of an operation fail. -/
structure Faults where
  start : Bool
  vca : Bool
  data : Bool
  deriving DecidableEq, Repr

/-- Results. -/
inductive TStatus
  | ok
  | invalidArgument
  | bufferFull
  | notStarted
  | invalidSession
  | unsupportedKind
  | algoAlreadySet
  | engine
  deriving DecidableEq, Repr

def Tm.setEngine (s : Tm) (i : Nat) (v : Option (Nat × Bytes)) : Tm := { s with engine := fun j => if j = i then v else s.engine j }

def Tm.setStarted (s : Tm) (t : Target) (b : Bool) : Tm :=
  { s with ctx := fun u => if u = t then ⟨(s.ctx t).engine, b⟩ else s.ctx u }

/-- `spdm_transcript_manager_init_state`, spdm_transcript_manager.c:591-644; `none`: refused. -/
def tmInit (c : Cfg) : Option Tm :=
  if c.engines < 2 then none
  else
    let count := min ((c.engines - 2) / 2) c.maxSessions
    some ⟨7, [], 0, count,
      fun t => match t with
        | .m1m2 => ⟨0, false⟩
        | .l1l2 => ⟨1, false⟩
        | .sessionL1l2 i => ⟨if i < count then 2 + 2 * i else 0, false⟩
        | .th i => ⟨if i < count then 3 + 2 * i else 0, false⟩,
      fun _ => none⟩

/-- `hash_engine->update`. -/
def engineUpdate (s : Tm) (i : Nat) (d : Bytes) (fails : Bool) : Bool × Tm :=
  match s.engine i with
  | none => (false, s)
  | some (a, x) => if fails then (false, s) else (true, s.setEngine i (some (a, x ++ d)))

/-- `spdm_transcript_manager_add_msg`, spdm_transcript_manager.c:27-67. `none`: access outside of the engine array. -/
def addMsg (c : Cfg) (s : Tm) (t : Target) (msg : Bytes) (addVca : Bool) (f : Faults) : Option (TStatus × Tm) :=
  let i := (s.ctx t).engine
  if i ≥ c.engines then none
  else if (s.ctx t).started then
    match engineUpdate s i msg f.data with
    | (false, s) => some (.engine, s)
    | (true, s) => some (.ok, s)
  else if (s.engine i).isSome ∨ f.start ∨ s.algo ≥ 7 then some (.engine, s)
  else
    let s := (s.setEngine i (some (s.algo, []))).setStarted t true
    match if addVca then engineUpdate s i s.vca f.vca else (true, s) with
    | (false, s) => some (.engine, s)
    | (true, s) =>
      match engineUpdate s i msg f.data with
      | (false, s) => some (.engine, s)
      | (true, s) => some (.ok, s)

/-- `spdm_transcript_manager_update_vca`, spdm_transcript_manager.c:80-99. -/
def updateVca (c : Cfg) (s : Tm) (msg : Bytes) : TStatus × Tm :=
  if msg.length > c.vcaSize - s.vca.length then (.bufferFull, s) else (.ok, { s with vca := s.vca ++ msg })

/-- `spdm_transcript_manager_update`, spdm_transcript_manager.c:414-463, with the functions 112-202. `none`: access outside of an array. -/
def tmUpdate (c : Cfg) (s : Tm) (k : Kind) (msg : Bytes) (session : Bool) (idx : Nat) (f : Faults) : Option (TStatus × Tm) :=
  if msg.length = 0 then some (.invalidArgument, s)
  else match k with
    | .vca => some (updateVca c s msg)
    | .m1m2 => addMsg c s .m1m2 msg true f
    | .l1l2 =>
      if session = true ∧ idx ≥ c.maxSessions then some (.invalidSession, s)
      else addMsg c s (if session then .sessionL1l2 idx else .l1l2) msg (s.version > 0x11) f
    | .th =>
      if session = true ∧ idx ≥ c.maxSessions then some (.invalidSession, s)
      else if idx ≥ c.maxSessions then none
      else addMsg c s (.th idx) msg true f
    | .other => some (.unsupportedKind, s)

/-- Which context `spdm_transcript_manager_get_hash` reads, spdm_transcript_manager.c:480-515. -/
def hashTarget (s : Tm) (k : Kind) (session : Bool) (idx : Nat) : Except TStatus Target :=
  if (session = true ∧ k = .m1m2) ∨ (session = false ∧ k = .th) then .error .invalidArgument
  else if session = true ∧ idx ≥ s.count then .error .invalidSession
  else match k with
    | .m1m2 => .ok .m1m2
    | .l1l2 => .ok (if session then .sessionL1l2 idx else .l1l2)
    | .th => .ok (.th idx)
    | _ => .error .unsupportedKind

/-- `spdm_transcript_manager_get_hash`, spdm_transcript_manager.c:465-534: the algorithm and the data whose digest is returned. -/
def tmGetHash (c : Cfg) (s : Tm) (k : Kind) (finish session : Bool) (idx : Nat) (fails : Bool) : Option (Except TStatus (Nat × Bytes) × Tm) :=
  match hashTarget s k session idx with
  | .error e => some (.error e, s)
  | .ok t =>
    if (s.ctx t).started = false then some (.error .notStarted, s)
    else if (s.ctx t).engine ≥ c.engines then none
    else match s.engine (s.ctx t).engine with
      | none => some (.error .engine, s)
      | some d =>
        if fails then some (.error .engine, s)
        else some (.ok d, if finish then (s.setEngine (s.ctx t).engine none).setStarted t false else s)

/-- Reset of a hash context, spdm_transcript_manager.c:230-291. -/
def resetTarget (s : Tm) (t : Target) : Tm :=
  if (s.ctx t).started then (s.setEngine (s.ctx t).engine none).setStarted t false else s

/-- `spdm_transcript_manager_reset_session_transcript`, spdm_transcript_manager.c:293-310. -/
def resetSession (s : Tm) (idx : Nat) : Tm :=
  if idx ≥ s.count then s else resetTarget (resetTarget s (.sessionL1l2 idx)) (.th idx)

/-- `spdm_transcript_manager_reset_context`, spdm_transcript_manager.c:312-360. -/
def resetContext (s : Tm) (k : Kind) (session : Bool) (idx : Nat) : Tm :=
  if (session = true ∧ k = .m1m2) ∨ (session = false ∧ k = .th) then s
  else if session = true ∧ idx ≥ s.count then s
  else match k with
    | .vca => { s with vca := [] }
    | .m1m2 => resetTarget s .m1m2
    | .l1l2 => resetTarget s (if session then .sessionL1l2 idx else .l1l2)
    | .th => resetTarget s (.th idx)
    | .other => s

/-- Loop over the sessions, spdm_transcript_manager.c:378-380. -/
def resetSessions (s : Tm) : Nat → Tm
  | 0 => s
  | n + 1 => resetSession (resetSessions s n) n

/-- `spdm_transcript_manager_reset`, spdm_transcript_manager.c:362-382. -/
def resetAll (s : Tm) : Tm :=
  let s := { s with algo := 7, vca := [] }
  let s := resetTarget (resetTarget s .m1m2) .l1l2
  resetSessions s s.count

/-- `spdm_transcript_manager_set_hash_algo`, spdm_transcript_manager.c:384-404. -/
def setAlgo (s : Tm) (a : Nat) : TStatus × Tm :=
  if a ≥ 7 then (.invalidArgument, s) else if s.algo ≠ 7 then (.algoAlreadySet, s) else (.ok, { s with algo := a })

/-- `spdm_transcript_manager_set_spdm_version`, spdm_transcript_manager.c:406-412. -/
def setVersion (s : Tm) (v : Nat) : Tm := { s with version := v }

end Verif.Spdm
