import Verif.Common.Bytes
/-! The manager of the device identity certificates, `core/riot/riot_key_manager.c`, with `core/keystore/keystore_flash.c` as its key store.

Two tasks use it: one handles commands (import and erase of certificates, reading of the keys), one verifies the stored certificates in the background
(cmd_background_handler.c:394-409). Every function is split where another task can come in between. -/
namespace Verif.Riot

/-- What does not change: the check of the chain from the alias certificate over the device identity and the intermediate CA to the root CA by the X.509 engine,
riot_key_manager.c:85-115. -/
structure Cfg where
  chainOk : (devid : Bytes) → (inter : Option Bytes) → (root : Bytes) → Bool

/-- The result of reading a key, keystore_flash.c:24-80. In all cases but `ok` the pointer is set to null. -/
inductive Load
  | ok (d : Bytes)
  | noKey
  | badKey
  | error

/-- What goes wrong with a read of the key store. -/
inductive Fault
  | none
  | bad
  | err
  deriving DecidableEq, Repr

def loadKey (k : Option Bytes) : Fault → Load
  | .bad => .badKey
  | .err => .error
  | .none => match k with
    | some d => .ok d
    | none => .noKey

/-- Where the device identity certificate in use is: memory of the caller of init (`static_devid`), or a block of the heap. -/
inductive Ref
  | static (d : Bytes)
  | heap (p : Nat)
  deriving DecidableEq, Repr

/-- Where the verification is: not running; keys are read and the chain is to be checked; the chain is good and the certificate in use is to be replaced. The number is the
block of the stored device identity certificate. -/
inductive VPc
  | idle
  | check (p : Nat)
  | swap (p : Nat)
  deriving DecidableEq, Repr

/-- Where the import of a certificate is: not running, or checked and to be saved. -/
inductive SPc
  | idle
  | save (id : Nat) (cert : Bytes)
  deriving DecidableEq, Repr

/-- The key store (certificates 0 to 2), the heap, the pointers in `struct riot_key_manager_state`, the position of both tasks, whether a verification was asked for,
whether the lock of the keys is held by a reader, and whether a block was released that was not live or used after its release by the manager. -/
structure St where
  ks : Nat → Option Bytes
  heap : List (Nat × Bytes)
  next : Nat
  root : Option Nat
  inter : Option Nat
  devid : Ref
  verify : VPc
  store : SPc
  pending : Bool
  locked : Bool
  ub : Bool

/-- Contents of a live block. -/
def St.block (s : St) (p : Nat) : Option Bytes := s.heap.lookup p

def alloc (s : St) (d : Bytes) : Nat × St := (s.next, { s with heap := (s.next, d) :: s.heap, next := s.next + 1 })

/-- `platform_free`. -/
def free (s : St) : Option Nat → St
  | none => s
  | some p => if (s.block p).isSome then { s with heap := s.heap.filter (fun b => b.1 != p) } else { s with ub := true }

/-- The first part of `riot_key_manager_authenticate_stored_certificates`, under the lock of the store, riot_key_manager.c:41-82. -/
def verifyBegin (s : St) (f0 f1 f2 : Fault) : St :=
  match loadKey (s.ks 0) f0 with
  | .ok d =>
    let (p0, s) := alloc s d
    match loadKey (s.ks 1) f1 with
    | .ok r =>
      let (p1, s) := alloc s r
      let s := { s with root := some p1 }
      match loadKey (s.ks 2) f2 with
      | .ok i =>
        let (p2, s) := alloc s i
        { s with inter := some p2, verify := .check p0 }
      | .error =>
        let s := { s with inter := none }
        let s := { free s s.root with root := none }
        free s (some p0)
      | _ => { s with inter := none, verify := .check p0 }
    | _ => free { s with root := none } (some p0)
  | _ => s

/-- Contents for the engine; `none` if a block is not live. -/
def chainOf (s : St) (p : Nat) : Option (Bytes × Option Bytes × Bytes) := do
  let d ← s.block p
  let r ← s.root
  let r ← s.block r
  match s.inter with
  | none => some (d, none, r)
  | some i =>
    let i ← s.block i
    some (d, some i, r)

/-- The second part, without lock, riot_key_manager.c:84-115 and 137-146; `f` if a step of the engine fails. -/
def verifyCheck (cfg : Cfg) (s : St) (p : Nat) (f : Bool) : St :=
  match chainOf s p with
  | none => { s with ub := true, verify := .idle }
  | some (d, i, r) =>
    if !f && cfg.chainOk d i r then { s with verify := .swap p }
    else
      let s := free s (some p)
      let s := { free s s.root with root := none }
      let s := { free s s.inter with inter := none }
      { s with verify := .idle }

/-- The third part, under the lock of the keys, riot_key_manager.c:117-126. -/
def verifySwap (s : St) (p : Nat) : St :=
  let s := match s.devid with
    | .static _ => s
    | .heap q => free s (some q)
  { s with devid := .heap p, verify := .idle }

/-- `riot_key_manager_erase_all_certificates`, riot_key_manager.c:465-491: stops at the first error. -/
def eraseAll (s : St) (f0 f1 f2 : Bool) : St :=
  if f0 then s
  else
    let ks := fun i => if i = 0 then none else s.ks i
    if f1 then { s with ks := ks }
    else
      let ks := fun i => if i = 1 then none else ks i
      if f2 then { s with ks := ks }
      else { s with ks := fun i => if i = 2 then none else ks i }

/-- The steps of both tasks, with what fails. -/
inductive Label
  /-- Import: the check that the store is not locked, riot_key_manager.c:165-171. -/
  | storeBegin (id : Nat) (cert : Bytes)
  /-- Import: the save, 173-175. `r` is what is stored if the save fails. A verification is asked for if it succeeded, cerberus_protocol_required_commands.c:375-382. -/
  | storeEnd (fail : Option (Option Bytes))
  | erase (f0 f1 f2 : Bool)
  | verifyBegin (f0 f1 f2 : Fault)
  | verifyCheck (f : Bool)
  | verifySwap
  /-- `riot_key_manager_get_riot_keys` and `riot_key_manager_release_riot_keys`, riot_key_manager.c:502-529. -/
  | lockKeys
  | unlockKeys

/-- One step; a step that cannot be taken in a state changes nothing. -/
def step (cfg : Cfg) (s : St) : Label → St
  | .storeBegin id cert =>
    if s.store = .idle ∧ s.root = none ∧ id < 3 ∧ cert ≠ [] then { s with store := .save id cert } else s
  | .storeEnd f => match s.store with
    | .idle => s
    | .save id cert => match f with
      | none => { s with store := .idle, ks := fun i => if i = id then some cert else s.ks i, pending := true }
      | some r => { s with store := .idle, ks := fun i => if i = id then r else s.ks i }
  | .erase f0 f1 f2 => eraseAll s f0 f1 f2
  | .verifyBegin f0 f1 f2 =>
    if s.verify = .idle ∧ s.pending then verifyBegin { s with pending := false } f0 f1 f2 else s
  | .verifyCheck f => match s.verify with
    | .check p => verifyCheck cfg s p f
    | _ => s
  | .verifySwap => match s.verify with
    | .swap p => if s.locked then s else verifySwap s p
    | _ => s
  | .lockKeys => if s.locked then s else { s with locked := true }
  | .unlockKeys => { s with locked := false }

def run (cfg : Cfg) (s : St) (ls : List Label) : St := ls.foldl (step cfg) s

/-- The state at init, riot_key_manager.c:190-216, before the verification of the stored certificates (218), that is the first one asked for. The device identity certificate is
in a block of the heap, or static. -/
def initial (ks : Nat → Option Bytes) (static : Bool) (devid : Bytes) : St where
  ks := ks
  heap := if static then [] else [(0, devid)]
  next := 1
  root := none
  inter := none
  devid := if static then .static devid else .heap 0
  verify := .idle
  store := .idle
  pending := true
  locked := false
  ub := false

/-- `riot_key_manager_release`, riot_key_manager.c:363-381, of what the manager holds for certificates that were read. -/
def release (s : St) : St :=
  let s := match s.devid with
    | .static _ => s
    | .heap p => free s (some p)
  let s := { free s s.root with root := none }
  { free s s.inter with inter := none }

/-- Operations that are not interrupted by the other task between check and save. -/
inductive Op
  | import_ (id : Nat) (cert : Bytes) (fail : Option (Option Bytes))
  | erase (f0 f1 f2 : Bool)
  | verifyBegin (f0 f1 f2 : Fault)
  | verifyCheck (f : Bool)
  | verifySwap
  | lockKeys
  | unlockKeys

def Op.labels : Op → List Label
  | .import_ id cert f => [.storeBegin id cert, .storeEnd f]
  | .erase f0 f1 f2 => [.erase f0 f1 f2]
  | .verifyBegin f0 f1 f2 => [.verifyBegin f0 f1 f2]
  | .verifyCheck f => [.verifyCheck f]
  | .verifySwap => [.verifySwap]
  | .lockKeys => [.lockKeys]
  | .unlockKeys => [.unlockKeys]

end Verif.Riot
