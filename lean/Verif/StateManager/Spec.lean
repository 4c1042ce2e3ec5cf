import Verif.StateManager.Model
/-!
What the non-volatile store promises: vocabulary for the statements in Props.
-/
namespace Verif.StateManager

/-- A usable configuration: sectors of at least two whole entries, an aligned base, inside the
32-bit address space. -/
structure Cfg.WF (c : Cfg) : Prop where
  whole : c.sector % 8 = 0
  two : 16 ≤ c.sector
  aligned : c.base % c.sector = 0
  fits : c.base + c.sector * 2 ≤ 2 ^ 31

/-- The 14 settings a client of the store can see: bits 6 and 7 mark the storage format and are not
settings, so they are ignored. -/
def settings (v : BitVec 16) : BitVec 16 := v ||| 0xc0

/-- Power is lost while the flash operations `ops` are carried out: some of them are complete, and
the rest did not start. -/
inductive CrashMem : List FlashOp → Mem → Mem → Prop
  | cut (done rest : List FlashOp) (m : Mem) : CrashMem (done ++ rest) m (applyOps done m)

/-- The system as seen from outside. `saved` is what the client has been told is stored: it is
not read by the code. -/
structure Sys where
  mem : Mem
  state : State
  saved : BitVec 16

/-- Everything that can happen to a device that starts with both state sectors erased. `saved` is
only changed by a store that reports success, and by a power loss during a store, after which it is
whatever the next boot came up with. -/
inductive Reach (c : Cfg) : Sys → Prop
  /-- first boot -/
  | start (m : Mem) (e : Env) (blank : ∀ i, c.base ≤ i → i < c.base + c.sector * 2 → m i = 0xff)
      (ok : (initState c m e).status = .ok) :
      Reach c ⟨applyOps (initState c m e).ops m, (initState c m e).state, 0xffff⟩
  /-- the client changes settings, or the volatile flags below the two owned by the store -/
  | change (s : Sys) (nv : BitVec 16) (vol : BitVec 8) (h : Reach c s)
      (keep : vol &&& 0xc0 = s.state.vol &&& 0xc0) :
      Reach c ⟨s.mem, { s.state with nv := nv, vol := vol }, s.saved⟩
  /-- a store, with any driver behaviour -/
  | store (s : Sys) (e : Env) (h : Reach c s) :
      Reach c ⟨applyOps (store c s.mem e s.state).ops s.mem, (store c s.mem e s.state).state,
        if (store c s.mem e s.state).status = .ok then s.state.nv else s.saved⟩
  /-- a reboot while no store is running -/
  | reboot (s : Sys) (e : Env) (h : Reach c s) (ok : (initState c s.mem e).status = .ok) :
      Reach c ⟨applyOps (initState c s.mem e).ops s.mem, (initState c s.mem e).state, s.saved⟩
  /-- power is lost while a store is running, then the device boots -/
  | crash (s : Sys) (e e' : Env) (m' : Mem) (h : Reach c s)
      (cut : CrashMem (StateManager.store c s.mem e s.state).ops s.mem m')
      (ok : (initState c m' e').status = .ok) :
      Reach c ⟨applyOps (initState c m' e').ops m', (initState c m' e').state,
        (initState c m' e').state.nv⟩

/-- `d` is `v` with some bits damaged: for each bit position at most one of the three copies
differs from `v`. -/
def DamagedCopies (v : BitVec 16) (d : Entry) : Prop :=
  ∀ i, i < 16 →
    (d.w1.getLsbD i = v.getLsbD i ∧ d.w2.getLsbD i = v.getLsbD i) ∨
    (d.w0.getLsbD i = v.getLsbD i ∧ d.w2.getLsbD i = v.getLsbD i) ∨
    (d.w0.getLsbD i = v.getLsbD i ∧ d.w1.getLsbD i = v.getLsbD i)

/-- `m'` is `m` with damage to the state sectors: each entry is intact, or it was a stored value and
for each bit position at most one of its three copies changed. -/
def DamagedMem (c : Cfg) (m m' : Mem) : Prop :=
  ∀ i, 8 * i < c.sector * 2 →
    rdEntry m' (c.base + 8 * i) = rdEntry m (c.base + 8 * i) ∨
    ∃ v, rdEntry m (c.base + 8 * i) = entryOf v ∧ DamagedCopies v (rdEntry m' (c.base + 8 * i))

/-- Power is lost during an erase: some bits of the sector have been raised, the rest have not. -/
def PartlyErased (addr len : Nat) (m m' : Mem) : Prop :=
  ∀ i, if addr ≤ i ∧ i < addr + len then m' i ||| m i = m' i else m' i = m i

end Verif.StateManager
