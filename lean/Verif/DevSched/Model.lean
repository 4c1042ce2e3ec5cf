import Verif.Common.Res
import Verif.DevSched.Spec
/-!
Model of the schedule of attestations and of the attestation status in `core/cmd_interface/device_manager.c`.

Time is a number of milliseconds; a timeout that is set is the time at which it expires, and it has expired from then on. Null
managers are not modelled. `num_devices` is the length of the table, which the code keeps in one byte.
-/
namespace Verif.DevSched
open Verif

/-- `struct device_manager_entry`, device_manager.h:312-330, the fields used here. `due`: `attestation_timeout`. -/
structure Dev where
  eid : UInt8
  comp : Nat
  state : Nat
  due : Nat
deriving DecidableEq, Repr

/-- `struct device_manager`, device_manager.h:346-373, the fields used here. `buf`: `attestation_status`. -/
structure Mgr where
  devs : List Dev
  nReq : Nat
  nUniq : Nat
  nResp : Nat
  last : Nat
  authMs : Nat
  unauthMs : Nat
  invalid : Bool
  buf : Bytes
deriving DecidableEq, Repr

/-- `DEVICE_MGR_*`: `invalid` the argument, `unknown` the device, `unsupported` `STATE_UPDATE_UNSUPPORTED`, `none` `NO_DEVICES_AVAILABLE`, `clock` a
failure of the timer. -/
inductive Err where
  | invalid | unknown | unsupported | none | clock
deriving DecidableEq, Repr

/-- `device_manager_is_device_unauthenticated`, device_manager.c:29-44, with the values of device_manager.h:136-165. -/
def unauthenticated (s : Nat) : Bool :=
  s == 3 || s == 4 || s == 9 || s == 0x10 || s == 0x11 || s == 0x12 || s == 0x13 || s == 0x14 || s == 0x15 || s == 0x16 || s == 0x20 || s == 0x21
    || s == 0x17 || s == 0x22 || s == 10

/-- `device_manager_can_device_be_attested`, device_manager.c:51-59. -/
def canBeAttested (s : Nat) : Bool :=
  unauthenticated s || s == 0 || s == 6 || s == 7 || s == 8 || s == 11 || s == 2 || s == 12

/-- The loop of `device_manager_get_device_num_of_next_device_to_attest`, device_manager.c:1719-1736. `fails i`: the check of the timer of
device `i` fails. -/
def scan (devs : List Dev) (now : Nat) (fails : Nat → Bool) : Nat → Nat → Res Err Nat
  | 0, _ => .err .none
  | k + 1, i =>
    match devs[i]? with
    | none => .oob
    | some d =>
      if !canBeAttested d.state then scan devs now fails k ((i + 1) % devs.length)
      else if fails i then .err .clock
      else if d.due ≤ now then .ok i
      else scan devs now fails k ((i + 1) % devs.length)

/-- `device_manager_get_device_num_of_next_device_to_attest`, device_manager.c:1706-1737. -/
def nextToAttest (m : Mgr) (now : Nat) (fails : Nat → Bool) : Res Err (Mgr × Nat) :=
  if m.devs.length = 0 then .err .invalid
  else (scan m.devs now fails m.devs.length ((m.last + 1) % m.devs.length)).bind fun i => .ok ({ m with last := i }, i)

/-- `device_manager_get_eid_of_next_device_to_attest`, device_manager.c:1680-1694. -/
def eidOfNext (m : Mgr) (now : Nat) (fails : Nat → Bool) : Res Err (Mgr × UInt8) :=
  (nextToAttest m now fails).bind fun r =>
    match r.1.devs[r.2]? with
    | none => .oob
    | some d => .ok (r.1, d.eid)

/-- The timeout chosen in `device_manager_update_device_state`, device_manager.c:1350-1359. -/
def timeoutFor (m : Mgr) (prev s : Nat) : Nat :=
  if s = 0 ∨ s = 6 then m.authMs
  else if unauthenticated s && (unauthenticated prev || prev == 2) then m.unauthMs
  else 0

/-- `device_manager_update_device_state`, device_manager.c:1327-1362. `clockOk`: the timer can be set. The state is changed in any case. -/
def updateState (m : Mgr) (i s now : Nat) (clockOk : Bool) : Mgr × Option Err :=
  if 0x23 ≤ s then (m, some .invalid)
  else match m.devs[i]? with
    | none => (m, some .unknown)
    | some d =>
      if d.state = 5 then (m, some .unsupported)
      else if clockOk then ({ m with devs := m.devs.set i { d with state := s, due := now + timeoutFor m d.state s } }, none)
      else ({ m with devs := m.devs.set i { d with state := s } }, some .clock)

/-- `device_manager_restart_device_discovery`, device_manager.c:2247-2263. -/
def restart (m : Mgr) : Mgr :=
  { m with devs := m.devs.map fun d => if d.state ≠ 5 then { d with state := 1 } else d }

/-- `device_manager_mark_component_attestation_invalid`, device_manager.c:2456-2465. -/
def markInvalid (m : Mgr) : Mgr := { m with invalid := true }

/-- `device_manager_find_min_timeout`, device_manager.c:2332-2345: the time that remains, 0 if it cannot be told. -/
def minTimeout (now : Nat) (fail : Bool) (due dur : Nat) : Nat :=
  min (if fail then 0 else due - now) dur

/-- `device_manager_get_time_till_next_action`, device_manager.c:2354-2391. `ring`: the timeouts of the devices to be discovered; `fails` tells
for a timeout whether it cannot be read. -/
def timeTillNext (m : Mgr) (ring : List Nat) (now : Nat) (fails : Nat → Bool) : Nat :=
  ring.foldl (fun dur due => minTimeout now (fails due) due dur)
    (m.devs.foldl (fun dur d => if !canBeAttested d.state then dur else minTimeout now (fails d.due) d.due dur) 60000)

/-- The loop of `device_manager_get_attestation_status`, device_manager.c:2425-2450. `hdr`: offset of the current header (`none` before the first
device), `pos`: `i_entry`. -/
def statusLoop (inv : Bool) : List Dev → Option Nat → Nat → Bytes → Res Err Bytes
  | [], _, _, buf => .ok buf
  | d :: ds, hdr, pos, buf =>
    let b : UInt8 := if !inv then UInt8.ofNat d.state else 0xff
    match hdr with
    | some h =>
      if leNat (window buf h 4) = d.comp then
        if h + 5 ≤ buf.length ∧ pos < buf.length then
          statusLoop inv ds hdr (pos + 1) (writeAt (writeAt buf (h + 4) [buf.getD (h + 4) 0 + 1]) pos [b])
        else .oob
      else if pos + 5 < buf.length then
        statusLoop inv ds (some pos) (pos + 6) (writeAt (writeAt buf pos (toLE 4 d.comp ++ [1])) (pos + 5) [b])
      else .oob
    | none =>
      if pos + 5 < buf.length then
        statusLoop inv ds (some pos) (pos + 6) (writeAt (writeAt buf pos (toLE 4 d.comp ++ [1])) (pos + 5) [b])
      else .oob

/-- `device_manager_get_attestation_status`, device_manager.c:2405-2454: the report is the first bytes of the buffer. -/
def status (m : Mgr) : Res Err (Mgr × Bytes) :=
  let len := m.nResp + m.nUniq * 5
  if m.nResp = 0 then .ok (m, window m.buf 0 len)
  else (statusLoop m.invalid (m.devs.drop m.nReq) none 0 m.buf).bind fun buf => .ok ({ m with buf := buf }, window buf 0 len)

/-- `device_manager_init`, device_manager.c:86-174, the table and the report buffer. Own device first, marked as not attestable. The counts are kept in one byte each (the table has all
the devices, those beyond `num_devices` are never looked at); `junk` is what the allocator returned. -/
def init (nReq nUniq nResp authMs unauthMs : Nat) (junk : Bytes) : Res Err Mgr :=
  if nReq = 0 then .err .invalid
  else if nResp < nUniq then .err .invalid
  else
    let n := (nReq + nResp) % 256
    if n = 0 then .err .unknown
    else .ok {
            devs := (List.replicate n { eid := 0, comp := 0, state := 0, due := 0 : Dev }).set 0 { eid := 0, comp := 0, state := 5, due := 0 }
            nReq := nReq % 256, nUniq := nUniq % 256, nResp := nResp % 256, last := 0, authMs := authMs, unauthMs := unauthMs, invalid := false
            buf := window junk 0 (nResp + nUniq * 5) }

end Verif.DevSched
