import Verif.DevSched.Model
import Verif.Discovery.Spec
/-!
Model of the list of unidentified devices in `core/cmd_interface/device_manager.c` and of its use in
`core/attestation/attestation_requester.c`.

The circular list is a list of entries that starts with the one `mgr->unidentified` points to; the empty list is the null pointer. The entry
`mgr->unidentified->next` is the second one. Null arguments are not modelled.
-/
namespace Verif.Discovery
open Verif DevSched

/-- `struct device_manager_unidentified_entry`, device_manager.h:335-340. `due`: `discovery_timeout`. -/
structure Ent where
  eid : UInt8
  timeout : Bool
  due : Nat
deriving DecidableEq, Repr

abbrev Ring := List Ent

/-- `none` `NO_DEVICES_AVAILABLE`, `unknown` `UNKNOWN_DEVICE`, `memory` `NO_MEMORY`, `clock` a failure of the timer, `bridge` no valid answer of the bridge. -/
inductive Err where
  | none | unknown | memory | clock | bridge
deriving DecidableEq, Repr

/-- `device_manager_find_unidentified_device`, device_manager.c:348-371: index of the entry. The search starts behind the head and ends with it. -/
def find (eid : UInt8) : Ring → Option Nat
  | [] => none
  | h :: t =>
    match t.findIdx? (fun e => e.eid == eid) with
    | some i => some (i + 1)
    | none => if h.eid = eid then some 0 else none

/-- `device_manager_add_unidentified_device`, device_manager.c:2060-2085, when the allocation succeeds. The new entry goes behind the head. -/
def add (ring : Ring) (eid : UInt8) (now : Nat) : Ring :=
  match ring with
  | [] => [⟨eid, false, now⟩]
  | h :: t => h :: ⟨eid, false, now⟩ :: t

/-- `device_manager_remove_unidentified_device`, device_manager.c:2095-2122. `.oob`: the head was freed and the manager still points to it. -/
def remove (ring : Ring) (eid : UInt8) : Res Err Ring :=
  match ring with
  | [] => .ok []
  | h :: t =>
    match find eid (h :: t) with
    | none => .err .unknown
    | some 0 => if t = [] then .ok [] else .oob
    | some (i + 1) => .ok (h :: t.eraseIdx i)

/-- `device_manager_unidentified_device_timed_out`, device_manager.c:2132-2153. `ms`: `unidentified_timeout_ms`. -/
def timedOut (ring : Ring) (eid : UInt8) (now ms : Nat) : Res Err Ring :=
  match find eid ring with
  | none => .err .unknown
  | some i => .ok (ring.modify i fun e => { e with timeout := true, due := now + ms })

/-- `device_manager_has_unidentified_devices`, device_manager.c:2164-2175. -/
def hasUnidentified (devs : List Dev) : Bool := devs.any fun d => d.state == 1

/-- `!runner->timeout || status`, device_manager.c:2212 and 2222. -/
def ready (now : Nat) (e : Ent) : Bool := !e.timeout || decide (e.due ≤ now)

/-- The loop of `device_manager_get_eid_of_next_device_to_discover`, device_manager.c:2216-2230, over the entries that have a successor other than the
head. `i`: how many were passed; `fails`: the timer of an entry cannot be checked. -/
def search (now : Nat) (fails : Ent → Bool) : List Ent → Nat → Except Err Nat
  | [], _ => .error .none
  | e :: es, i => if fails e then .error .clock else if ready now e then .ok i else search now fails es (i + 1)

/-- `found:`, device_manager.c:2232-2237: the entry is no longer marked, and the one behind it becomes the head. -/
def take (ring : Ring) (i : Nat) : Ring × Except Err UInt8 :=
  match ring[i]? with
  | none => (ring, .error .none)
  | some e => (ring.drop (i + 1) ++ ring.take i ++ [{ e with timeout := false }], .ok e.eid)

/-- `device_manager_get_eid_of_next_device_to_discover`, device_manager.c:2184-2238. All timers are checked at the same time `now`. -/
def next (ring : Ring) (devs : List Dev) (now : Nat) (fails : Ent → Bool) : Ring × Except Err UInt8 :=
  match ring with
  | [] => ([], .error .none)
  | h :: t =>
    if !hasUnidentified devs then ([], .error .none)
    else if fails h then (h :: t, .error .clock)
    else if ready now h then take (h :: t) 0
    else match search now fails (h :: t).dropLast 0 with
      | .error e => (h :: t, .error e)
      | .ok i => take (h :: t) i

/-- `device_manager_is_device_unattestable`, device_manager.c:2467-2481, with `device_manager_get_device_num`, 269-284: the first device with that EID. -/
def unattestable (devs : List Dev) (eid : UInt8) : Bool :=
  match devs.find? (fun d => d.eid == eid) with
  | none => false
  | some d => d.state == 5

/-- The inner loop of `attestation_requester_get_mctp_routing_table`, attestation_requester.c:4939-4945. `room`: how many more allocations succeed. -/
def addRange (now : Nat) : List UInt8 → Ring → Nat → Except Err (Ring × Nat) × Ring
  | [], ring, room => (.ok (ring, room), ring)
  | _ :: _, ring, 0 => (.error .memory, ring)
  | e :: es, ring, room + 1 => addRange now es (add ring e now) room

/-- The EIDs `starting_eid + i_eid`, as passed in one byte, attestation_requester.c:4939-4941. -/
def rangeEids (r : Spec.Range) : List UInt8 := (List.range r.size.toNat).map fun i => UInt8.ofNat (r.start.toNat + i)

/-- The loop over the entries of a response, attestation_requester.c:4933-4946. -/
def addRanges (devs : List Dev) (now : Nat) : List Spec.Range → Ring → Nat → Except Err (Ring × Nat) × Ring
  | [], ring, room => (.ok (ring, room), ring)
  | r :: rs, ring, room =>
    if unattestable devs r.start then addRanges devs now rs ring room
    else match addRange now (rangeEids r) ring room with
      | (.error e, ring') => (.error e, ring')
      | (.ok (ring', room'), _) => addRanges devs now rs ring' room'

/-- The loop over the responses, attestation_requester.c:4891-4949. `bridge h`: the answer to the request for handle `h`, `none` if there is no valid one. `none`: not finished
after `fuel` responses. -/
def pages (devs : List Dev) (bridge : UInt8 → Option Spec.Page) (now : Nat) : Nat → UInt8 → Ring → Nat → Option (Except Err Unit × Ring)
  | 0, _, _, _ => none
  | fuel + 1, h, ring, room =>
    if h = 0xff then some (.ok (), ring)
    else match bridge h with
      | none => some (.error .bridge, ring)
      | some p =>
        match addRanges devs now p.ranges ring room with
        | (.error e, ring') => some (.error e, ring')
        | (.ok (ring', room'), _) => pages devs bridge now fuel p.next ring' room'

/-- The device manager and the requester. `want`: `get_routing_table`. -/
structure St where
  ring : Ring
  devs : List Dev
  want : Bool
deriving DecidableEq, Repr

/-- `device_manager_restart_device_discovery`, device_manager.c:2247-2263. -/
def restartDevs (devs : List Dev) : List Dev := devs.map fun d => if d.state ≠ 5 then { d with state := 1 } else d

/-- `attestation_requester_get_mctp_routing_table`, attestation_requester.c:4862-4960. -/
def fetch (st : St) (bridge : UInt8 → Option Spec.Page) (now room fuel : Nat) : Option (St × Except Err Unit) :=
  if !st.want then some (st, .ok ())
  else if st.devs.length < 2 then some ({ st with ring := [] }, .error .unknown)
  else match pages st.devs bridge now fuel 0 [] room with
    | none => none
    | some (.error e, ring) => some ({ st with ring := ring }, .error e)
    | some (.ok _, ring) => some ({ ring := ring, devs := restartDevs st.devs, want := false }, .ok ())

/-- One turn of the discovery loop, attestation_requester.c:5018-5037, with `attestation_requester_discover_device`, 4795-4853: the EID that was tried, and the list
afterwards. `good`: the device answered. The routing table is not asked for meanwhile. -/
def discover (ring : Ring) (devs : List Dev) (now ms : Nat) (fails : Ent → Bool) (good : Bool) : Res Err Ring × Option UInt8 :=
  match next ring devs now fails with
  | (ring', .error _) => (.ok ring', none)
  | (ring', .ok eid) =>
    if good then
      match remove ring' eid with
      | .ok r => (.ok r, some eid)
      | .err _ => (.ok ring', some eid)
      | .oob => (.oob, some eid)
    else
      match timedOut ring' eid now ms with
      | .ok r => (.ok r, some eid)
      | .err _ => (.ok ring', some eid)
      | .oob => (.oob, some eid)

end Verif.Discovery
