import Verif.Common.Bytes
/-! The rules a CFM gives for the measurements of a device: `core/attestation/attestation_requester.c`, the comparisons only. -/
namespace Verif.Requester

/-- The results other than success, as far as they are told apart. `ub` is undefined behaviour. -/
inductive Err
  | timeout | unexpected | transport | engine | proto | retries | notFound | rule | invalid | selector | multiple | mask | select
  | untrusted | noKey | badSig | unsupported | tooLarge | noCfm | noType | frozen | ub
  deriving DecidableEq, Repr

/-- `enum cfm_check`, cfm.h:27-34. -/
inductive Check
  | eq | ne | lt | le | gt | ge
  deriving DecidableEq, Repr

/-- `struct cfm_allowable_data_entry`, cfm.h:96-100. -/
structure DataEntry where
  vs : Nat
  data : Bytes
  deriving DecidableEq, Repr

/-- `struct cfm_allowable_data`, cfm.h:105-112. The mask has `bitmask_length` bytes. -/
structure DataCheck where
  check : Check
  bigEndian : Bool
  mask : Option Bytes
  entries : List DataEntry
  deriving DecidableEq, Repr

/-- `struct cfm_digests`, cfm.h:61-65, with the buffer cut into digests. -/
structure Digests where
  type : Nat
  list : List Bytes
  deriving DecidableEq, Repr

/-- `struct cfm_allowable_digests`, cfm.h:70-73. -/
structure DigestEntry where
  vs : Nat
  digests : Digests
  deriving DecidableEq, Repr

/-- `attestation_requester_verify_digest_in_allowable_list`, attestation_requester.c:334-366. `digest` has the length of its type; the loop over
the digests is modelled as membership. An empty list leaves `status`
without a value. -/
def verifyDigest (d : Digests) (digest : Bytes) (type : Nat) : Except Err Unit :=
  if d.type ≠ type then .error .invalid
  else if d.list = [] then .error .ub
  else if digest ∈ d.list then .ok () else .error .rule

/-- A byte under the mask, attestation_requester.c:3031-3034. -/
def maskByte (mask : Option Bytes) (i : Nat) (b : UInt8) : UInt8 :=
  match mask with
  | none => b
  | some m => b &&& m.getD i 0

/-- The difference at an index, attestation_requester.c:3028-3036. -/
def diffAt (mask : Option Bytes) (actual expected : Bytes) (i : Nat) : Int :=
  ((maskByte mask i (actual.getD i 0)).toNat : Int) - ((maskByte mask i (expected.getD i 0)).toNat : Int)

/-- The loop at attestation_requester.c:3027-3041 over the indices in order. No index leaves `result` without a value. -/
def firstDiff (f : Nat → Int) : List Nat → Option Int
  | [] => none
  | [i] => some (f i)
  | i :: j :: rest => if f i ≠ 0 then some (f i) else firstDiff f (j :: rest)

/-- The tests at attestation_requester.c:3043-3062: does the difference satisfy the check? -/
def accepts (c : Check) (r : Int) : Bool :=
  if r = 0 then c == .eq || c == .le || c == .ge
  else if 0 < r then c == .gt || c == .ge || c == .ne
  else c == .lt || c == .le || c == .ne

/-- `attestation_requester_compare_data`, attestation_requester.c:3002-3063: `true` for the result 0. `none` is undefined behaviour. -/
def compareData (c : Check) (actual expected : Bytes) (mask : Option Bytes) (bigEndian : Bool) : Option Bool :=
  if expected.length ≠ actual.length then some false
  else
    let ix := List.range actual.length
    (firstDiff (diffAt mask actual expected) (if bigEndian then ix else ix.reverse)).map (accepts c)

/-- Where the loops of the data rules stand: the version set, the number of checks made and the status. -/
structure DataSt where
  vs : Nat
  n : Nat
  st : Option Err
  deriving DecidableEq, Repr

/-- The loop over the entries of a check, attestation_requester.c:3087-3148. `inr` is an early return (with the version set at that time). -/
def dataEntries (c : DataCheck) (actual : Bytes) : List DataEntry → DataSt → DataSt ⊕ (Nat × Err)
  | [], s => .inl s
  | e :: rest, s =>
    if s.vs ≠ 0 ∧ e.vs ≠ 0 ∧ e.vs ≠ s.vs then dataEntries c actual rest s
    else if s.vs = 0 ∧ e.vs = 0 then .inr (s.vs, .selector)
    else if s.n ≠ 0 ∧ c.check ≠ .eq ∧ c.check ≠ .ne then .inr (s.vs, .multiple)
    else if c.mask.any (fun m => decide (m.length < actual.length)) then .inr (s.vs, .mask)
    else
      match compareData c.check actual e.data c.mask c.bigEndian with
      | none => .inr (s.vs, .ub)
      | some true =>
        let s' : DataSt := { vs := if s.vs = 0 then e.vs else s.vs, n := s.n + 1, st := none }
        if c.check = .eq then .inl s' else dataEntries c actual rest s'
      | some false =>
        let s' : DataSt := { vs := s.vs, n := s.n + 1, st := some .rule }
        if c.check ≠ .eq then .inl s' else dataEntries c actual rest s'

/-- The loop over the checks, attestation_requester.c:3086-3149. -/
def dataChecks (actual : Bytes) : List DataCheck → DataSt → DataSt ⊕ (Nat × Err)
  | [], s => .inl s
  | c :: rest, s =>
    match dataEntries c actual c.entries s with
    | .inr r => .inr r
    | .inl s' => dataChecks actual rest s'

/-- `attestation_requester_verify_data_in_allowable_list`, attestation_requester.c:3077-3159: the status and the version set afterwards. -/
def verifyData (checks : List DataCheck) (actual : Bytes) (vs : Nat) : Except Err Unit × Nat :=
  match dataChecks actual checks { vs := vs, n := 0, st := some .invalid } with
  | .inr (v, e) => (.error e, v)
  | .inl s => (if s.n = 0 then .ok () else match s.st with | none => .ok () | some e => .error e, s.vs)

/-- The loop over the allowable digests, attestation_requester.c:2742-2780 and 2917-2953: the status so far, and the version set. `inr` is an early return. -/
def digestEntries (digest : Bytes) (type : Nat) : List DigestEntry → Nat → Option Err → (Nat × Option Err) ⊕ Err
  | [], vs, st => .inl (vs, st)
  | e :: rest, vs, st =>
    if vs ≠ 0 ∧ e.vs ≠ 0 ∧ e.vs ≠ vs then digestEntries digest type rest vs st
    else if vs = 0 ∧ e.vs = 0 then .inr .selector
    else
      match verifyDigest e.digests digest type with
      | .ok () => .inl (if vs = 0 then e.vs else vs, none)
      | .error .ub => .inr .ub
      | .error x => digestEntries digest type rest vs (some x)

/-- The end of the two functions on digests, attestation_requester.c:2782-2815 and 2955-2986. -/
def verifyDigests (l : List DigestEntry) (digest : Bytes) (type vs : Nat) : Except Err Unit × Nat :=
  match digestEntries digest type l vs none with
  | .inr e => (.error e, vs)
  | .inl (v, st) =>
    (match st with
      | some e => .error e
      | none => if v = 0 then .error .select else .ok (), v)

/-- The end of the function on data, attestation_requester.c:3222-3268. -/
def verifyDataBlock (checks : List DataCheck) (actual : Bytes) (vs : Nat) : Except Err Unit × Nat :=
  match verifyData checks actual vs with
  | (.ok (), v) => (if v = 0 then .error .select else .ok (), v)
  | r => r

/-- Does a rule on digests concern the version set? attestation_requester.c:2718-2734 and 2858-2872. -/
def digestsApply (l : List DigestEntry) (vs : Nat) : Bool := vs == 0 || l.any fun e => e.vs == 0 || e.vs == vs

/-- `check_if_measurement_data_belongs_to_current_version_set`, attestation_requester.c:3166-3187, with the test at 3210. -/
def dataApply (l : List DataCheck) (vs : Nat) : Bool := vs == 0 || l.any fun c => c.entries.any fun e => e.vs == 0 || e.vs == vs

end Verif.Requester
