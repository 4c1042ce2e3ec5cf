import Verif.CertBuild.Model
/-!
Model of the extension builders that use the DER builder: `core/asn1/x509_extension_builder_eku.c`,
`core/asn1/dice/x509_extension_builder_dice_ueid.c`,
`core/asn1/dice/x509_extension_builder_dice_tcbinfo.c` and
`core/asn1/dme/x509_extension_builder_dme.c`.

A null pointer with its length is an empty list or `none`. Sums of lengths do not wrap (`size_t`).
Freeing the buffer is not modelled (`build` frees it on failure, `free` on success).
-/
namespace Verif.ExtBuild
open Verif
open Verif.RiotDer Verif.CertBuild

/-- `*_EXTENSION_INVALID_ARGUMENT`. -/
def invalidArgument : Err := .code 10
/-- `*_EXTENSION_NO_MEMORY`. -/
def noMem : Err := .code 11
/-- `*_EXTENSION_SMALL_EXT_BUFFER`. -/
def smallBuffer : Err := .code 12
/-- A missing part: `*_EXTENSION_NO_...`. -/
def missing : Err := .code 13
/-- `DICE_TCBINFO_EXTENSION_UNKNOWN_FWID`, `..._UNKNOWN_IR_DIGEST`. -/
def unknownDigest : Err := .code 14

/-- The end of the `create_extension` functions: any failure of the encoder is a small buffer, e.g.
x509_extension_builder_eku.c:62-70. -/
def create (oid : Bytes) (critical : Bool) (size : Nat) (prog : List (Ctx → Out)) : Res Err Ext :=
  match calls prog (init size) with
  | .ok c => .ok ⟨critical, oid, c.out⟩
  | .err .der => .err smallBuffer
  | .err e => .err e
  | .oob => .oob

/-- The `build_dynamic` functions, e.g. x509_extension_builder_eku.c:72-98: a buffer of `size` bytes. -/
def dynamic (malloc : Nat → Bool) (size : Nat) (build : Nat → Res Err Ext) : Res Err Ext :=
  if malloc size then build size else .err noMem

/-! ### Extended key usage -/

/-- `X509_OID_EKU_EXTENSION`, x509_oid.c:10-12. -/
def ekuOid : Bytes := [0x55, 0x1d, 0x25]

/-- `x509_extension_builder_eku_create_extension`, x509_extension_builder_eku.c:39-70. -/
def ekuCreate (critical : Bool) (oids : List Bytes) (size : Nat) : Res Err Ext :=
  if oids = [] then .err invalidArgument
  else create ekuOid critical size (startSequenceOrSet true :: (oids.map addEncodedOID ++ [popNesting]))

/-- `x509_extension_builder_eku_get_ext_buffer_length`, x509_extension_builder_eku.c:220-233. -/
def ekuLength (oids : List Bytes) : Nat := 3 + (oids.map fun o => 2 + o.length).sum

/-- `x509_extension_builder_eku_build_dynamic`, x509_extension_builder_eku.c:72-98. -/
def ekuDynamic (malloc : Nat → Bool) (critical : Bool) (oids : List Bytes) : Res Err Ext :=
  dynamic malloc (ekuLength oids + 32) (ekuCreate critical oids)

/-! ### Unique device identifier -/

/-- `TCG_DICE_OID_UEID_EXTENSION`, tcg_dice_oid.c:17-19. -/
def ueidOid : Bytes := [0x67, 0x81, 0x05, 0x05, 0x04, 0x04]

/-- `x509_extension_builder_dice_ueid_create_extension`, x509_extension_builder_dice_ueid.c:32-60. -/
def ueidCreate (id : Bytes) (size : Nat) : Res Err Ext :=
  if id = [] then .err invalidArgument
  else create ueidOid false size [startSequenceOrSet true, addOctetString id, popNesting]

/-- `X509_EXTENSION_BUILDER_DICE_UEID_DATA_LENGTH`, x509_extension_builder_dice_ueid.h:15-24. -/
def ueidLength (id : Bytes) : Nat := id.length + 4 + 32

/-- `x509_extension_builder_dice_ueid_build_dynamic`, x509_extension_builder_dice_ueid.c:62-87. -/
def ueidDynamic (malloc : Nat → Bool) (id : Bytes) : Res Err Ext := dynamic malloc (ueidLength id) (ueidCreate id)

/-- A builder with a given buffer: `x509_extension_builder_dice_ueid_init_with_buffer` (162-186) and
then `x509_extension_builder_dice_ueid_build_static` (89-101). -/
def ueidStatic (id : Bytes) (size : Nat) : Res Err Ext :=
  if id = [] then .err invalidArgument
  else if size < ueidLength id then .err smallBuffer
  else ueidCreate id size

/-! ### TCB information -/

/-- `TCG_DICE_OID_TCBINFO_EXTENSION`, tcg_dice_oid.c:10-12. -/
def tcbOid : Bytes := [0x67, 0x81, 0x05, 0x05, 0x04, 0x01]

/-- `enum hash_type`, as far as the switch goes. -/
inductive Alg where
  | sha1
  | sha256
  | sha384
  | sha512
  | other
deriving DecidableEq, Repr

/-- OID and length of a digest: the switch in x509_extension_builder_dice_tcbinfo.c:54-77, with the
OIDs of RiotX509Bldr.c:27-30. -/
def Alg.params : Alg → Option (List Nat × Nat)
  | .sha1 => some ([1, 3, 14, 3, 2, 26], 20)
  | .sha256 => some ([2, 16, 840, 1, 101, 3, 4, 2, 1], 32)
  | .sha384 => some ([2, 16, 840, 1, 101, 3, 4, 2, 2], 48)
  | .sha512 => some ([2, 16, 840, 1, 101, 3, 4, 2, 3], 64)
  | .other => none

/-- `struct tcg_dice_fwid`, tcg_dice.h:15-26: a pointer and an algorithm. -/
structure Fwid where
  digest : Option Bytes
  alg : Alg
deriving DecidableEq, Repr

/-- `struct tcg_dice_integrity_register`, tcg_dice.h:32-53; a negative number is `none`. -/
structure Ir where
  name : Option Bytes
  number : Option UInt32
  digests : List Fwid
deriving DecidableEq, Repr

/-- `struct tcg_dice_tcbinfo`, tcg_dice.h:61-115. -/
structure Tcb where
  vendor : Option Bytes
  model : Option Bytes
  version : Option Bytes
  layer : UInt32
  svn : Bytes
  fwids : List Fwid
  irs : List Ir
deriving DecidableEq, Repr

/-- One digest, x509_extension_builder_dice_tcbinfo.c:50-84. A digest shorter than its algorithm says
is read past its end. -/
def addFwid (f : Fwid) (c : Ctx) : Out :=
  match f.digest with
  | none => .err missing
  | some d =>
    match f.alg.params with
    | none => .err unknownDigest
    | some (oid, n) =>
      if d.length < n then .oob
      else calls [startSequenceOrSet true, addOID oid, addOctetString (d.take n), popNesting] c

/-- A string with a tag if there is one, x509_extension_builder_dice_tcbinfo.c:133-139, 167-169. -/
def optString (tag : UInt8) (s : Option Bytes) : List (Ctx → Out) := (s.map (addString tag)).toList

/-- One register, x509_extension_builder_dice_tcbinfo.c:156-193. -/
def addIr (r : Ir) (c : Ctx) : Out :=
  if r.name = none ∧ r.number = none then .err missing
  else if r.digests = [] then .err missing
  else calls (startSequenceOrSet true :: (optString 0x80 r.name ++
    ((r.number.map fun n => addTaggedInteger n 0x81).toList ++
      (startConstructed 0xa2 :: (r.digests.map addFwid ++ [popNesting, popNesting]))))) c

/-- The list of registers, if there are any, x509_extension_builder_dice_tcbinfo.c:153-196. -/
def irList (irs : List Ir) : List (Ctx → Out) :=
  if irs = [] then [] else startConstructed 0xaa :: (irs.map addIr ++ [popNesting])

/-- `x509_extension_builder_dice_tcbinfo_create_extension`,
x509_extension_builder_dice_tcbinfo.c:104-209. -/
def tcbCreate (t : Tcb) (size : Nat) : Res Err Ext :=
  match t.version with
  | none => .err missing
  | some version =>
    if t.svn = [] then .err missing
    else if t.fwids = [] then .err missing
    else create tcbOid false size (startSequenceOrSet true :: (optString 0x80 t.vendor ++ (optString 0x81 t.model ++
      (addString 0x82 version :: addTaggedIntegerFromArray t.svn 0x83 :: addTaggedInteger t.layer 0x84 ::
        startConstructed 0xa6 :: (t.fwids.map addFwid ++ (popNesting :: (irList t.irs ++ [popNesting])))))))

/-- `x509_extension_builder_dice_tcbinfo_get_fwid_buffer_length`,
x509_extension_builder_dice_tcbinfo.c:348-362. -/
def fwidLength (n : Nat) : Nat := n * (9 + 64 + 7) + 4

/-- Length of a string with its header, x509_extension_builder_dice_tcbinfo.c:380-393. -/
def optLength (s : Option Bytes) : Nat := match s with | none => 0 | some s => s.length + 3

/-- Length for one register, x509_extension_builder_dice_tcbinfo.c:403-415. -/
def irLength (r : Ir) : Nat :=
  optLength r.name + (if r.number.isSome then 9 + 2 else 0) + fwidLength r.digests.length

/-- `x509_extension_builder_dice_tcbinfo_get_ext_buffer_length`,
x509_extension_builder_dice_tcbinfo.c:373-421. -/
def tcbLength (t : Tcb) : Nat :=
  4 + optLength t.vendor + optLength t.model + optLength t.version + (t.svn.length + 1) + (4 + 1) + 2 * 3 +
    fwidLength t.fwids.length + (t.irs.map irLength).sum

/-- `x509_extension_builder_dice_tcbinfo_build_dynamic`,
x509_extension_builder_dice_tcbinfo.c:211-237. -/
def tcbDynamic (malloc : Nat → Bool) (t : Tcb) : Res Err Ext := dynamic malloc (tcbLength t + 32) (tcbCreate t)

/-! ### DME -/

/-- `X509_EXTENSION_BUILDER_DME_OID`, x509_extension_builder_dme.c:32-34. -/
def dmeOid : Bytes := [0x2b, 0x06, 0x01, 0x04, 0x01, 0x82, 0x37, 0x66, 0x03, 0x01]

/-- `struct dme_structure`, dme_structure.h:22-70. -/
structure Dme where
  dataOid : Option Bytes
  data : Option Bytes
  sigOid : Option Bytes
  signature : Option Bytes
  key : Option Bytes
  device : Option Bytes
  counter : Option Bytes
deriving DecidableEq, Repr

/-- A value whose tag is changed afterwards, x509_extension_builder_dme.c:98-100, 104-106. -/
def retag (tag : UInt8) (f : Ctx → Out) (c : Ctx) : Out := do
  let c' ← f c
  .ok { c' with buf := writeAt c'.buf c.pos [tag] }

/-- `x509_extension_builder_dme_create_extension`, x509_extension_builder_dme.c:52-120. -/
def dmeCreate (d : Dme) (size : Nat) : Res Err Ext :=
  match d.dataOid, d.data, d.sigOid, d.signature, d.key with
  | some dataOid, some data, some sigOid, some sig, some key =>
    create dmeOid false size (startSequenceOrSet true :: (addDER key :: addEncodedOID dataOid :: addOctetString data ::
      startSequenceOrSet true :: addEncodedOID sigOid :: popNesting :: addBitString sig ::
      ((d.device.map fun o => retag 0x80 (addEncodedOID o)).toList ++
        ((d.counter.map fun b => retag 0x81 (addBitString b)).toList ++ [popNesting]))))
  | _, _, _, _, _ => .err missing

/-- Length of an optional field, 0 if it is null (the callers keep the length at 0 then). -/
def lenOf (b : Option Bytes) : Nat := match b with | none => 0 | some b => b.length

/-- `x509_extension_builder_dme_get_ext_buffer_length`, x509_extension_builder_dme.c:259-278. -/
def dmeLength (d : Dme) : Nat :=
  4 + lenOf d.dataOid + lenOf d.data + lenOf d.sigOid + lenOf d.signature + lenOf d.key + lenOf d.device +
    lenOf d.counter + (4 * 7 + 2)

/-- `x509_extension_builder_dme_build_dynamic`, x509_extension_builder_dme.c:122-149. -/
def dmeDynamic (malloc : Nat → Bool) (d : Dme) : Res Err Ext := dynamic malloc (dmeLength d + 32) (dmeCreate d)

end Verif.ExtBuild
