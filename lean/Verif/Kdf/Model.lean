import Verif.Common.Bytes
/-! Model of `core/crypto/kdf.c`. The HMAC computation with the given key is a parameter: `mac i m` is the HMAC of the message `m` in
round `i`, `none` is a failure of any of the HMAC calls of the round. -/
namespace Verif.Kdf

/-- Outcome of the functions; `uninitialised` is the return of the local variable `status` before anything was stored in it. -/
inductive Status
  | ok | failed | inputKeyTooShort | outputKeyTooLong | uninitialised
deriving DecidableEq, Repr

/-- The message of round `i`, kdf.c:66-98: counter, label, separator, context, length in bits. `context = NULL` is the empty
context (`context_len` is not used then). -/
def counterMessage (label context : Bytes) (L i : Nat) : Bytes :=
  toBE 4 i ++ label ++ [0] ++ context ++ toBE 4 L

/-- The loop at kdf.c:58-109. `status` is the value of the local variable so far, `left` the number of rounds left. -/
def counterLoop (mac : Nat → Bytes → Option Bytes) (label context : Bytes) (L hashLen keyLen : Nat) :
    (left i pos : Nat) → (status : Status) → (key : Bytes) → Status × Bytes
  | 0, _, _, status, key => (status, key)
  | left + 1, i, pos, _, key =>
    match mac i (counterMessage label context L i) with
    | none => (.failed, key)
    | some m =>
      let copyLen := min hashLen (keyLen - pos)
      counterLoop mac label context L hashLen keyLen left (i + 1) (pos + copyLen) .ok (writeAt key pos (m.take copyLen))

/-- `kdf_nist800_108_counter_mode`, kdf.c:29-120. `L` is a `uint32_t`. -/
def counterMode (mac : Nat → Bytes → Option Bytes) (hashLen : Nat) (label context : Bytes) (keyLen : Nat) : Status × Bytes :=
  let L := keyLen * 8 % 2 ^ 32
  let rounds := keyLen / hashLen + (if keyLen % hashLen ≠ 0 then 1 else 0)
  counterLoop mac label context L hashLen keyLen rounds 1 0 .uninitialised (List.replicate keyLen 0)

/-- The loop at kdf.c:180-221. -/
def expandLoop (mac : Nat → Bytes → Option Bytes) (info : Bytes) (hashLen outLen n : Nat) :
    (left i whr : Nat) → (t out : Bytes) → Status × Bytes
  | 0, _, _, _, out => (.ok, out)
  | left + 1, i, whr, t, out =>
    match mac i (t ++ info ++ [UInt8.ofNat (i &&& 0xff)]) with
    | none => (.failed, out)
    | some t' =>
      let numToCopy := if i ≠ n then hashLen else outLen - whr
      expandLoop mac info hashLen outLen n left (i + 1) (whr + hashLen) t' (writeAt out whr (t'.take numToCopy))

/-- `kdf_hkdf_expand`, kdf.c:141-233. `out` is the output buffer. -/
def hkdfExpand (mac : Nat → Bytes → Option Bytes) (hashLen prkLen : Nat) (info out : Bytes) : Status × Bytes :=
  if prkLen < hashLen then (.inputKeyTooShort, out)
  else
    let n := out.length / hashLen + (if out.length % hashLen ≠ 0 then 1 else 0)
    if n > 255 then (.outputKeyTooLong, out)
    else expandLoop mac info hashLen out.length n n 1 0 [] out

end Verif.Kdf
