import Verif.Common.Bytes
/-! Model of `core/asn1/base64_core.c`. -/
namespace Verif.Base64

/-- `base64_core_encoding`, base64_core.c:14-19. -/
def table : Bytes := [
  0x41, 0x42, 0x43, 0x44, 0x45, 0x46, 0x47, 0x48, 0x49, 0x4a, 0x4b, 0x4c, 0x4d, 0x4e, 0x4f, 0x50,
  0x51, 0x52, 0x53, 0x54, 0x55, 0x56, 0x57, 0x58, 0x59, 0x5a, 0x61, 0x62, 0x63, 0x64, 0x65, 0x66,
  0x67, 0x68, 0x69, 0x6a, 0x6b, 0x6c, 0x6d, 0x6e, 0x6f, 0x70, 0x71, 0x72, 0x73, 0x74, 0x75, 0x76,
  0x77, 0x78, 0x79, 0x7a, 0x30, 0x31, 0x32, 0x33, 0x34, 0x35, 0x36, 0x37, 0x38, 0x39, 0x2b, 0x2f]

/-- `base64_core_encoding[i]`; an index outside the table would show up as NUL. -/
def enc (i : Nat) : UInt8 := table.getD i 0

/-- `BASE64_LENGTH`, base64.h:16, in 32-bit `size_t` arithmetic. `& ~0x3` clears the two low bits. -/
def base64Length (x : Nat) : Nat := ((4 * x % 2 ^ 32 / 3 + 3) / 4 * 4 + 1) % 2 ^ 32

/-- The loop and the tail of `base64_core_encode`, base64_core.c:39-69: the bytes stored to `encoded`. -/
def encodeBody : Bytes → Bytes
  | b1 :: b2 :: b3 :: rest =>
    enc (b1.toNat >>> 2) ::
    enc (((b1.toNat &&& 0x03) <<< 4) ||| (b2.toNat >>> 4)) ::
    enc (((b2.toNat &&& 0x0f) <<< 2) ||| ((b3.toNat >>> 6) &&& 0x03)) ::
    enc (b3.toNat &&& 0x3f) :: encodeBody rest
  | [b1, b2] =>
    let val := (b1.toNat &&& 0x03) <<< 4
    [enc (b1.toNat >>> 2), enc (val ||| (b2.toNat >>> 4)), enc ((b2.toNat &&& 0x0f) <<< 2), 0x3d, 0]
  | [b1] =>
    let val := (b1.toNat &&& 0x03) <<< 4
    [enc (b1.toNat >>> 2), enc val, 0x3d, 0x3d, 0]
  | [] => [0]

/-- `base64_core_encode`, base64_core.c:22-72. `none` is `BASE64_ENGINE_ENC_BUFFER_TOO_SMALL`; otherwise the
bytes stored from the start of `encoded`. -/
def encode (data : Bytes) (encLength : Nat) : Option Bytes :=
  if encLength < base64Length data.length then none else some (encodeBody data)

end Verif.Base64
