import Verif.Common.Bytes
/-! HMAC as defined in RFC 2104. -/
namespace Verif.Hmac.Spec

/-- The key, hashed first if longer than a block, zero-padded to the block size. -/
def blockKey (H : Bytes → Bytes) (B : Nat) (key : Bytes) : Bytes :=
  let k := if key.length > B then H key else key
  k ++ List.replicate (B - k.length) 0

/-- `H((K ^ opad) || H((K ^ ipad) || text))`. -/
def hmac (H : Bytes → Bytes) (B : Nat) (key text : Bytes) : Bytes :=
  H ((blockKey H B key).map (· ^^^ 0x5c) ++ H ((blockKey H B key).map (· ^^^ 0x36) ++ text))

end Verif.Hmac.Spec
