import Verif.Common.Bytes
/-! Deterministic generation of the ECDSA nonce as RFC 6979, sections 2.3 and 3.2, describes it. `mac K m` is `HMAC_K(m)`. -/
namespace Verif.Rfc6979.Spec

/-- 2.3.2 `bits2int`: the leftmost `qlen` bits as a number. -/
def bits2int (qlen : Nat) (b : Bytes) : Nat :=
  if qlen < 8 * b.length then beNat b / 2 ^ (8 * b.length - qlen) else beNat b

/-- 2.3.3 `int2octets`: big endian, in as many bytes as `q` needs. -/
def int2octets (qlen n : Nat) : Bytes := toBE ((qlen + 7) / 8) n

/-- 2.3.4 `bits2octets`. -/
def bits2octets (q qlen : Nat) (b : Bytes) : Bytes := int2octets qlen (bits2int qlen b % q)

/-- The number of bits of the group order for a key of `L` bytes: 521 for 66 bytes, `8 * L` for the other curves. -/
def qlen (L : Nat) : Nat := if L = 66 then 521 else 8 * L

/-- The values `(K, V)`. -/
abbrev KV := Bytes × Bytes

/-- `K = HMAC_K(V || data)`, then `V = HMAC_K(V)`. -/
def update (mac : Bytes → Bytes → Bytes) (s : KV) (data : Bytes) : KV :=
  let k := mac s.1 (s.2 ++ data)
  (k, mac k s.2)

/-- 3.2 steps b to g, for the octets `x` of the private key and `h` of the hash. -/
def start (mac : Bytes → Bytes → Bytes) (hlen : Nat) (x h : Bytes) : KV :=
  let s : KV := (List.replicate hlen 0x00, List.replicate hlen 0x01)
  update mac (update mac s (0x00 :: (x ++ h))) (0x01 :: (x ++ h))

/-- 3.2 step h.2: while `tlen < qlen`, `V = HMAC_K(V)` and `T = T || V`. The first argument bounds the number of rounds. -/
def collect (mac : Bytes → Bytes → Bytes) (k : Bytes) (qlen : Nat) : Nat → Bytes → Bytes → Bytes × Bytes
  | 0, v, t => (v, t)
  | fuel + 1, v, t =>
    if 8 * t.length < qlen then collect mac k qlen fuel (mac k v) (t ++ mac k v) else (v, t)

/-- 3.2 step h from the state `s`: the new state and the candidate `k = bits2int(T)`. -/
def candidate (mac : Bytes → Bytes → Bytes) (qlen : Nat) (s : KV) : KV × Nat :=
  let r := collect mac s.1 qlen qlen s.2 []
  ((s.1, r.1), bits2int qlen r.2)

/-- The `n`-th candidate (counted from 0) and the state after it: each further one is preceded by
`K = HMAC_K(V || 0x00)`, `V = HMAC_K(V)`. -/
def nth (mac : Bytes → Bytes → Bytes) (qlen : Nat) (s : KV) : Nat → KV × Nat
  | 0 => candidate mac qlen s
  | n + 1 => candidate mac qlen (update mac (nth mac qlen s n).1 [0x00])

/-- The `n`-th candidate for the group order `q` of `qlen` bits, the private key `x` and the digest `h1`. -/
def k (mac : Bytes → Bytes → Bytes) (hlen q qlen x : Nat) (h1 : Bytes) (n : Nat) : Nat :=
  (nth mac qlen (start mac hlen (int2octets qlen x) (bits2octets q qlen h1)) n).2

end Verif.Rfc6979.Spec
