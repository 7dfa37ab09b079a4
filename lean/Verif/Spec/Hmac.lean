import Verif.Base.Bytes
/-! HMAC (RFC 2104) and the TLS 1.2 `P_hash` stream (RFC 5246 section 5), for any hash function with 64-byte blocks. -/

namespace Husk.Spec

/-- RFC 2104: the key, hashed first when longer than the block size, padded with zeros to 64 bytes. -/
def hmacKey (H : Bytes → Bytes) (key : Bytes) : Bytes :=
  let k := if key.length ≤ 64 then key else H key
  k ++ List.replicate (64 - k.length) 0

/-- RFC 2104: `H(K XOR opad, H(K XOR ipad, text))`. -/
def hmac (H : Bytes → Bytes) (key text : Bytes) : Bytes :=
  H ((hmacKey H key).map (· ^^^ 0x5c) ++ H ((hmacKey H key).map (· ^^^ 0x36) ++ text))

/-- RFC 5246 section 5: `A(0) = seed`, `A(i) = HMAC(secret, A(i-1))`; the secret is inside `mac`. -/
def prfA (mac : Bytes → Bytes) (seed : Bytes) : Nat → Bytes
  | 0 => seed
  | i + 1 => mac (prfA mac seed i)

/-- RFC 5246 section 5: block `i` (counted from 0) of `P_hash`: `HMAC(secret, A(i+1) + seed)`. -/
def prfBlock (mac : Bytes → Bytes) (seed : Bytes) (i : Nat) : Bytes := mac (prfA mac seed (i + 1) ++ seed)

/-- The first `n` blocks of `P_hash`. -/
def prfStream (mac : Bytes → Bytes) (seed : Bytes) (n : Nat) : Bytes := (List.range n).flatMap (prfBlock mac seed)

/-- `P_hash` truncated to `len` bytes. -/
def pHash (mac : Bytes → Bytes) (seed : Bytes) (len : Nat) : Bytes := (prfStream mac seed len).take len

end Husk.Spec
