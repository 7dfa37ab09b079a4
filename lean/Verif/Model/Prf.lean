import Verif.Model.Sha2
/-! Model of src/cipher/prf.rs. -/

namespace Husk.Prf

open Husk.Sha2

/-- `hmac_sha256`, src/cipher/prf.rs:8-28. A key longer than 64 bytes hits `unimplemented!()`.
The XOR loop touches the first `key.len()` bytes of the two 64-byte pads. -/
def hmacSha256 (m : Mode) (key msg : Bytes) : Res Bytes := do
  if key.length > 64 then .panic
  else
    let iPad := List.zipWith (· ^^^ ·) (List.replicate 64 0x36) key ++ List.replicate (64 - key.length) 0x36
    let oPad := List.zipWith (· ^^^ ·) (List.replicate 64 0x5c) key ++ List.replicate (64 - key.length) 0x5c
    let hi ← sha256 m (iPad ++ msg)
    sha256 m (oPad ++ hi)

/-- `struct Prf`, src/cipher/prf.rs:30-35. -/
structure Prf where
  secret : Bytes
  seed : Bytes
  a : Bytes
  buf : Bytes
  deriving DecidableEq, Repr

/-- `Prf::new`, src/cipher/prf.rs:38-47. -/
def new (m : Mode) (secret seed : Bytes) : Res Prf := do
  let a1 ← hmacSha256 m secret seed
  return { secret, seed, a := a1, buf := [] }

/-- `next_block`, src/cipher/prf.rs:50-57. -/
def nextBlock (m : Mode) (p : Prf) : Res (Bytes × Prf) := do
  let next ← hmacSha256 m p.secret (p.a ++ p.seed)
  let a' ← hmacSha256 m p.secret p.a
  return (next, { p with a := a' })

/-- The `while ret.len() < size` loop, src/cipher/prf.rs:76-86. Every block has 32 bytes, so `size` iterations
suffice; the first argument bounds the iterations. -/
def getLoop (m : Mode) (size : Nat) : Nat → Bytes → Prf → Res (Bytes × Prf)
  | fuel, ret, p =>
    if ret.length < size then
      match fuel with
      | 0 => .diverge
      | fuel + 1 => do
        let (blk, p) ← nextBlock m p
        let sliceLen := size - ret.length
        if sliceLen > 32 then getLoop m size fuel (ret ++ blk) p
        else return (ret ++ blk.take sliceLen, { p with buf := blk.drop sliceLen })
    else .ok (ret, p)

/-- `get_bytes`, src/cipher/prf.rs:59-89. -/
def getBytes (m : Mode) (p : Prf) (size : Nat) : Res (Bytes × Prf) :=
  let buflen := p.buf.length
  let (ret, p) :=
    if buflen > 0 then
      if buflen ≤ size then (p.buf, { p with buf := [] })
      else (p.buf.take size, { p with buf := p.buf.drop size })
    else ([], p)
  getLoop m size size ret p

end Husk.Prf
