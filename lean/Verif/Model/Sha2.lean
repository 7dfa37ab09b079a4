import Verif.Base.Bytes
/-! Model of src/crypto/sha2.rs. -/

namespace Husk.Sha2

/-- `K`, src/crypto/sha2.rs:9-18. -/
def K : List UInt32 := [
  0x428a2f98, 0x71374491, 0xb5c0fbcf, 0xe9b5dba5, 0x3956c25b, 0x59f111f1, 0x923f82a4, 0xab1c5ed5,
  0xd807aa98, 0x12835b01, 0x243185be, 0x550c7dc3, 0x72be5d74, 0x80deb1fe, 0x9bdc06a7, 0xc19bf174,
  0xe49b69c1, 0xefbe4786, 0x0fc19dc6, 0x240ca1cc, 0x2de92c6f, 0x4a7484aa, 0x5cb0a9dc, 0x76f988da,
  0x983e5152, 0xa831c66d, 0xb00327c8, 0xbf597fc7, 0xc6e00bf3, 0xd5a79147, 0x06ca6351, 0x14292967,
  0x27b70a85, 0x2e1b2138, 0x4d2c6dfc, 0x53380d13, 0x650a7354, 0x766a0abb, 0x81c2c92e, 0x92722c85,
  0xa2bfe8a1, 0xa81a664b, 0xc24b8b70, 0xc76c51a3, 0xd192e819, 0xd6990624, 0xf40e3585, 0x106aa070,
  0x19a4c116, 0x1e376c08, 0x2748774c, 0x34b0bcb5, 0x391c0cb3, 0x4ed8aa4a, 0x5b9cca4f, 0x682e6ff3,
  0x748f82ee, 0x78a5636f, 0x84c87814, 0x8cc70208, 0x90befffa, 0xa4506ceb, 0xbef9a3f7, 0xc67178f2]

/-- `INIT_VECTOR`, src/crypto/sha2.rs:20-22. -/
def INIT_VECTOR : List UInt32 := [
  0x6a09e667, 0xbb67ae85, 0x3c6ef372, 0xa54ff53a, 0x510e527f, 0x9b05688c, 0x1f83d9ab, 0x5be0cd19]

/-- `u32::rotate_right` (std). -/
def rotr (x : UInt32) (n : UInt32) : UInt32 := (x >>> n) ||| (x <<< (32 - n))

/-- `BigEndian::read_u32_into` (byteorder), used at src/crypto/sha2.rs:49. -/
def readU32sBE (b : Bytes) : List UInt32 := (chunks 4 b).map fun c => UInt32.ofNat (beNat c)

/-- `BigEndian::write_u32_into` (byteorder), used at src/crypto/sha2.rs:106. -/
def writeU32sBE (ws : List UInt32) : Bytes := ws.flatMap fun w => beBytes 4 w.toNat

/-- One iteration of the schedule loop, src/crypto/sha2.rs:51-59. Indices are below 64 by the loop bounds. -/
def schedStep (w : List UInt32) (j : Nat) : List UInt32 :=
  let wj15 := w.getD (j - 15) 0
  let sig0 := rotr wj15 7 ^^^ rotr wj15 18 ^^^ (wj15 >>> 3)
  let wj2 := w.getD (j - 2) 0
  let sig1 := rotr wj2 17 ^^^ rotr wj2 19 ^^^ (wj2 >>> 10)
  w.set j (sig0 + sig1 + w.getD (j - 7) 0 + w.getD (j - 16) 0)

/-- Message schedule, src/crypto/sha2.rs:47-62. -/
def schedule (blk : Bytes) : List UInt32 :=
  (List.range' 16 48).foldl schedStep (readU32sBE blk ++ List.replicate 48 0)

/-- The local variables `a..h`, src/crypto/sha2.rs:64-71. -/
structure Vars where
  a : UInt32
  b : UInt32
  c : UInt32
  d : UInt32
  e : UInt32
  f : UInt32
  g : UInt32
  h : UInt32
  deriving DecidableEq, Repr

/-- One iteration of the round loop, src/crypto/sha2.rs:73-93. -/
def round (w : List UInt32) (s : Vars) (j : Nat) : Vars :=
  let ch := (s.e &&& s.f) ^^^ ((~~~ s.e) &&& s.g)
  let maj := (s.a &&& s.b) ^^^ (s.a &&& s.c) ^^^ (s.b &&& s.c)
  let sig0 := rotr s.a 2 ^^^ rotr s.a 13 ^^^ rotr s.a 22
  let sig1 := rotr s.e 6 ^^^ rotr s.e 11 ^^^ rotr s.e 25
  let t1 := s.h + sig1 + ch + K.getD j 0 + w.getD j 0
  let t2 := sig0 + maj
  { h := s.g, g := s.f, f := s.e, e := s.d + t1, d := s.c, c := s.b, b := s.a, a := t1 + t2 }

/-- Processing of one 64-byte block, src/crypto/sha2.rs:46-103. -/
def block (val : List UInt32) (blk : Bytes) : List UInt32 :=
  let w := schedule blk
  let v (i : Nat) := val.getD i 0
  let s0 : Vars := ⟨v 0, v 1, v 2, v 3, v 4, v 5, v 6, v 7⟩
  let s := (List.range 64).foldl (round w) s0
  [v 0 + s.a, v 1 + s.b, v 2 + s.c, v 3 + s.d, v 4 + s.e, v 5 + s.f, v 6 + s.g, v 7 + s.h]

/-- Number of zero bytes, src/crypto/sha2.rs:29: `(64 - 8 - 1 as u64).wrapping_sub(len as u64) & 63`. -/
def paddingLen (len : Nat) : Nat := (((55 : UInt64) - UInt64.ofNat len) &&& 63).toNat

/-- Padding, src/crypto/sha2.rs:25-40. `(len as u64) * 8` is a checked multiplication.
The loop `for i in (0..8).rev() { push((bitlen >> (8 * i)) as u8) }` is unrolled. -/
def pad (m : Mode) (msg : Bytes) : Res Bytes := do
  let len := msg.length
  let bitlen ← mulU64 m (UInt64.ofNat len) 8
  let lenBytes : Bytes := ([7, 6, 5, 4, 3, 2, 1, 0] : List UInt64).map fun i => (bitlen >>> (8 * i)).toUInt8
  let padded := msg ++ [0x80] ++ List.replicate (paddingLen len) 0 ++ lenBytes
  debugAssert m (padded.length % 64 == 0)
  return padded

/-- `sha256`, src/crypto/sha2.rs:24-108. The loop over `nblk` blocks `msg[i*64..(i+1)*64]` is a fold over
the first `nblk = len / 64` blocks. -/
def sha256 (m : Mode) (msg : Bytes) : Res Bytes := do
  let padded ← pad m msg
  let nblk := padded.length / 64
  let val := (List.range nblk).foldl (fun val i => block val ((padded.drop (i * 64)).take 64)) INIT_VECTOR
  return writeU32sBE val

end Husk.Sha2
