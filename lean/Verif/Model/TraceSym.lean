import Verif.Base.Trace
import Verif.Model.Util
import Verif.Model.AeadChaCha
import Verif.Model.Prf
/-! `crypto_compare`, ChaCha20, Poly1305, the AEAD, SHA-256, HMAC and the PRF with the observations of their execution (`Verif/Base/Trace`). Every function here has the
result of the function of the same name in the model (Proofs/TraceSym). The conversions of byteorder and `from_le_bytes` on slices with literal bounds are straight-line
code; copies and appends of buffers show their lengths. -/

namespace Husk

open Tr

namespace Util

/-- The loop of `crypto_compare`, src/util.rs:33-35, from position `i`. -/
def diffLoopT : Nat → Bytes → Bytes → UInt8 → Tr UInt8
  | _, [], _, diff => do
    see (.branch false)
    return diff
  | i, _ :: _, [], _ => do
    see (.branch true)
    see (.index i)
    see (.index i)
    Tr.lift .panic
  | i, x :: a, y :: b, diff => do
    see (.branch true)
    see (.index i)
    see (.index i)
    diffLoopT (i + 1) a b (diff ||| (x ^^^ y))

/-- `debug_assert_eq!` of two lengths: nothing in release builds. -/
def debugAssertT (m : Mode) (b : Bool) : Tr Unit :=
  match m with
  | .release => return ()
  | .debug => do
    if ← test b then return () else Tr.lift .panic

/-- `crypto_compare`, src/util.rs:29-41. The result is the value of `diff == 0`; nothing is decided here. -/
def cryptoCompareT (m : Mode) (a b : Bytes) : Tr Bool := do
  debugAssertT m (a.length == b.length)
  let diff ← diffLoopT 0 a b 0
  let diff := diff ||| (diff >>> 4)
  let diff := diff ||| (diff >>> 2)
  let diff := diff ||| (diff >>> 1)
  let diff := diff &&& 1
  return diff == 0

end Util

namespace ChaCha20

/-- `new`, src/crypto/chacha20.rs:11-30. -/
def newT (key nonce : Bytes) : Tr ChaCha20 := do
  if ← test (key.length == 32) then
    if ← test (nonce.length == 12) then
      see (.size key.length)
      see (.size nonce.length)
      Tr.lift (new key nonce)
    else Tr.lift .panic
  else Tr.lift .panic

/-- The loop of `round20`, src/crypto/chacha20.rs:60-72 (all positions are literals). -/
def roundsT : Nat → List UInt32 → Tr (List UInt32)
  | 0, v => do
    see (.branch false)
    return v
  | n + 1, v => do
    see (.branch true)
    roundsT n (doubleRound v)

/-- The second loop of `round20`, src/crypto/chacha20.rs:74-76. -/
def addWordsT : Nat → List UInt32 → List UInt32 → Tr (List UInt32)
  | i, a :: as, b :: bs => do
    see (.branch true)
    see (.index i)
    see (.index i)
    see (.index i)
    let r ← addWordsT (i + 1) as bs
    return (a + b) :: r
  | _, _, _ => do
    see (.branch false)
    return []

/-- `round20`, src/crypto/chacha20.rs:32-79. -/
def round20T (s : ChaCha20) : Tr (List UInt32) := do
  let v ← roundsT 10 s.vals
  addWordsT 0 v s.vals

/-- `next`, src/crypto/chacha20.rs:81-91. -/
def nextT (m : Mode) (s : ChaCha20) : Tr (Bytes × ChaCha20) := do
  let blk ← round20T s
  let ctr ← Tr.lift (addU32 m (s.vals.getD 12 0) 1)
  return (writeU32sLE blk, { vals := s.vals.set 12 ctr })

/-- The iterator of src/crypto/chacha20.rs:104-105: one round for every byte of the shorter side. -/
def xorBytesT : Bytes → Bytes → Tr Bytes
  | a :: as, b :: bs => do
    see (.branch true)
    let r ← xorBytesT as bs
    return (a ^^^ b) :: r
  | _, _ => do
    see (.branch false)
    return []

/-- The loop of `encrypt`, src/crypto/chacha20.rs:102-106. -/
def encryptChunksT (m : Mode) : List Bytes → ChaCha20 → Tr (Bytes × ChaCha20)
  | [], s => do
    see (.branch false)
    return ([], s)
  | c :: cs, s => do
    see (.branch true)
    let (blk, s) ← nextT m s
    let x ← xorBytesT blk c
    see (.size x.length)
    let (rest, s) ← encryptChunksT m cs s
    return (x ++ rest, s)

/-- `encrypt`, src/crypto/chacha20.rs:99-109. -/
def encryptT (m : Mode) (s : ChaCha20) (data : Bytes) : Tr (Bytes × ChaCha20) := do
  see (.size data.length)
  encryptChunksT m (chunks 64 data) s

end ChaCha20

namespace Poly1305

/-- `compute_block`, src/crypto/poly1305.rs:28-117: one conditional (line 29), then straight-line code with literal positions. -/
def computeBlockT (m : Mode) (st : State) (block : Bytes) (isPartial : Bool) : Tr State := do
  let _ ← test isPartial
  Tr.lift (computeBlock m st block isPartial)

/-- The body of the loop of `authenticate`, src/crypto/poly1305.rs:213-220. -/
def absorbT (m : Mode) (st : State) (block : Bytes) : Tr State := do
  if ← test (block.length == 16) then computeBlockT m st block false
  else
    see (.size block.length)
    see (.index block.length)
    computeBlockT m st (block ++ [1] ++ List.replicate (15 - block.length) 0) true

/-- The loop of `authenticate`, src/crypto/poly1305.rs:212-221. -/
def absorbAllT (m : Mode) : List Bytes → State → Tr State
  | [], st => do
    see (.branch false)
    return st
  | b :: bs, st => do
    see (.branch true)
    let st ← absorbT m st b
    absorbAllT m bs st

/-- `authenticate`, src/crypto/poly1305.rs:209-224; `new` (15-27) and `finalize` (120-206) are straight-line code with literal positions. -/
def authenticateT (m : Mode) (msg r s : Bytes) : Tr Bytes := do
  let st ← absorbAllT m (chunks 16 msg) (new r s)
  Tr.lift (finalize m st)

end Poly1305

namespace Aead

/-- The padding after a part, src/cipher/chacha20_poly1305.rs:26-29 and 31-34. -/
def paddingT (part : Bytes) : Tr Bytes := do
  let paddingLen := 16 - part.length % 16
  if ← test (paddingLen != 16) then
    see (.size paddingLen)
    return List.replicate paddingLen 0
  else return []

/-- The message of `compute_mac`, src/cipher/chacha20_poly1305.rs:22-36. -/
def macInputT (encrypted ad : Bytes) : Tr Bytes := do
  see (.size ad.length)
  let p ← paddingT ad
  see (.size encrypted.length)
  let q ← paddingT encrypted
  see (.size 8)
  see (.size 8)
  return ad ++ p ++ encrypted ++ q ++ leBytes 8 ad.length ++ leBytes 8 encrypted.length

/-- `compute_mac`, src/cipher/chacha20_poly1305.rs:21-44. -/
def computeMacT (m : Mode) (polyKey encrypted ad : Bytes) : Tr Bytes := do
  let msg ← macInputT encrypted ad
  see (.size 16)
  see (.size 16)
  Poly1305.authenticateT m msg (polyKey.take 16) ((polyKey.drop 16).take 16)

/-- `encrypt`, src/cipher/chacha20_poly1305.rs:51-60. -/
def encryptT (m : Mode) (key nonce data ad : Bytes) : Tr Bytes := do
  let c ← ChaCha20.newT key nonce
  let (polyKey, c) ← ChaCha20.nextT m c
  let (encrypted, _) ← ChaCha20.encryptT m c data
  let mac ← computeMacT m polyKey encrypted ad
  see (.size mac.length)
  return encrypted ++ mac

/-- The loop of `decrypt`, src/cipher/chacha20_poly1305.rs:86-89, from position `i`. -/
def macDiffT : Nat → Bytes → Bytes → UInt8 → Tr UInt8
  | i, x :: a, y :: b, diff => do
    see (.branch true)
    see (.index i)
    see (.index i)
    macDiffT (i + 1) a b (diff ||| (x ^^^ y))
  | _, _, _, diff => do
    see (.branch false)
    return diff

/-- `decrypt` up to the verdict, src/cipher/chacha20_poly1305.rs:74-89: the plain text and `diff`. -/
def openT (m : Mode) (key nonce data ad : Bytes) : Tr (Bytes × UInt8) := do
  let encrypted := data.take (data.length - MAC_LEN)
  let macExpected := data.drop (data.length - MAC_LEN)
  let c ← ChaCha20.newT key nonce
  let (polyKey, c) ← ChaCha20.nextT m c
  let macComputed ← computeMacT m polyKey encrypted ad
  let (plain, _) ← ChaCha20.encryptT m c encrypted
  let diff ← macDiffT 0 macComputed macExpected 0
  return (plain, diff)

/-- `decrypt`, src/cipher/chacha20_poly1305.rs:68-96. -/
def decryptT (m : Mode) (key nonce data ad : Bytes) : Tr Bytes := do
  if ← test (data.length < MAC_LEN) then Tr.lift (.err .BadRecordMac)
  else
    let (plain, diff) ← openT m key nonce data ad
    if ← test (diff != 0) then Tr.lift (.err .BadRecordMac) else return plain

end Aead

namespace Sha2

/-- The padding, src/crypto/sha2.rs:25-40. -/
def padT (m : Mode) (msg : Bytes) : Tr Bytes := do
  see (.size msg.length)
  see (.size 1)
  forEach (fun _ _ => see (.size 1)) (List.range (paddingLen msg.length)) ()
  forEach (fun _ _ => see (.size 1)) (List.range 8) ()
  let padded ← Tr.lift (pad m msg)
  if m = .debug then see (.branch true)
  return padded

/-- The schedule, src/crypto/sha2.rs:47-62. -/
def scheduleT (blk : Bytes) : Tr (List UInt32) :=
  forEach (fun j w => do
    see (.index (j - 15))
    see (.index (j - 2))
    see (.index (j - 7))
    see (.index (j - 16))
    see (.index j)
    return schedStep w j) (List.range' 16 48) (readU32sBE blk ++ List.replicate 48 0)

/-- One block, src/crypto/sha2.rs:46-103. -/
def blockT (val : List UInt32) (blk : Bytes) : Tr (List UInt32) := do
  see (.size blk.length)
  let w ← scheduleT blk
  let v (i : Nat) := val.getD i 0
  let s0 : Vars := ⟨v 0, v 1, v 2, v 3, v 4, v 5, v 6, v 7⟩
  let s ← forEach (fun j s => do
    see (.index j)
    see (.index j)
    return round w s j) (List.range 64) s0
  return [v 0 + s.a, v 1 + s.b, v 2 + s.c, v 3 + s.d, v 4 + s.e, v 5 + s.f, v 6 + s.g, v 7 + s.h]

/-- `sha256`, src/crypto/sha2.rs:24-108. -/
def sha256T (m : Mode) (msg : Bytes) : Tr Bytes := do
  let padded ← padT m msg
  let val ← forEach (fun i val => do
    see (.index (i * 64))
    blockT val ((padded.drop (i * 64)).take 64)) (List.range (padded.length / 64)) INIT_VECTOR
  return writeU32sBE val

end Sha2

namespace Prf

open Sha2

/-- The loop of `hmac_sha256`, src/cipher/prf.rs:18-21: the first `key.len()` bytes of both pads. -/
def xorPadsT : Nat → Bytes → Tr (Bytes × Bytes)
  | _, [] => do
    see (.branch false)
    return ([], [])
  | i, k :: key => do
    see (.branch true)
    see (.index i)
    see (.index i)
    see (.index i)
    see (.index i)
    let r ← xorPadsT (i + 1) key
    return ((0x36 ^^^ k) :: r.1, (0x5c ^^^ k) :: r.2)

/-- `hmac_sha256`, src/cipher/prf.rs:8-28. -/
def hmacSha256T (m : Mode) (key msg : Bytes) : Tr Bytes := do
  if ← test (key.length > 64) then Tr.lift .panic
  else
    see (.size 64)
    see (.size 64)
    let r ← xorPadsT 0 key
    see (.size msg.length)
    let hi ← sha256T m (r.1 ++ List.replicate (64 - key.length) 0x36 ++ msg)
    see (.size hi.length)
    sha256T m (r.2 ++ List.replicate (64 - key.length) 0x5c ++ hi)

/-- `new`, src/cipher/prf.rs:38-47. -/
def newT (m : Mode) (secret seed : Bytes) : Tr Prf := do
  let a1 ← hmacSha256T m secret seed
  return { secret, seed, a := a1, buf := [] }

/-- `next_block`, src/cipher/prf.rs:50-57. -/
def nextBlockT (m : Mode) (p : Prf) : Tr (Bytes × Prf) := do
  see (.size p.a.length)
  see (.size p.seed.length)
  let next ← hmacSha256T m p.secret (p.a ++ p.seed)
  let a' ← hmacSha256T m p.secret p.a
  return (next, { p with a := a' })

/-- The loop of `get_bytes`, src/cipher/prf.rs:76-86. -/
def getLoopT (m : Mode) (size : Nat) : Nat → Bytes → Prf → Tr (Bytes × Prf)
  | 0, ret, p => do
    if ← test (ret.length < size) then Tr.lift .diverge else return (ret, p)
  | fuel + 1, ret, p => do
    if ← test (ret.length < size) then
      let (blk, p) ← nextBlockT m p
      let sliceLen := size - ret.length
      if ← test (sliceLen > 32) then
        see (.size blk.length)
        getLoopT m size fuel (ret ++ blk) p
      else
        see (.size sliceLen)
        see (.size (blk.drop sliceLen).length)
        return (ret ++ blk.take sliceLen, { p with buf := blk.drop sliceLen })
    else return (ret, p)

/-- The bytes left from the last call, src/cipher/prf.rs:60-74. -/
def takeBufT (p : Prf) (size : Nat) : Tr (Bytes × Prf) := do
  if ← test (p.buf.length > 0) then
    if ← test (p.buf.length ≤ size) then return (p.buf, { p with buf := [] })
    else
      see (.size (p.buf.drop size).length)
      see (.size size)
      return (p.buf.take size, { p with buf := p.buf.drop size })
  else return ([], p)

/-- `get_bytes`, src/cipher/prf.rs:59-89. -/
def getBytesT (m : Mode) (p : Prf) (size : Nat) : Tr (Bytes × Prf) := do
  let (ret, p) ← takeBufT p size
  getLoopT m size size ret p

end Prf

end Husk
