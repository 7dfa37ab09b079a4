import Verif.Model.Handshake
import Verif.Model.P256
/-! Model of src/cipher/ecdhe.rs and of the random source it is given.

`OsRng` is modelled by the script of bytes it will return. The script is finite; a call that would need more bytes than the script has is
`diverge`, so a theorem about a call that returns speaks of every script long enough for it. -/

namespace Husk

/-- `OsRng`: the bytes it is going to return. -/
structure Rng where
  bytes : Bytes
  deriving DecidableEq, Repr

namespace Rng

/-- `RngCore::fill_bytes` (of a buffer of `n` bytes). -/
def fillBytes (n : Nat) : St Rng Bytes := ⟨fun r =>
  if n ≤ r.bytes.length then (.ok (r.bytes.take n), { bytes := r.bytes.drop n }) else (.diverge, { bytes := [] })⟩

/-- `RngCore::next_u32` of `OsRng`: four bytes, little endian. -/
def nextU32 : St Rng UInt32 := do
  let b ← fillBytes 4
  return UInt32.ofNat (leNat b)

end Rng

/-- `EcData`, src/cipher/ecdhe.rs:16. -/
abbrev EcData := TlsVec UInt8 1 255

/-- `EcParameters`, src/cipher/ecdhe.rs:95-102. (`EcCurve`, 18-23, is never used.) -/
inductive EcParameters
  | named_curve (c : NamedCurve)
  deriving DecidableEq, Repr

/-- The `TlsItem` implementation generated by `tls_enum_struct!`, src/cipher/ecdhe.rs:55-91. -/
instance : TlsItem EcParameters where
  write
    | .named_curve body => do
      let b ← TlsItem.write body
      return Item.writeNum 1 3 ++ b
  read := do
    let num ← Item.readNum 1
    if num = 3 then do
      let body ← TlsItem.read
      return .named_curve body
    else St.err .DecodeError
  size
    | .named_curve body => 1 + TlsItem.size body

/-- `ServerEcdhParams`, src/cipher/ecdhe.rs:104-109 (`pub` is the field `public`). -/
structure ServerEcdhParams where
  curve_params : EcParameters
  pub : EcData
  deriving DecidableEq, Repr

instance : TlsItem ServerEcdhParams where
  write a := do
    let x ← TlsItem.write a.curve_params
    let y ← TlsItem.write a.pub
    return x ++ y
  read := do
    let curve_params ← TlsItem.read
    let pub ← TlsItem.read
    return { curve_params, pub }
  size a := TlsItem.size a.curve_params + TlsItem.size a.pub

/-- `EcdheServerKeyExchange`, src/cipher/ecdhe.rs:111-116. -/
structure EcdheServerKeyExchange where
  params : ServerEcdhParams
  signed_params : DigitallySigned
  deriving DecidableEq, Repr

instance : TlsItem EcdheServerKeyExchange where
  write a := do
    let x ← TlsItem.write a.params
    let y ← TlsItem.write a.signed_params
    return x ++ y
  read := do
    let params ← TlsItem.read
    let signed_params ← TlsItem.read
    return { params, signed_params }
  size a := TlsItem.size a.params + TlsItem.size a.signed_params

namespace Ecdhe

/-- The `for` loop of `get_random_x`, src/cipher/ecdhe.rs:138-140. -/
def drawLimbs : Nat → St Rng (List UInt32)
  | 0 => return []
  | k + 1 => do
    let w ← Rng.nextU32
    let ws ← drawLimbs k
    return w :: ws

/-- A candidate, src/cipher/ecdhe.rs:137-140. -/
def drawCandidate : St Rng Int256 := do
  let ws ← drawLimbs 8
  if h : ws.length = 8 then return { v := ws, len := h } else St.panic

/-- The `loop` of `get_random_x`, src/cipher/ecdhe.rs:136-146. Each round uses 32 bytes of the script, so as many rounds as the script has
bytes (plus one) suffice. -/
def randomLoop (m : Mode) : Nat → St Rng Int256
  | 0 => St.lift .diverge
  | fuel + 1 => do
    let x ← drawCandidate
    let xx ← St.lift (x.reduceOnce m 0)
    if xx.compare x = 0 then return x
    else randomLoop m fuel

/-- `get_random_x`, src/cipher/ecdhe.rs:135-147. -/
def getRandomX (m : Mode) : St Rng Int256 := ⟨fun r => (randomLoop m (r.bytes.length + 1)).run r⟩

/-- `compute_keys` after the secret scalar is drawn, src/cipher/ecdhe.rs:150-161. -/
def keysFrom (m : Mode) (gy : Point256) (x : Int256) : Res (Bytes × Bytes) := do
  let gxp ← Point256.G.multScalar m x
  let gxn ← gxp.normalize m
  let gx := gxn.toUncompressedBytes
  let gxy ← gy.multScalar m x
  let gxy ← gxy.normalize m
  let preMasterSecret := gxy.x.toBytes
  let pub : EcData ← TlsVec.new 1 255 gx
  let data ← TlsItem.write pub
  return (data, preMasterSecret)

/-- `EllipticDiffieHellman::compute_keys`, src/cipher/ecdhe.rs:121-162. -/
def computeKeys (m : Mode) (data : Bytes) : St Rng (Bytes × Bytes) := do
  let params ← St.lift ((TlsItem.read (α := EcdheServerKeyExchange)).run data).1
  let gy ← St.lift (NPoint256.fromUncompressedBytes m params.params.pub.items)
  match gy with
  | none => St.err .IllegalParameter
  | some gy => do
    let gy := gy.toPoint
    let x ← getRandomX m
    St.lift (keysFrom m gy x)

end Ecdhe

end Husk
