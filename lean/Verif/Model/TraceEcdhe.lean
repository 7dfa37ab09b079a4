import Verif.Model.TraceP256
import Verif.Model.Ecdhe
/-! `compute_keys` of src/cipher/ecdhe.rs with the observations of its execution (`Verif/Base/Trace`). What it does with the message of the server alone is not secret and is
not recorded. -/

namespace Husk.Ecdhe

open Tr

/-- The part after the secret scalar is drawn, src/cipher/ecdhe.rs:150-161. The length check and the encoding of the public key (155-159) show the length. -/
def keysFromT (m : Mode) (gy : Point256) (x : Int256) : Tr (Bytes × Bytes) := do
  let gxp ← Point256.G.multScalarT m x
  let gxn ← gxp.normalizeT m
  let gx ← gxn.toUncompressedBytesT
  let gxy ← gy.multScalarT m x
  let gxy ← gxy.normalizeT m
  let preMasterSecret ← gxy.x.toBytesT
  see (.size gx.length)
  let pub : EcData ← Tr.lift (TlsVec.new 1 255 gx)
  let data ← Tr.lift (TlsItem.write pub)
  return (data, preMasterSecret)

/-- The result of a stateful computation together with the state it leaves. -/
def joint : Res α × σ → Res (α × σ)
  | (.ok a, s) => .ok (a, s)
  | (.err k, _) => .err k
  | (.panic, _) => .panic
  | (.diverge, _) => .diverge

/-- A candidate, src/cipher/ecdhe.rs:137-140. -/
def drawT (r : Rng) : Tr (Int256 × Rng) := do
  forEach (fun i _ => see (.index i)) (List.range 8) ()
  Tr.lift (joint (drawCandidate.run r))

/-- The `loop` of `get_random_x`, src/cipher/ecdhe.rs:136-146. -/
def randomLoopT (m : Mode) : Nat → Rng → Tr (Int256 × Rng)
  | 0, _ => Tr.lift .diverge
  | fuel + 1, r => do
    let (x, r) ← drawT r
    let xx ← x.reduceOnceT m 0
    let c ← xx.compareT x
    if ← test (c == 0) then return (x, r) else randomLoopT m fuel r

/-- `get_random_x`, src/cipher/ecdhe.rs:135-147. -/
def getRandomXT (m : Mode) (r : Rng) : Tr (Int256 × Rng) := randomLoopT m (r.bytes.length + 1) r

/-- `compute_keys`, src/cipher/ecdhe.rs:121-162. -/
def computeKeysT (m : Mode) (data : Bytes) (r : Rng) : Tr ((Bytes × Bytes) × Rng) := do
  let params ← Tr.lift ((TlsItem.read (α := EcdheServerKeyExchange)).run data).1
  let gy ← Tr.lift (NPoint256.fromUncompressedBytes m params.params.pub.items)
  match gy with
  | none => Tr.lift (.err .IllegalParameter)
  | some gy => do
    let (x, r) ← getRandomXT m r
    let k ← keysFromT m gy.toPoint x
    return (k, r)

end Husk.Ecdhe
