import Verif.Base.Trace
import Verif.Model.P256
/-! The functions of src/crypto/p256.rs with the observations of their execution (`Verif/Base/Trace`). Every function here has the result of the function of the same name in
`Verif/Model/P256` (Proofs/TraceP256). Loops are written out with their tests and the positions they access; the counter of a loop is the first argument. -/

namespace Husk

open Tr

namespace Int256

/-- The limbs as an array (`[W<u32>; LIMBS]`). -/
def ofLimbs (v : List UInt32) : Tr Int256 := if h : v.length = 8 then return ⟨v, h⟩ else Tr.lift .panic

/-- The loop of `compare`, src/crypto/p256.rs:328-330. -/
def diffLimbsT : Nat → List UInt32 → List UInt32 → UInt32 → Tr UInt32
  | i, a :: as, b :: bs, diff => do
    see (.branch true)
    see (.index i)
    see (.index i)
    diffLimbsT (i + 1) as bs (diff ||| (a ^^^ b))
  | _, _, _, diff => do
    see (.branch false)
    return diff

/-- `compare`, src/crypto/p256.rs:326-337. -/
def compareT (a b : Int256) : Tr UInt32 := do
  let diff ← diffLimbsT 0 a.v b.v 0
  return fold diff

/-- The loop of `choose`, src/crypto/p256.rs:343-345. -/
def chooseLimbsT (flag : UInt32) : Nat → List UInt32 → List UInt32 → Tr (List UInt32)
  | i, a :: as, b :: bs => do
    see (.branch true)
    see (.index i)
    see (.index i)
    see (.index i)
    let r ← chooseLimbsT flag (i + 1) as bs
    return (a ^^^ (flag * (a ^^^ b))) :: r
  | _, _, _ => do
    see (.branch false)
    return []

/-- `choose`, src/crypto/p256.rs:341-347. -/
def chooseT (flag : UInt32) (a b : Int256) : Tr Int256 := do
  let v ← chooseLimbsT flag 0 a.v b.v
  ofLimbs v

/-- The loop of `add_no_reduce`, src/crypto/p256.rs:358-363. -/
def addLimbsT : Nat → List UInt32 → List UInt32 → UInt64 → Tr (List UInt32 × UInt64)
  | i, a :: as, b :: bs, carry => do
    see (.branch true)
    see (.index i)
    see (.index i)
    let add := a.toUInt64 + b.toUInt64 + carry
    see (.index i)
    let r ← addLimbsT (i + 1) as bs (add >>> 32)
    return (add.toUInt32 :: r.1, r.2)
  | _, _, _, carry => do
    see (.branch false)
    return ([], carry)

/-- `add_no_reduce`, src/crypto/p256.rs:353-365. -/
def addNoReduceT (a b : Int256) : Tr (Int256 × UInt32) := do
  let r ← addLimbsT 0 a.v b.v 0
  let v ← ofLimbs r.1
  return (v, r.2.toUInt32)

/-- The loop of `sub_no_reduce`, src/crypto/p256.rs:378-384. -/
def subLimbsT : Nat → List UInt32 → List UInt32 → UInt64 → Tr (List UInt32 × UInt64)
  | i, a :: as, b :: bs, carrySub => do
    see (.branch true)
    see (.index i)
    see (.index i)
    let sub := a.toUInt64 - b.toUInt64 - carrySub
    see (.index i)
    let r ← subLimbsT (i + 1) as bs (sub >>> 63)
    return (sub.toUInt32 :: r.1, r.2)
  | _, _, _, carrySub => do
    see (.branch false)
    return ([], carrySub)

/-- `sub_no_reduce`, src/crypto/p256.rs:371-387. -/
def subNoReduceT (a b : Int256) : Tr (Int256 × UInt32) := do
  let r ← subLimbsT 0 a.v b.v 0
  let v ← ofLimbs r.1
  return (v, r.2.toUInt32)

/-- `debug_assert!(!(a == 0 && b == 1))`, src/crypto/p256.rs:394 and 417: nothing in release builds. In debug builds `&&` looks at `b` only if `a` is zero. -/
def assertNot (m : Mode) (a b : UInt32) : Tr Unit :=
  match m with
  | .release => return ()
  | .debug => do
    if ← test (a == 0) then
      if ← test (b == 1) then Tr.lift .panic else return ()
    else return ()

/-- `reduce_once`, src/crypto/p256.rs:392-397. -/
def reduceOnceT (m : Mode) (a : Int256) (carry : UInt32) : Tr Int256 := do
  let (v, carrySub) ← a.subNoReduceT P256
  assertNot m carrySub carry
  let chooseNew := carry ^^^ carrySub
  chooseT chooseNew v a

/-- `reduce_once_zero`, src/crypto/p256.rs:399-401. -/
def reduceOnceZeroT (m : Mode) (a : Int256) : Tr Int256 := a.reduceOnceT m 0

/-- `add`, src/crypto/p256.rs:403-406. -/
def addT (m : Mode) (a b : Int256) : Tr Int256 := do
  let (v, carry) ← a.addNoReduceT b
  v.reduceOnceT m carry

/-- `double`, src/crypto/p256.rs:408-411. -/
def doubleT (m : Mode) (a : Int256) : Tr Int256 := a.addT m a

/-- `sub`, src/crypto/p256.rs:413-419. -/
def subT (m : Mode) (a b : Int256) : Tr Int256 := do
  let (v, carrySub) ← a.subNoReduceT b
  let (v2, carryAdd) ← v.addNoReduceT P256
  assertNot m carryAdd carrySub
  chooseT carrySub v v2

/-- The inner loop of `mult`, src/crypto/p256.rs:424-434, at row `i`, from column `j`. -/
def mulRowT (i : Nat) (a : UInt32) : Nat → List UInt32 → List UInt64 → Tr (List UInt64)
  | _, [], w => do
    see (.branch false)
    return w
  | j, b :: bs, w => do
    see (.branch true)
    see (.index i)
    see (.index j)
    see (.index (i + j))
    see (.index (i + j))
    see (.index (i + j + 1))
    mulRowT i a (j + 1) bs (mulStep a b (i + j) w)

/-- The outer loop of `mult`, src/crypto/p256.rs:423-435. -/
def mulRowsT (b : List UInt32) : Nat → List UInt32 → List UInt64 → Tr (List UInt64)
  | _, [], w => do
    see (.branch false)
    return w
  | i, a :: as, w => do
    see (.branch true)
    let w ← mulRowT i a 0 b w
    mulRowsT b (i + 1) as w

/-- The carry loop of `mult`, src/crypto/p256.rs:439-443. -/
def carryLimbsT : Nat → List UInt64 → UInt64 → Tr (List UInt32 × UInt64)
  | _, [], carry => do
    see (.branch false)
    return ([], carry)
  | i, w :: ws, carry => do
    see (.branch true)
    see (.index i)
    let a := w + carry
    see (.index i)
    let r ← carryLimbsT (i + 1) ws (a >>> 32)
    return (a.toUInt32 :: r.1, r.2)

/-- The loop in the reduction of `mult`, src/crypto/p256.rs:486-489: its accesses only (the values are those of lines 484-485, see `parts`). -/
def copyLoop : Tr Unit :=
  forEach (fun (i : Nat) _ => do
    see (.index (i + 13))
    see (.index i)
    see (.index (i + 8))
    see (.index (i + 3))) [0, 1, 2] ()

/-- The reduction of `mult`, src/crypto/p256.rs:446-501. The positions are literals except in the loop of lines 486-489
(`copyLoop`), which writes once more what lines 484-485 have written. -/
def reduceWideT (m : Mode) (v : Nat → UInt32) : Tr Int256 := do
  let part (k : Nat) : Tr Int256 := ((parts v).getD k ZERO).reduceOnceZeroT m
  let t ← part 0
  let s1 ← part 1
  let s2 ← part 2
  let s3 ← part 3
  let s4 ← part 4
  let d1 ← part 5
  let d2 ← part 6
  copyLoop
  let d3 ← part 7
  let d4 ← part 8
  let s1d ← s1.doubleT m
  let r ← t.addT m s1d
  let s2d ← s2.doubleT m
  let r ← r.addT m s2d
  let r ← r.addT m s3
  let r ← r.addT m s4
  let d ← d1.addT m d2
  let d ← d.addT m d3
  let d ← d.addT m d4
  r.subT m d

/-- `debug_assert_eq!(carry.0, 0)`, src/crypto/p256.rs:444. -/
def assertZero (m : Mode) (carry : UInt64) : Tr Unit :=
  match m with
  | .release => return ()
  | .debug => do
    if ← test (carry == 0) then return () else Tr.lift .panic

/-- `mult`, src/crypto/p256.rs:421-502. -/
def multT (m : Mode) (a b : Int256) : Tr Int256 := do
  let w ← mulRowsT b.v 0 a.v (List.replicate 16 0)
  let r ← carryLimbsT 0 w 0
  assertZero m r.2
  reduceWideT m (fun i => r.1.getD i 0)

/-- `square`, src/crypto/p256.rs:504-507. -/
def squareT (m : Mode) (a : Int256) : Tr Int256 := a.multT m a

/-- `square_n`, src/crypto/p256.rs:517-523. -/
def squareNT (m : Mode) : Nat → Int256 → Tr Int256
  | 0, a => do
    see (.branch false)
    return a
  | n + 1, a => do
    see (.branch true)
    let y ← a.squareT m
    squareNT m n y

/-- `z_n`, src/crypto/p256.rs:527-530. -/
def zNT (m : Mode) (z : Int256) (n : Nat) : Tr Int256 := do
  let y ← squareNT m n z
  y.multT m z

/-- `z_1`, src/crypto/p256.rs:533-535. -/
def z1T (m : Mode) (z a : Int256) : Tr Int256 := do
  let y ← z.squareT m
  y.multT m a

/-- `inverse`, src/crypto/p256.rs:510-567. -/
def inverseT (m : Mode) (a : Int256) : Tr Int256 := do
  let z2 ← zNT m a 1
  let z4 ← zNT m z2 2
  let z8 ← zNT m z4 4
  let z16 ← zNT m z8 8
  let z32 ← zNT m z16 16
  let z5 ← z1T m z4 a
  let z10 ← zNT m z5 5
  let z11 ← z1T m z10 a
  let z22 ← zNT m z11 11
  let z23 ← z1T m z22 a
  let z46 ← zNT m z23 23
  let z47 ← z1T m z46 a
  let z94 ← zNT m z47 47
  let z95 ← z1T m z94 a
  let y96 ← z95.squareT m
  let z96 ← y96.multT m a
  let z192 ← zNT m z96 96
  let y256 ← squareNT m 224 z32
  let r ← y256.multT m z192
  r.multT m y96

/-- The shifts of `divide_by_2`, src/crypto/p256.rs:573-576 and 580-583. -/
def halveT : Nat → List UInt32 → UInt32 → Tr (List UInt32)
  | _, [], _ => return []
  | _, [a], top => do
    see (.branch false)
    return [(a >>> 1) ||| top]
  | i, a :: b :: l, top => do
    see (.branch true)
    see (.index i)
    see (.index (i + 1))
    see (.index i)
    let r ← halveT (i + 1) (b :: l) top
    return ((a >>> 1) ||| ((b &&& 1) <<< 31)) :: r

/-- `divide_by_2`, src/crypto/p256.rs:569-587. -/
def divideBy2T (a : Int256) : Tr Int256 := do
  let isOdd := a.v.getD 0 0 &&& 1
  let v ← halveT 0 a.v 0
  let halfEven ← ofLimbs v
  let (selfP, carry) ← a.addNoReduceT P256
  let v ← halveT 0 selfP.v (carry <<< 31)
  let halfOdd ← ofLimbs v
  chooseT isOdd halfEven halfOdd

/-- The loops of `to_bytes`, src/crypto/p256.rs:592-597, over the limbs from the highest. -/
def limbsBytesT : Nat → List UInt32 → Tr Bytes
  | _, [] => do
    see (.branch false)
    return []
  | i, vi :: l => do
    see (.branch true)
    see (.index (8 - 1 - i))
    let b ← forEach (fun j (b : Bytes) => do
      see (.index (i * 4 + j))
      return b ++ [(limbBytes vi).getD j 0]) [0, 1, 2, 3] []
    let r ← limbsBytesT (i + 1) l
    return b ++ r

/-- `to_bytes`, src/crypto/p256.rs:590-600. -/
def toBytesT (a : Int256) : Tr Bytes := do
  let b ← limbsBytesT 0 a.v.reverse
  see (.size b.length)
  return b

end Int256

namespace Point256

/-- `normalize`, src/crypto/p256.rs:77-84. -/
def normalizeT (m : Mode) (p : Point256) : Tr NPoint256 := do
  let z2 ← p.z.squareT m
  let z3 ← p.z.multT m z2
  let i2 ← z2.inverseT m
  let x ← p.x.multT m i2
  let i3 ← z3.inverseT m
  let y ← p.y.multT m i3
  return { x, y }

/-- `choose`, src/crypto/p256.rs:86-92. -/
def chooseT (flag : UInt32) (a b : Point256) : Tr Point256 := do
  let x ← Int256.chooseT flag a.x b.x
  let y ← Int256.chooseT flag a.y b.y
  let z ← Int256.chooseT flag a.z b.z
  return { x, y, z }

/-- `double`, src/crypto/p256.rs:96-142. -/
def doubleT (m : Mode) (p : Point256) : Tr Point256 := do
  let z2 ← p.z.squareT m
  let y2 ← p.y.squareT m
  let xSubZ2 ← p.x.subT m z2
  let xAddZ2 ← p.x.addT m z2
  let mult ← xAddZ2.multT m xSubZ2
  let mult2 ← mult.addT m mult
  let a ← mult2.addT m mult
  let b ← p.x.multT m y2
  let b2 ← b.addT m b
  let b4 ← b2.addT m b2
  let b8 ← b4.addT m b4
  let a2 ← a.squareT m
  let xNew ← a2.subT m b8
  let y4 ← y2.squareT m
  let y42 ← y4.addT m y4
  let y44 ← y42.addT m y42
  let y48 ← y44.addT m y44
  let b4x ← b4.subT m xNew
  let ab ← a.multT m b4x
  let yNew ← ab.subT m y48
  let yz ← p.y.addT m p.z
  let yz2 ← yz.squareT m
  let zy ← z2.addT m y2
  let zNew ← yz2.subT m zy
  let ret : Point256 := { x := xNew, y := yNew, z := zNew }
  let selfNotInfty ← p.z.compareT .ZERO
  chooseT selfNotInfty INFTY ret

/-- `add`, src/crypto/p256.rs:144-206. -/
def addT (m : Mode) (a b : Point256) : Tr Point256 := do
  let selfIsZero ← a.z.compareT .ZERO
  let bIsZero ← b.z.compareT .ZERO
  let z2 ← a.z.squareT m
  let z3 ← a.z.multT m z2
  let bz2 ← b.z.squareT m
  let bz3 ← b.z.multT m bz2
  let x ← a.x.multT m bz2
  let y ← a.y.multT m bz3
  let bx ← b.x.multT m z2
  let byy ← b.y.multT m z3
  let xdiff ← x.subT m bx
  let xdiff2 ← xdiff.squareT m
  let xdiff3 ← xdiff.multT m xdiff2
  let ydiff ← y.subT m byy
  let ydiff2 ← ydiff.squareT m
  let xsum ← x.addT m bx
  let ysum ← y.addT m byy
  let e ← xsum.multT m xdiff2
  let xNew ← ydiff2.subT m e
  let xNew2 ← xNew.addT m xNew
  let t4 ← ysum.multT m xdiff3
  let e2 ← e.subT m xNew2
  let t5 ← ydiff.multT m e2
  let t6 ← t5.subT m t4
  let yNew ← t6.divideBy2T
  let zz ← a.z.multT m b.z
  let zNew ← zz.multT m xdiff
  let xdiffNonzero ← xdiff.compareT .ZERO
  let ydiffNonzero ← ydiff.compareT .ZERO
  let ret : Point256 := { x := xNew, y := yNew, z := zNew }
  let dbl ← a.doubleT m
  let ret ← chooseT (xdiffNonzero ||| ydiffNonzero) dbl ret
  let ret ← chooseT (xdiffNonzero ||| (1 - ydiffNonzero)) INFTY ret
  let ret ← chooseT selfIsZero b ret
  chooseT bIsZero a ret

/-- The inner loop of `mult_scalar`, src/crypto/p256.rs:211-218, for the limb with position `i`. -/
def ladderRowT (m : Mode) (p : Point256) (n : Int256) (i : Nat) : List UInt32 → Point256 → Tr Point256
  | [], ret => do
    see (.branch false)
    return ret
  | j :: js, ret => do
    see (.branch true)
    see (.index i)
    let bit := (n.v.getD i 0 >>> j) &&& 1
    let ret2 ← ret.doubleT m
    let ret3 ← ret2.addT m p
    let ret ← chooseT bit ret2 ret3
    ladderRowT m p n i js ret

/-- The outer loop of `mult_scalar`, src/crypto/p256.rs:210-219. -/
def ladderRowsT (m : Mode) (p : Point256) (n : Int256) : List Nat → Point256 → Tr Point256
  | [], ret => do
    see (.branch false)
    return ret
  | i :: is, ret => do
    see (.branch true)
    let ret ← ladderRowT m p n i [7, 6, 5, 4, 3, 2, 1, 0] ret
    ladderRowsT m p n is ret

/-- `mult_scalar`, src/crypto/p256.rs:208-222. -/
def multScalarT (m : Mode) (p : Point256) (n : Int256) : Tr Point256 := ladderRowsT m p n [6, 5, 4, 3, 2, 1, 0] INFTY

end Point256

/-- `to_uncompressed_bytes`, src/crypto/p256.rs:276-283. -/
def NPoint256.toUncompressedBytesT (p : NPoint256) : Tr Bytes := do
  let x ← p.x.toBytesT
  see (.size x.length)
  let y ← p.y.toBytesT
  see (.size y.length)
  return 4 :: (x ++ y)

end Husk
