import Verif.Base.Res
import Verif.Base.Bytes
/-! Model of src/crypto/p256.rs. `W<u32>`/`W<u64>` are `std::num::Wrapping`, so the arithmetic wraps in both build modes; `to_w32` truncates and
`to_w64` extends (src/crypto/wrapping.rs:15-53). -/

namespace Husk

/-- `Int256`, src/crypto/p256.rs:295-297 (the array of `LIMBS = 8` limbs, src/crypto/p256.rs:290). -/
structure Int256 where
  v : List UInt32
  len : v.length = 8
  deriving DecidableEq, Repr

namespace Int256

/-- `P256`, src/crypto/p256.rs:300-311. -/
def P256 : Int256 := ⟨[0xffffffff, 0xffffffff, 0xffffffff, 0, 0, 0, 1, 0xffffffff], rfl⟩
/-- `ZERO`, src/crypto/p256.rs:312. -/
def ZERO : Int256 := ⟨[0, 0, 0, 0, 0, 0, 0, 0], rfl⟩
/-- `ONE`, src/crypto/p256.rs:313-315. -/
def ONE : Int256 := ⟨[1, 0, 0, 0, 0, 0, 0, 0], rfl⟩

/-- The bits of a word folded into the lowest one, src/crypto/p256.rs:331-336. -/
def fold (diff : UInt32) : UInt32 :=
  let diff := diff ||| (diff >>> 16)
  let diff := diff ||| (diff >>> 8)
  let diff := diff ||| (diff >>> 4)
  let diff := diff ||| (diff >>> 2)
  let diff := diff ||| (diff >>> 1)
  diff &&& 1

/-- The loop of `compare`, src/crypto/p256.rs:327-330. -/
def diffLimbs : List UInt32 → List UInt32 → UInt32 → UInt32
  | a :: as, b :: bs, diff => diffLimbs as bs (diff ||| (a ^^^ b))
  | _, _, diff => diff

/-- `compare`, src/crypto/p256.rs:326-337. -/
def compare (a b : Int256) : UInt32 := fold (diffLimbs a.v b.v 0)

/-- `choose`, src/crypto/p256.rs:341-347. -/
def choose (flag : UInt32) (a b : Int256) : Int256 :=
  ⟨List.zipWith (fun x y => x ^^^ (flag * (x ^^^ y))) a.v b.v, by simp [a.len, b.len]⟩

/-- The loop of `add_no_reduce`, src/crypto/p256.rs:357-363. -/
def addLimbs : List UInt32 → List UInt32 → UInt64 → List UInt32 × UInt64
  | a :: as, b :: bs, carry =>
    let add := a.toUInt64 + b.toUInt64 + carry
    let r := addLimbs as bs (add >>> 32)
    (add.toUInt32 :: r.1, r.2)
  | _, _, carry => ([], carry)

theorem addLimbs_length (a b : List UInt32) (c : UInt64) (h : a.length = b.length) : (addLimbs a b c).1.length = a.length := by
  induction a generalizing b c with
  | nil => rfl
  | cons x a ih =>
    cases b with
    | nil => simp at h
    | cons y b => simp only [addLimbs, List.length_cons]; rw [ih]; simpa using h

/-- `add_no_reduce`, src/crypto/p256.rs:353-365. -/
def addNoReduce (a b : Int256) : Int256 × UInt32 :=
  (⟨(addLimbs a.v b.v 0).1, by rw [addLimbs_length _ _ _ (a.len.trans b.len.symm), a.len]⟩, (addLimbs a.v b.v 0).2.toUInt32)

/-- The loop of `sub_no_reduce`, src/crypto/p256.rs:377-384. -/
def subLimbs : List UInt32 → List UInt32 → UInt64 → List UInt32 × UInt64
  | a :: as, b :: bs, carrySub =>
    let sub := a.toUInt64 - b.toUInt64 - carrySub
    let r := subLimbs as bs (sub >>> 63)
    (sub.toUInt32 :: r.1, r.2)
  | _, _, carrySub => ([], carrySub)

theorem subLimbs_length (a b : List UInt32) (c : UInt64) (h : a.length = b.length) : (subLimbs a b c).1.length = a.length := by
  induction a generalizing b c with
  | nil => rfl
  | cons x a ih =>
    cases b with
    | nil => simp at h
    | cons y b => simp only [subLimbs, List.length_cons]; rw [ih]; simpa using h

/-- `sub_no_reduce`, src/crypto/p256.rs:371-387. -/
def subNoReduce (a b : Int256) : Int256 × UInt32 :=
  (⟨(subLimbs a.v b.v 0).1, by rw [subLimbs_length _ _ _ (a.len.trans b.len.symm), a.len]⟩, (subLimbs a.v b.v 0).2.toUInt32)

/-- `reduce_once`, src/crypto/p256.rs:392-397. -/
def reduceOnce (m : Mode) (a : Int256) (carry : UInt32) : Res Int256 := do
  let (v, carrySub) := a.subNoReduce P256
  debugAssert m !(carrySub == 0 && carry == 1)
  let chooseNew := carry ^^^ carrySub
  return choose chooseNew v a

/-- `reduce_once_zero`, src/crypto/p256.rs:399-401. -/
def reduceOnceZero (m : Mode) (a : Int256) : Res Int256 := a.reduceOnce m 0

/-- `add`, src/crypto/p256.rs:403-406. -/
def add (m : Mode) (a b : Int256) : Res Int256 :=
  let (v, carry) := a.addNoReduce b
  v.reduceOnce m carry

/-- `double`, src/crypto/p256.rs:408-411. -/
def double (m : Mode) (a : Int256) : Res Int256 := a.add m a

/-- `sub`, src/crypto/p256.rs:413-419. -/
def sub (m : Mode) (a b : Int256) : Res Int256 := do
  let (v, carrySub) := a.subNoReduce b
  let (v2, carryAdd) := v.addNoReduce P256
  debugAssert m !(carryAdd == 0 && carrySub == 1)
  return choose carrySub v v2

/-- The body of the double loop of `mult`, src/crypto/p256.rs:425-433. -/
def mulStep (a b : UInt32) (k : Nat) (w : List UInt64) : List UInt64 :=
  let vij := a.toUInt64 * b.toUInt64
  let low := vij.toUInt32.toUInt64
  let high := vij >>> 32
  let wij := w.getD k 0 + low
  let wlow := wij.toUInt32.toUInt64
  let whigh := high + (wij >>> 32)
  let w := w.set k wlow
  w.set (k + 1) (w.getD (k + 1) 0 + whigh)

/-- The inner loop (over `j`, limbs of `b`), src/crypto/p256.rs:424-434. -/
def mulRow (a : UInt32) : List UInt32 → Nat → List UInt64 → List UInt64
  | [], _, w => w
  | b :: bs, k, w => mulRow a bs (k + 1) (mulStep a b k w)

/-- The outer loop (over `i`, limbs of `self`), src/crypto/p256.rs:423-435. -/
def mulRows (b : List UInt32) : List UInt32 → Nat → List UInt64 → List UInt64
  | [], _, w => w
  | a :: as, i, w => mulRows b as (i + 1) (mulRow a b i w)

/-- The carry loop of `mult`, src/crypto/p256.rs:437-443. -/
def carryLimbs : List UInt64 → UInt64 → List UInt32 × UInt64
  | [], carry => ([], carry)
  | w :: ws, carry =>
    let a := w + carry
    let r := carryLimbs ws (a >>> 32)
    (a.toUInt32 :: r.1, r.2)

/-- The nine summands `t, s1, …, d4` of `mult`, src/crypto/p256.rs:446-498, as functions of the limbs `v[0..16]`. -/
def parts (v : Nat → UInt32) : List Int256 :=
  [ ⟨[v 0, v 1, v 2, v 3, v 4, v 5, v 6, v 7], rfl⟩,
    ⟨[0, 0, 0, v 11, v 12, v 13, v 14, v 15], rfl⟩,
    ⟨[0, 0, 0, v 12, v 13, v 14, v 15, 0], rfl⟩,
    ⟨[v 8, v 9, v 10, 0, 0, 0, v 14, v 15], rfl⟩,
    ⟨[v 9, v 10, v 11, v 13, v 14, v 15, v 13, v 8], rfl⟩,
    ⟨[v 11, v 12, v 13, 0, 0, 0, v 8, v 10], rfl⟩,
    ⟨[v 12, v 13, v 14, v 15, 0, 0, v 9, v 11], rfl⟩,
    ⟨[v 13, v 14, v 15, v 8, v 9, v 10, 0, v 12], rfl⟩,
    ⟨[v 14, v 15, 0, v 9, v 10, v 11, 0, v 13], rfl⟩ ]

/-- The reduction of `mult`, src/crypto/p256.rs:446-501. -/
def reduceWide (m : Mode) (v : Nat → UInt32) : Res Int256 := do
  let part (k : Nat) : Res Int256 := ((parts v).getD k ZERO).reduceOnceZero m
  let t ← part 0
  let s1 ← part 1
  let s2 ← part 2
  let s3 ← part 3
  let s4 ← part 4
  let d1 ← part 5
  let d2 ← part 6
  let d3 ← part 7
  let d4 ← part 8
  let s1d ← s1.double m
  let r ← t.add m s1d
  let s2d ← s2.double m
  let r ← r.add m s2d
  let r ← r.add m s3
  let r ← r.add m s4
  let d ← d1.add m d2
  let d ← d.add m d3
  let d ← d.add m d4
  r.sub m d

/-- `mult`, src/crypto/p256.rs:421-502. -/
def mult (m : Mode) (a b : Int256) : Res Int256 := do
  let w := mulRows b.v a.v 0 (List.replicate 16 0)
  let r := carryLimbs w 0
  debugAssert m (r.2 == 0)
  reduceWide m (fun i => r.1.getD i 0)

/-- `square`, src/crypto/p256.rs:504-507. -/
def square (m : Mode) (a : Int256) : Res Int256 := a.mult m a

/-- `square_n`, src/crypto/p256.rs:517-523. -/
def squareN (m : Mode) : Nat → Int256 → Res Int256
  | 0, a => return a
  | n + 1, a => do
    let y ← a.square m
    squareN m n y

/-- `z_n`, src/crypto/p256.rs:527-530. -/
def zN (m : Mode) (z : Int256) (n : Nat) : Res Int256 := do
  let y ← squareN m n z
  y.mult m z

/-- `z_1`, src/crypto/p256.rs:533-535. -/
def z1 (m : Mode) (z a : Int256) : Res Int256 := do
  let y ← z.square m
  y.mult m a

/-- `inverse`, src/crypto/p256.rs:510-567. -/
def inverse (m : Mode) (a : Int256) : Res Int256 := do
  let z2 ← zN m a 1
  let z4 ← zN m z2 2
  let z8 ← zN m z4 4
  let z16 ← zN m z8 8
  let z32 ← zN m z16 16
  let z5 ← z1 m z4 a
  let z10 ← zN m z5 5
  let z11 ← z1 m z10 a
  let z22 ← zN m z11 11
  let z23 ← z1 m z22 a
  let z46 ← zN m z23 23
  let z47 ← z1 m z46 a
  let z94 ← zN m z47 47
  let z95 ← z1 m z94 a
  let y96 ← z95.square m
  let z96 ← y96.mult m a
  let z192 ← zN m z96 96
  let y256 ← squareN m 224 z32
  let r ← y256.mult m z192
  r.mult m y96

/-- The shifts of `divide_by_2`, src/crypto/p256.rs:573-576 and 580-583: one bit to the right, `top` comes in from the left (for `half_even` it
is 0, the code has no `|` there). -/
def halve : List UInt32 → UInt32 → List UInt32
  | [], _ => []
  | [a], top => [(a >>> 1) ||| top]
  | a :: b :: l, top => ((a >>> 1) ||| ((b &&& 1) <<< 31)) :: halve (b :: l) top

theorem halve_length (l : List UInt32) (t : UInt32) : (halve l t).length = l.length := by
  induction l with
  | nil => rfl
  | cons a l ih =>
    cases l with
    | nil => rfl
    | cons b l => simp only [halve, List.length_cons] at ih ⊢; rw [ih]

/-- `divide_by_2`, src/crypto/p256.rs:569-587. -/
def divideBy2 (a : Int256) : Int256 :=
  let isOdd := a.v.getD 0 0 &&& 1
  let halfEven : Int256 := ⟨halve a.v 0, by rw [halve_length, a.len]⟩
  let selfP := (a.addNoReduce P256).1
  let carry := (a.addNoReduce P256).2
  let halfOdd : Int256 := ⟨halve selfP.v (carry <<< 31), by rw [halve_length, selfP.len]⟩
  choose isOdd halfEven halfOdd

/-- The bytes of one limb, src/crypto/p256.rs:594-596. -/
def limbBytes (vi : UInt32) : Bytes := [(vi >>> 24).toUInt8, (vi >>> 16).toUInt8, (vi >>> 8).toUInt8, vi.toUInt8]

/-- `to_bytes`, src/crypto/p256.rs:590-600 (`vi >> 0` is `vi`). -/
def toBytes (a : Int256) : Bytes := a.v.reverse.flatMap limbBytes

/-- One limb from four bytes, src/crypto/p256.rs:610-613. -/
def limbOf (a b c d : UInt8) : UInt32 :=
  ((((0 : UInt32) ||| (a.toUInt32 <<< 24)) ||| (b.toUInt32 <<< 16)) ||| (c.toUInt32 <<< 8)) ||| d.toUInt32

/-- The limbs in the order of the bytes (most significant first), src/crypto/p256.rs:609-615. -/
def limbsOf : Bytes → List UInt32
  | a :: b :: c :: d :: l => limbOf a b c d :: limbsOf l
  | _ => []

/-- `from_bytes`, src/crypto/p256.rs:603-618. -/
def fromBytes (b : Bytes) : Option Int256 :=
  if h : b.length = 32 then
    some ⟨(limbsOf b).reverse, by
      match b, h with
      | [_, _, _, _, _, _, _, _, _, _, _, _, _, _, _, _, _, _, _, _, _, _, _, _, _, _, _, _, _, _, _, _], _ => rfl⟩
  else none

end Int256

/-- `Point256`, src/crypto/p256.rs:13-17. -/
structure Point256 where
  x : Int256
  y : Int256
  z : Int256
  deriving DecidableEq, Repr

/-- `NPoint256`, src/crypto/p256.rs:226-229. -/
structure NPoint256 where
  x : Int256
  y : Int256
  deriving DecidableEq, Repr

namespace Point256

/-- `G`, src/crypto/p256.rs:19-45. -/
def G : Point256 := {
  x := ⟨[0xd898c296, 0xf4a13945, 0x2deb33a0, 0x77037d81, 0x63a440f2, 0xf8bce6e5, 0xe12c4247, 0x6b17d1f2], rfl⟩
  y := ⟨[0x37bf51f5, 0xcbb64068, 0x6b315ece, 0x2bce3357, 0x7c0f9e16, 0x8ee7eb4a, 0xfe1a7f9b, 0x4fe342e2], rfl⟩
  z := Int256.ONE }

/-- `B`, src/crypto/p256.rs:47-58. -/
def B : Int256 := ⟨[0x27d2604b, 0x3bce3c3e, 0xcc53b0f6, 0x651d06b0, 0x769886bc, 0xb3ebbd55, 0xaa3a93e7, 0x5ac635d8], rfl⟩

/-- `INFTY`, src/crypto/p256.rs:60-64. -/
def INFTY : Point256 := { x := .ONE, y := .ONE, z := .ZERO }

/-- `normalize`, src/crypto/p256.rs:77-84. -/
def normalize (m : Mode) (p : Point256) : Res NPoint256 := do
  let z2 ← p.z.square m
  let z3 ← p.z.mult m z2
  let i2 ← z2.inverse m
  let x ← p.x.mult m i2
  let i3 ← z3.inverse m
  let y ← p.y.mult m i3
  return { x, y }

/-- `choose`, src/crypto/p256.rs:86-92. -/
def choose (flag : UInt32) (a b : Point256) : Point256 :=
  { x := .choose flag a.x b.x, y := .choose flag a.y b.y, z := .choose flag a.z b.z }

/-- `double`, src/crypto/p256.rs:96-142. -/
def double (m : Mode) (p : Point256) : Res Point256 := do
  let z2 ← p.z.square m
  let y2 ← p.y.square m
  let xSubZ2 ← p.x.sub m z2
  let xAddZ2 ← p.x.add m z2
  let mult ← xAddZ2.mult m xSubZ2
  let mult2 ← mult.add m mult
  let a ← mult2.add m mult
  let b ← p.x.mult m y2
  let b2 ← b.add m b
  let b4 ← b2.add m b2
  let b8 ← b4.add m b4
  let a2 ← a.square m
  let xNew ← a2.sub m b8
  let y4 ← y2.square m
  let y42 ← y4.add m y4
  let y44 ← y42.add m y42
  let y48 ← y44.add m y44
  let b4x ← b4.sub m xNew
  let ab ← a.mult m b4x
  let yNew ← ab.sub m y48
  let yz ← p.y.add m p.z
  let yz2 ← yz.square m
  let zy ← z2.add m y2
  let zNew ← yz2.sub m zy
  let ret : Point256 := { x := xNew, y := yNew, z := zNew }
  let selfNotInfty := p.z.compare .ZERO
  return choose selfNotInfty INFTY ret

/-- `add`, src/crypto/p256.rs:144-206. -/
def add (m : Mode) (a b : Point256) : Res Point256 := do
  let selfIsZero := a.z.compare .ZERO
  let bIsZero := b.z.compare .ZERO
  let z2 ← a.z.square m
  let z3 ← a.z.mult m z2
  let bz2 ← b.z.square m
  let bz3 ← b.z.mult m bz2
  let x ← a.x.mult m bz2
  let y ← a.y.mult m bz3
  let bx ← b.x.mult m z2
  let byy ← b.y.mult m z3
  let xdiff ← x.sub m bx
  let xdiff2 ← xdiff.square m
  let xdiff3 ← xdiff.mult m xdiff2
  let ydiff ← y.sub m byy
  let ydiff2 ← ydiff.square m
  let xsum ← x.add m bx
  let ysum ← y.add m byy
  let e ← xsum.mult m xdiff2
  let xNew ← ydiff2.sub m e
  let xNew2 ← xNew.add m xNew
  let t4 ← ysum.mult m xdiff3
  let e2 ← e.sub m xNew2
  let t5 ← ydiff.mult m e2
  let t6 ← t5.sub m t4
  let yNew := t6.divideBy2
  let zz ← a.z.mult m b.z
  let zNew ← zz.mult m xdiff
  let xdiffNonzero := xdiff.compare .ZERO
  let ydiffNonzero := ydiff.compare .ZERO
  let ret : Point256 := { x := xNew, y := yNew, z := zNew }
  let dbl ← a.double m
  let ret := choose (xdiffNonzero ||| ydiffNonzero) dbl ret
  let ret := choose (xdiffNonzero ||| (1 - ydiffNonzero)) INFTY ret
  let ret := choose selfIsZero b ret
  return choose bIsZero a ret

/-- The body of the loops of `mult_scalar`, src/crypto/p256.rs:212-217. -/
def ladderStep (m : Mode) (p : Point256) (bit : UInt32) (ret : Point256) : Res Point256 := do
  let ret2 ← ret.double m
  let ret3 ← ret2.add m p
  return choose bit ret2 ret3

/-- The bits in the order in which the loops `for i in (0..7).rev() { for j in (0..8).rev()` visit them, src/crypto/p256.rs:210-212. -/
def ladderBits (n : Int256) : List UInt32 :=
  [6, 5, 4, 3, 2, 1, 0].flatMap fun (i : Nat) => [7, 6, 5, 4, 3, 2, 1, 0].map fun (j : UInt32) => (n.v.getD i 0 >>> j) &&& 1

/-- The loops of `mult_scalar`, src/crypto/p256.rs:210-219. -/
def ladder (m : Mode) (p : Point256) : List UInt32 → Point256 → Res Point256
  | [], ret => return ret
  | bit :: bits, ret => do
    let ret ← ladderStep m p bit ret
    ladder m p bits ret

/-- `mult_scalar`, src/crypto/p256.rs:208-222. -/
def multScalar (m : Mode) (p : Point256) (n : Int256) : Res Point256 := ladder m p (ladderBits n) INFTY

end Point256

namespace NPoint256

/-- `to_point`, src/crypto/p256.rs:232-238. -/
def toPoint (p : NPoint256) : Point256 := { x := p.x, y := p.y, z := .ONE }

/-- The curve check of `from_uncompressed_bytes`, src/crypto/p256.rs:261-273. -/
def checkCurve (m : Mode) (x y : Int256) : Res (Option NPoint256) := do
  let y2 ← y.square m
  let x2 ← x.double m
  let x3' ← x2.add m x
  let lhs ← y2.add m x3'
  let xx ← x.square m
  let x3 ← xx.mult m x
  let rhs ← x3.add m Point256.B
  return if lhs.compare rhs ≠ 0 then none else some { x, y }

/-- `from_uncompressed_bytes`, src/crypto/p256.rs:240-274. -/
def fromUncompressedBytes (m : Mode) (data : Bytes) : Res (Option NPoint256) :=
  if data.length ≠ 1 + 32 * 2 then return none
  else if data.getD 0 0 ≠ 4 then return none
  else
    match Int256.fromBytes ((data.take 33).drop 1), Int256.fromBytes ((data.take 65).drop 33) with
    | some x, some y => checkCurve m x y
    | _, _ => return none

/-- `to_uncompressed_bytes`, src/crypto/p256.rs:276-283. -/
def toUncompressedBytes (p : NPoint256) : Bytes := 4 :: (p.x.toBytes ++ p.y.toBytes)

end NPoint256

end Husk
