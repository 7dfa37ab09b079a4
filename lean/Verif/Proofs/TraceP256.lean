import Verif.Model.TraceP256
/-! The functions of `Verif/Model/TraceP256` have the results of those of `Verif/Model/P256`. -/

namespace Husk

open Tr

namespace Int256

theorem ofLimbs_res (v : List UInt32) (h : v.length = 8) : (ofLimbs v).res = .ok ⟨v, h⟩ := by
  unfold ofLimbs
  rw [dif_pos h]
  rfl

theorem diffLimbsT_res (i : Nat) (a b : List UInt32) (d : UInt32) : (diffLimbsT i a b d).res = .ok (diffLimbs a b d) := by
  induction a generalizing i b d with
  | nil => cases b <;> rfl
  | cons x a ih =>
    cases b with
    | nil => rfl
    | cons y b => simp only [diffLimbsT, diffLimbs, bind_res, see_res, Res.bind_ok, ih]

@[simp] theorem compareT_res (a b : Int256) : (a.compareT b).res = .ok (a.compare b) := by
  simp only [compareT, bind_res, diffLimbsT_res, Res.bind_ok, pure_res, compare]

theorem chooseLimbsT_res (f : UInt32) (i : Nat) (a b : List UInt32) :
    (chooseLimbsT f i a b).res = .ok (List.zipWith (fun x y => x ^^^ (f * (x ^^^ y))) a b) := by
  induction a generalizing i b with
  | nil => cases b <;> rfl
  | cons x a ih =>
    cases b with
    | nil => rfl
    | cons y b => simp only [chooseLimbsT, bind_res, see_res, Res.bind_ok, ih, pure_res, List.zipWith_cons_cons]

@[simp] theorem chooseT_res (f : UInt32) (a b : Int256) : (chooseT f a b).res = .ok (choose f a b) := by
  simp only [chooseT, bind_res, chooseLimbsT_res, Res.bind_ok]
  exact ofLimbs_res _ _

theorem addLimbsT_res (i : Nat) (a b : List UInt32) (c : UInt64) : (addLimbsT i a b c).res = .ok (addLimbs a b c) := by
  induction a generalizing i b c with
  | nil => cases b <;> rfl
  | cons x a ih =>
    cases b with
    | nil => rfl
    | cons y b => simp only [addLimbsT, addLimbs, bind_res, see_res, Res.bind_ok, ih, pure_res]

@[simp] theorem addNoReduceT_res (a b : Int256) : (a.addNoReduceT b).res = .ok (a.addNoReduce b) := by
  simp only [addNoReduceT, bind_res, addLimbsT_res, Res.bind_ok]
  rw [ofLimbs_res _ (by rw [addLimbs_length _ _ _ (a.len.trans b.len.symm), a.len])]
  rfl

theorem subLimbsT_res (i : Nat) (a b : List UInt32) (c : UInt64) : (subLimbsT i a b c).res = .ok (subLimbs a b c) := by
  induction a generalizing i b c with
  | nil => cases b <;> rfl
  | cons x a ih =>
    cases b with
    | nil => rfl
    | cons y b => simp only [subLimbsT, subLimbs, bind_res, see_res, Res.bind_ok, ih, pure_res]

@[simp] theorem subNoReduceT_res (a b : Int256) : (a.subNoReduceT b).res = .ok (a.subNoReduce b) := by
  simp only [subNoReduceT, bind_res, subLimbsT_res, Res.bind_ok]
  rw [ofLimbs_res _ (by rw [subLimbs_length _ _ _ (a.len.trans b.len.symm), a.len])]
  rfl

@[simp] theorem assertNot_res (m : Mode) (a b : UInt32) : (assertNot m a b).res = debugAssert m !(a == 0 && b == 1) := by
  cases m
  · simp only [assertNot, debugAssert, bind_res, test_res, Res.bind_ok]
    cases a == 0 <;> cases b == 1 <;> rfl
  · rfl

@[simp] theorem assertZero_res (m : Mode) (c : UInt64) : (assertZero m c).res = debugAssert m (c == 0) := by
  cases m
  · simp only [assertZero, debugAssert, bind_res, test_res, Res.bind_ok]
    cases c == 0 <;> rfl
  · rfl

@[simp] theorem reduceOnceT_res (m : Mode) (a : Int256) (c : UInt32) : (a.reduceOnceT m c).res = a.reduceOnce m c := by
  simp only [reduceOnceT, reduceOnce, bind_res, subNoReduceT_res, Res.bind_ok, assertNot_res, chooseT_res]
  rfl

@[simp] theorem reduceOnceZeroT_res (m : Mode) (a : Int256) : (a.reduceOnceZeroT m).res = a.reduceOnceZero m := reduceOnceT_res m a 0

@[simp] theorem addT_res (m : Mode) (a b : Int256) : (a.addT m b).res = a.add m b := by
  simp only [addT, add, bind_res, addNoReduceT_res, Res.bind_ok, reduceOnceT_res]

@[simp] theorem doubleT_res (m : Mode) (a : Int256) : (a.doubleT m).res = a.double m := addT_res m a a

@[simp] theorem subT_res (m : Mode) (a b : Int256) : (a.subT m b).res = a.sub m b := by
  simp only [subT, sub, bind_res, subNoReduceT_res, addNoReduceT_res, Res.bind_ok, assertNot_res, chooseT_res]
  rfl

theorem mulRowT_res (i : Nat) (a : UInt32) (j : Nat) (b : List UInt32) (w : List UInt64) : (mulRowT i a j b w).res = .ok (mulRow a b (i + j) w) := by
  induction b generalizing j w with
  | nil => rfl
  | cons y b ih => simp only [mulRowT, mulRow, bind_res, see_res, Res.bind_ok, ih, Nat.add_assoc]

theorem mulRowsT_res (b : List UInt32) (i : Nat) (a : List UInt32) (w : List UInt64) : (mulRowsT b i a w).res = .ok (mulRows b a i w) := by
  induction a generalizing i w with
  | nil => rfl
  | cons x a ih => simp only [mulRowsT, mulRows, bind_res, see_res, Res.bind_ok, mulRowT_res, ih, Nat.add_zero]

theorem carryLimbsT_res (i : Nat) (w : List UInt64) (c : UInt64) : (carryLimbsT i w c).res = .ok (carryLimbs w c) := by
  induction w generalizing i c with
  | nil => rfl
  | cons x w ih => simp only [carryLimbsT, carryLimbs, bind_res, see_res, Res.bind_ok, ih, pure_res]

@[simp] theorem copyLoop_res : copyLoop.res = .ok () := rfl

@[simp] theorem reduceWideT_res (m : Mode) (v : Nat → UInt32) : (reduceWideT m v).res = reduceWide m v := by
  simp only [reduceWideT, reduceWide, bind_res, reduceOnceZeroT_res, copyLoop_res, Res.bind_ok, doubleT_res, addT_res, subT_res]

@[simp] theorem multT_res (m : Mode) (a b : Int256) : (a.multT m b).res = a.mult m b := by
  simp only [multT, mult, bind_res, mulRowsT_res, carryLimbsT_res, Res.bind_ok, assertZero_res, reduceWideT_res]

@[simp] theorem squareT_res (m : Mode) (a : Int256) : (a.squareT m).res = a.square m := multT_res m a a

@[simp] theorem squareNT_res (m : Mode) (n : Nat) (a : Int256) : (squareNT m n a).res = squareN m n a := by
  induction n generalizing a with
  | zero => rfl
  | succ n ih => simp only [squareNT, squareN, bind_res, see_res, Res.bind_ok, squareT_res, ih]

@[simp] theorem zNT_res (m : Mode) (z : Int256) (n : Nat) : (zNT m z n).res = zN m z n := by
  simp only [zNT, zN, bind_res, squareNT_res, multT_res]

@[simp] theorem z1T_res (m : Mode) (z a : Int256) : (z1T m z a).res = z1 m z a := by
  simp only [z1T, z1, bind_res, squareT_res, multT_res]

@[simp] theorem inverseT_res (m : Mode) (a : Int256) : (a.inverseT m).res = a.inverse m := by
  simp only [inverseT, inverse, bind_res, zNT_res, z1T_res, squareT_res, squareNT_res, multT_res]

theorem halveT_res (i : Nat) (l : List UInt32) (t : UInt32) : (halveT i l t).res = .ok (halve l t) := by
  induction l generalizing i with
  | nil => rfl
  | cons a l ih =>
    cases l with
    | nil => rfl
    | cons b l => simp only [halveT, halve, bind_res, see_res, Res.bind_ok, ih, pure_res]

@[simp] theorem divideBy2T_res (a : Int256) : a.divideBy2T.res = .ok a.divideBy2 := by
  simp only [divideBy2T, bind_res, halveT_res, Res.bind_ok, addNoReduceT_res]
  rw [ofLimbs_res _ (by rw [halve_length, a.len])]
  simp only [Res.bind_ok]
  rw [ofLimbs_res _ (by rw [halve_length, (a.addNoReduce P256).1.len])]
  simp only [Res.bind_ok, chooseT_res]
  rfl

theorem limbsBytesT_res (i : Nat) (l : List UInt32) : (limbsBytesT i l).res = .ok (l.flatMap limbBytes) := by
  induction l generalizing i with
  | nil => rfl
  | cons x l ih =>
    simp only [limbsBytesT, bind_res, see_res, Res.bind_ok, ih, List.flatMap_cons]
    rfl

@[simp] theorem toBytesT_res (a : Int256) : a.toBytesT.res = .ok a.toBytes := by
  simp only [toBytesT, bind_res, limbsBytesT_res, Res.bind_ok, see_res, pure_res, toBytes]

end Int256

namespace Point256

open Int256

@[simp] theorem normalizeT_res (m : Mode) (p : Point256) : (p.normalizeT m).res = p.normalize m := by
  simp only [normalizeT, normalize, bind_res, squareT_res, multT_res, inverseT_res, pure_res]
  rfl

@[simp] theorem chooseT_res (f : UInt32) (a b : Point256) : (chooseT f a b).res = .ok (choose f a b) := by
  simp only [chooseT, choose, bind_res, Int256.chooseT_res, Res.bind_ok, pure_res]

@[simp] theorem doubleT_res (m : Mode) (p : Point256) : (p.doubleT m).res = p.double m := by
  simp only [doubleT, double, bind_res, squareT_res, multT_res, Int256.addT_res, subT_res, compareT_res, Res.bind_ok, chooseT_res]
  rfl

@[simp] theorem addT_res (m : Mode) (a b : Point256) : (a.addT m b).res = a.add m b := by
  simp only [addT, add, bind_res, squareT_res, multT_res, Int256.addT_res, subT_res, compareT_res, divideBy2T_res, Res.bind_ok, chooseT_res, doubleT_res]
  rfl

theorem ladder_append (m : Mode) (p : Point256) (l l' : List UInt32) (r : Point256) : ladder m p (l ++ l') r = ladder m p l r >>= ladder m p l' := by
  induction l generalizing r with
  | nil => rfl
  | cons b l ih =>
    simp only [List.cons_append, ladder, ih]
    cases ladderStep m p b r <;> rfl

theorem ladderRowT_res (m : Mode) (p : Point256) (n : Int256) (i : Nat) (js : List UInt32) (r : Point256) :
    (ladderRowT m p n i js r).res = ladder m p (js.map fun j => (n.v.getD i 0 >>> j) &&& 1) r := by
  induction js generalizing r with
  | nil => rfl
  | cons j js ih =>
    simp only [ladderRowT, List.map_cons, ladder, ladderStep, bind_res, see_res, Res.bind_ok, doubleT_res, addT_res, chooseT_res, ih]
    cases r.double m with
    | ok r2 =>
      simp only [Res.bind_ok]
      cases r2.add m p <;> rfl
    | err | panic | diverge => rfl

theorem ladderRowsT_res (m : Mode) (p : Point256) (n : Int256) (is : List Nat) (r : Point256) :
    (ladderRowsT m p n is r).res = ladder m p (is.flatMap fun i => [7, 6, 5, 4, 3, 2, 1, 0].map fun (j : UInt32) => (n.v.getD i 0 >>> j) &&& 1) r := by
  induction is generalizing r with
  | nil => rfl
  | cons i is ih =>
    rw [List.flatMap_cons, ladder_append]
    simp only [ladderRowsT, bind_res, see_res, Res.bind_ok, ladderRowT_res, ih]

@[simp] theorem multScalarT_res (m : Mode) (p : Point256) (n : Int256) : (p.multScalarT m n).res = p.multScalar m n := ladderRowsT_res m p n _ _

end Point256

@[simp] theorem NPoint256.toUncompressedBytesT_res (p : NPoint256) : p.toUncompressedBytesT.res = .ok p.toUncompressedBytes := by
  simp only [NPoint256.toUncompressedBytesT, NPoint256.toUncompressedBytes, bind_res, Int256.toBytesT_res, see_res, Res.bind_ok, pure_res]

end Husk
