import Verif.Proofs.P256Inverse
import Mathlib.Tactic.FieldSimp
/-! Point arithmetic of src/crypto/p256.rs is the group law of the curve (Mathlib's `WeierstrassCurve.Affine.Point`). -/

namespace Husk
open Spec.P256 (p p_eq F curve)
open WeierstrassCurve.Affine (Point)

namespace P256Algebra
variable {K : Type} [Field K]

/-! Jacobian formulas against affine ones, in any field. -/

theorem double_x (x y z : K) (hz : z ≠ 0) (hy : y ≠ 0) (h2 : (2 : K) ≠ 0) :
    ((3 * ((x + z ^ 2) * (x - z ^ 2))) ^ 2 - 8 * (x * y ^ 2)) / ((y + z) ^ 2 - (z ^ 2 + y ^ 2)) ^ 2 =
      ((3 * (x / z ^ 2) ^ 2 - 3) / (2 * (y / z ^ 3))) ^ 2 - x / z ^ 2 - x / z ^ 2 := by
  have hz' : (y + z) ^ 2 - (z ^ 2 + y ^ 2) = 2 * y * z := by ring
  rw [hz']
  field_simp
  ring

theorem double_y (x y z : K) (hz : z ≠ 0) (hy : y ≠ 0) (h2 : (2 : K) ≠ 0) :
    (3 * ((x + z ^ 2) * (x - z ^ 2)) * (4 * (x * y ^ 2) - ((3 * ((x + z ^ 2) * (x - z ^ 2))) ^ 2 - 8 * (x * y ^ 2))) - 8 * (y ^ 2) ^ 2) /
        ((y + z) ^ 2 - (z ^ 2 + y ^ 2)) ^ 3 =
      -((3 * (x / z ^ 2) ^ 2 - 3) / (2 * (y / z ^ 3)) *
        (((3 * (x / z ^ 2) ^ 2 - 3) / (2 * (y / z ^ 3))) ^ 2 - x / z ^ 2 - x / z ^ 2 - x / z ^ 2) + y / z ^ 3) := by
  have hz' : (y + z) ^ 2 - (z ^ 2 + y ^ 2) = 2 * y * z := by ring
  rw [hz']
  field_simp
  ring

theorem tangent (x y : K) : (3 * x ^ 2 + 2 * 0 * x + -3 - 0 * y) / (y - -y) = (3 * x ^ 2 - 3) / (2 * y) := by
  congr 1 <;> ring

/-- The line through the two points. -/
theorem slope (x y z x' y' z' : K) (hz : z ≠ 0) (hz' : z' ≠ 0) (hx : x * z' ^ 2 - x' * z ^ 2 ≠ 0) :
    (y / z ^ 3 - y' / z' ^ 3) / (x / z ^ 2 - x' / z' ^ 2) = (y * z' ^ 3 - y' * z ^ 3) / (z * z' * (x * z' ^ 2 - x' * z ^ 2)) := by
  have h : x / z ^ 2 - x' / z' ^ 2 = (x * z' ^ 2 - x' * z ^ 2) / (z ^ 2 * z' ^ 2) := by field_simp
  rw [h]
  field_simp

theorem add_x (x y z x' y' z' : K) (hz : z ≠ 0) (hz' : z' ≠ 0) (d : K) (hd : d = x * z' ^ 2 - x' * z ^ 2) (hd0 : d ≠ 0) :
    ((y * z' ^ 3 - y' * z ^ 3) ^ 2 - (x * z' ^ 2 + x' * z ^ 2) * d ^ 2) / (z * z' * d) ^ 2 =
      ((y * z' ^ 3 - y' * z ^ 3) / (z * z' * d)) ^ 2 - x / z ^ 2 - x' / z' ^ 2 := by
  field_simp
  ring

theorem add_y (x y z x' y' z' : K) (hz : z ≠ 0) (hz' : z' ≠ 0) (d : K) (hd : d = x * z' ^ 2 - x' * z ^ 2) (hd0 : d ≠ 0) (h2 : (2 : K) ≠ 0) (X : K)
    (hX : X = (y * z' ^ 3 - y' * z ^ 3) ^ 2 - (x * z' ^ 2 + x' * z ^ 2) * d ^ 2) :
    (((y * z' ^ 3 - y' * z ^ 3) * ((x * z' ^ 2 + x' * z ^ 2) * d ^ 2 - (X + X)) - (y * z' ^ 3 + y' * z ^ 3) * (d * d ^ 2)) / 2) / (z * z' * d) ^ 3 =
      -((y * z' ^ 3 - y' * z ^ 3) / (z * z' * d) * (X / (z * z' * d) ^ 2 - x / z ^ 2) + y / z ^ 3) := by
  have hx : x * z' ^ 2 = d + x' * z ^ 2 := by rw [hd]; ring
  have e : x / z ^ 2 = (x * z' ^ 2) / (z ^ 2 * z' ^ 2) := by field_simp
  rw [e, hx]
  clear hd hX
  field_simp
  ring

end P256Algebra

namespace Point256
open Int256

/-- `q` represents the group element `P`: "(x, y, z): (X, Y) = (x/z^2, y/z^3) is point of Y^2 = X^3 - 3 * X + c, identity (INFTY) is
(1, 1, 0)" (src/crypto/p256.rs:9-11); only `z` has to be reduced. -/
def Rep (q : Point256) (P : curve.Point) : Prop :=
  q.z.Canon ∧ (q.z.toF = 0 → P = 0) ∧
    (q.z.toF ≠ 0 → ∃ h : curve.Nonsingular (q.x.toF / q.z.toF ^ 2) (q.y.toF / q.z.toF ^ 3), P = .some _ _ h)

theorem rep_infty : Rep INFTY 0 := by
  refine ⟨?_, fun _ => rfl, fun h => ?_⟩
  · show Canon ZERO
    rw [ZERO_eq]; exact canon_ofF 0
  · exact absurd (show ZERO.toF = 0 by rw [ZERO_eq, toF_ofF]) h

theorem choose_zero (a b : Point256) : choose 0 a b = a := by
  simp [choose, Int256.choose_zero]

theorem choose_one (a b : Point256) : choose 1 a b = b := by
  simp [choose, Int256.choose_one]

theorem choose_ite {c : Prop} [Decidable c] (a b : Point256) : choose (if c then 0 else 1) a b = if c then a else b := by
  split
  · exact choose_zero a b
  · exact choose_one a b

/-- The formulas of `double`. -/
def dblX (x y z : F) : F := (3 * ((x + z ^ 2) * (x - z ^ 2))) ^ 2 - 8 * (x * y ^ 2)
def dblY (x y z : F) : F := 3 * ((x + z ^ 2) * (x - z ^ 2)) * (4 * (x * y ^ 2) - dblX x y z) - 8 * (y ^ 2) ^ 2
def dblZ (y z : F) : F := (y + z) ^ 2 - (z ^ 2 + y ^ 2)

theorem double_eq (m : Mode) (q : Point256) (hz : q.z.Canon) :
    q.double m = .ok (if q.z.toF = 0 then INFTY else
      { x := ofF (dblX q.x.toF q.y.toF q.z.toF), y := ofF (dblY q.x.toF q.y.toF q.z.toF), z := ofF (dblZ q.y.toF q.z.toF) }) := by
  obtain ⟨x, y, z⟩ := q
  simp only at *
  have hzc := hz
  obtain ⟨c, hc⟩ : ∃ c, z.toF = c := ⟨_, rfl⟩
  have hz := hz.eq
  rw [hc] at hz
  subst hz
  unfold Canon at hzc
  have hc2 := canon_ofF (c ^ 2)
  unfold Canon at hc2
  have hx := x.val_lt
  have hy := y.val_lt
  obtain ⟨r1, h1, f1⟩ := sub_toF m x (ofF (c ^ 2)) (by omega)
  obtain ⟨r2, h2, f2⟩ := add_toF m x (ofF (c ^ 2)) (by omega)
  obtain ⟨r3, h3, f3⟩ := add_toF m y (ofF c) (by omega)
  rw [toF_ofF] at f1 f2 f3
  simp only [double, square_eq, Res.bind_ok, toF_ofF, h1, h2, mult_eq, f1, f2, add_ofF, sub_ofF, h3, f3, ZERO_eq, compare_ofF, choose_ite]
  refine congrArg Res.ok ?_
  have e1 : (y.toF + c) ^ 2 - (c ^ 2 + y.toF ^ 2) = dblZ y.toF c := rfl
  have e2 : ((x.toF + c ^ 2) * (x.toF - c ^ 2) + (x.toF + c ^ 2) * (x.toF - c ^ 2) + (x.toF + c ^ 2) * (x.toF - c ^ 2)) =
    3 * ((x.toF + c ^ 2) * (x.toF - c ^ 2)) := by ring
  have e3 : ∀ a : F, (a + a + (a + a) + (a + a + (a + a))) = 8 * a := by intro a; ring
  have e4 : ∀ a : F, (a + a + (a + a)) = 4 * a := by intro a; ring
  rw [e1, e2, e3, e3, e4]
  rfl

theorem rep_mk {X Y Z : F} {P : curve.Point} (h0 : Z = 0 → P = 0)
    (h1 : Z ≠ 0 → ∃ h : curve.Nonsingular (X / Z ^ 2) (Y / Z ^ 3), P = .some _ _ h) : Rep { x := ofF X, y := ofF Y, z := ofF Z } P := by
  refine ⟨canon_ofF Z, ?_, ?_⟩
  · simp only [toF_ofF]; exact h0
  · simp only [toF_ofF]; exact h1

theorem some_congr {x y x' y' : F} (h : curve.Nonsingular x y) (hx : x' = x) (hy : y' = y) :
    ∃ h' : curve.Nonsingular x' y', Point.some x y h = Point.some x' y' h' := by
  subst hx; subst hy; exact ⟨h, rfl⟩

theorem negY_eq (x y : F) : curve.negY x y = -y := by simp [WeierstrassCurve.Affine.negY, curve]

theorem addX_eq (x x' l : F) : curve.addX x x' l = l ^ 2 - x - x' := by simp [WeierstrassCurve.Affine.addX, curve]

theorem addY_eq (x x' y l : F) : curve.addY x x' y l = -(l * (l ^ 2 - x - x' - x) + y) := by
  rw [WeierstrassCurve.Affine.addY, negY_eq, WeierstrassCurve.Affine.negAddY, addX_eq]

theorem dbl_rep (x y z : F) (hz : z ≠ 0) (h : curve.Nonsingular (x / z ^ 2) (y / z ^ 3)) :
    Rep { x := ofF (dblX x y z), y := ofF (dblY x y z), z := ofF (dblZ y z) } (.some _ _ h + .some _ _ h) := by
  have hZ : dblZ y z = 2 * y * z := by rw [dblZ]; ring
  have hzy : dblZ y z = 0 ↔ y = 0 := by
    rw [hZ]; simp [two_ne, hz]
  apply rep_mk
  · intro h0
    have hy0 := hzy.mp h0
    apply Point.add_self_of_Y_eq
    rw [negY_eq, hy0]; simp
  · intro h0
    have hy0 : y ≠ 0 := fun hc => h0 (hzy.mpr hc)
    have hne : y / z ^ 3 ≠ curve.negY (x / z ^ 2) (y / z ^ 3) := by
      rw [negY_eq]
      intro hc
      have : 2 * (y / z ^ 3) = 0 := by linear_combination hc
      rcases mul_eq_zero.mp this with h' | h'
      · exact two_ne h'
      · exact (div_ne_zero hy0 (pow_ne_zero 3 hz)) h'
    have hs : curve.slope (x / z ^ 2) (x / z ^ 2) (y / z ^ 3) (y / z ^ 3) = (3 * (x / z ^ 2) ^ 2 - 3) / (2 * (y / z ^ 3)) := by
      rw [WeierstrassCurve.Affine.slope_of_Y_ne rfl hne, negY_eq]
      exact P256Algebra.tangent _ _
    rw [Point.add_self_of_Y_ne hne]
    apply some_congr
    · rw [addX_eq, hs]
      exact P256Algebra.double_x x y z hz hy0 two_ne
    · rw [addY_eq, hs]
      exact P256Algebra.double_y x y z hz hy0 two_ne

theorem double_rep (m : Mode) (q : Point256) (P : curve.Point) (h : Rep q P) : ∃ r, q.double m = .ok r ∧ Rep r (P + P) := by
  obtain ⟨hc, h0, h1⟩ := h
  rw [double_eq m q hc]
  refine ⟨_, rfl, ?_⟩
  split
  · rename_i hz
    rw [h0 hz, add_zero]; exact rep_infty
  · rename_i hz
    obtain ⟨hn, rfl⟩ := h1 hz
    exact dbl_rep _ _ _ hz hn

/-- The formulas of `add`. -/
def xd (x z x' z' : F) : F := x * z' ^ 2 - x' * z ^ 2
def yd (y z y' z' : F) : F := y * (z' * z' ^ 2) - y' * (z * z ^ 2)
def addE (x z x' z' : F) : F := (x * z' ^ 2 + x' * z ^ 2) * xd x z x' z' ^ 2
def sumX (x y z x' y' z' : F) : F := yd y z y' z' ^ 2 - addE x z x' z'
def sumY (x y z x' y' z' : F) : F :=
  (yd y z y' z' * (addE x z x' z' - (sumX x y z x' y' z' + sumX x y z x' y' z')) -
    (y * (z' * z' ^ 2) + y' * (z * z ^ 2)) * (xd x z x' z' * xd x z x' z' ^ 2)) / 2

theorem add_eq (m : Mode) (q r : Point256) (hq : q.z.Canon) (hr : r.z.Canon) :
    ∃ d, q.double m = .ok d ∧ q.add m r = .ok (
      if r.z.toF = 0 then q
      else if q.z.toF = 0 then r
      else if xd q.x.toF q.z.toF r.x.toF r.z.toF = 0 then (if yd q.y.toF q.z.toF r.y.toF r.z.toF = 0 then d else INFTY)
      else { x := ofF (sumX q.x.toF q.y.toF q.z.toF r.x.toF r.y.toF r.z.toF), y := ofF (sumY q.x.toF q.y.toF q.z.toF r.x.toF r.y.toF r.z.toF),
             z := ofF (q.z.toF * r.z.toF * xd q.x.toF q.z.toF r.x.toF r.z.toF) }) := by
  obtain ⟨d, hd⟩ : ∃ d, q.double m = .ok d := ⟨_, double_eq m q hq⟩
  refine ⟨d, hd, ?_⟩
  have ez : ∀ a : Int256, a.Canon → a.compare (ofF 0) = if a.toF = 0 then 0 else 1 := by
    intro a ha
    rw [ha.eq, compare_ofF, toF_ofF]
  simp only [add, ez _ hq, ez _ hr, square_eq, mult_eq, Res.bind_ok, toF_ofF, sub_ofF, add_ofF, divideBy2_ofF, ZERO_eq, compare_ofF, hd, choose_ite]
  refine congrArg Res.ok ?_
  show (if r.z.toF = 0 then q else if q.z.toF = 0 then r else
    choose ((if xd q.x.toF q.z.toF r.x.toF r.z.toF = 0 then 0 else 1) ||| (1 - if yd q.y.toF q.z.toF r.y.toF r.z.toF = 0 then 0 else 1)) INFTY
      (choose ((if xd q.x.toF q.z.toF r.x.toF r.z.toF = 0 then 0 else 1) ||| (if yd q.y.toF q.z.toF r.y.toF r.z.toF = 0 then 0 else 1)) d
        { x := ofF (sumX q.x.toF q.y.toF q.z.toF r.x.toF r.y.toF r.z.toF), y := ofF (sumY q.x.toF q.y.toF q.z.toF r.x.toF r.y.toF r.z.toF),
             z := ofF (q.z.toF * r.z.toF * xd q.x.toF q.z.toF r.x.toF r.z.toF) })) = _
  have c0 : (0 : UInt32) ||| 0 = 0 := rfl
  have c1 : (0 : UInt32) ||| 1 = 1 := rfl
  have c2 : (1 : UInt32) ||| 0 = 1 := rfl
  have c3 : (1 : UInt32) ||| 1 = 1 := rfl
  have c4 : (1 : UInt32) - 0 = 1 := rfl
  have c5 : (1 : UInt32) - 1 = 0 := rfl
  by_cases hx : xd q.x.toF q.z.toF r.x.toF r.z.toF = 0 <;> by_cases hy : yd q.y.toF q.z.toF r.y.toF r.z.toF = 0 <;>
    simp only [hx, hy, if_true, if_false, c0, c1, c2, c3, c4, c5, choose_zero, choose_one]

theorem xd_zero (x z x' z' : F) (hz : z ≠ 0) (hz' : z' ≠ 0) : xd x z x' z' = 0 ↔ x / z ^ 2 = x' / z' ^ 2 := by
  rw [xd, sub_eq_zero, div_eq_div_iff (pow_ne_zero 2 hz) (pow_ne_zero 2 hz')]

theorem yd_zero (y z y' z' : F) (hz : z ≠ 0) (hz' : z' ≠ 0) : yd y z y' z' = 0 ↔ y / z ^ 3 = y' / z' ^ 3 := by
  rw [yd, sub_eq_zero, div_eq_div_iff (pow_ne_zero 3 hz) (pow_ne_zero 3 hz')]
  constructor <;> intro h
  · linear_combination h
  · linear_combination h

theorem sum_rep (x y z x' y' z' : F) (hz : z ≠ 0) (hz' : z' ≠ 0) (hx : xd x z x' z' ≠ 0) (h : curve.Nonsingular (x / z ^ 2) (y / z ^ 3))
    (h' : curve.Nonsingular (x' / z' ^ 2) (y' / z' ^ 3)) :
    Rep { x := ofF (sumX x y z x' y' z'), y := ofF (sumY x y z x' y' z'), z := ofF (z * z' * xd x z x' z') } (.some _ _ h + .some _ _ h') := by
  have hne : x / z ^ 2 ≠ x' / z' ^ 2 := fun hc => hx ((xd_zero x z x' z' hz hz').mpr hc)
  have hy3 : ∀ a b : F, a * (b * b ^ 2) = a * b ^ 3 := by intro a b; ring
  apply rep_mk
  · intro h0
    exact absurd h0 (mul_ne_zero (mul_ne_zero hz hz') hx)
  · intro _
    have hs : curve.slope (x / z ^ 2) (x' / z' ^ 2) (y / z ^ 3) (y' / z' ^ 3) = (y * z' ^ 3 - y' * z ^ 3) / (z * z' * xd x z x' z') := by
      rw [WeierstrassCurve.Affine.slope_of_X_ne hne]
      exact P256Algebra.slope x y z x' y' z' hz hz' hx
    rw [Point.add_of_X_ne hne]
    apply some_congr
    · rw [addX_eq, hs, ← P256Algebra.add_x x y z x' y' z' hz hz' (xd x z x' z') rfl hx, sumX, yd, addE]
      simp only [hy3, xd]
    · rw [addY_eq, hs, ← P256Algebra.add_x x y z x' y' z' hz hz' (xd x z x' z') rfl hx,
        ← P256Algebra.add_y x y z x' y' z' hz hz' (xd x z x' z') rfl hx two_ne _ rfl, sumY, sumX, yd, addE]
      simp only [hy3, xd]

theorem add_rep (m : Mode) (q r : Point256) (P Q : curve.Point) (hq : Rep q P) (hr : Rep r Q) :
    ∃ s, q.add m r = .ok s ∧ Rep s (P + Q) := by
  obtain ⟨d, hd, ha⟩ := add_eq m q r hq.1 hr.1
  obtain ⟨d', hd', hdr⟩ := double_rep m q P hq
  rw [hd] at hd'; cases hd'
  refine ⟨_, ha, ?_⟩
  split
  · rename_i h
    rw [hr.2.1 h, add_zero]; exact hq
  · rename_i hz'
    split
    · rename_i h
      rw [hq.2.1 h, zero_add]; exact hr
    · rename_i hz
      obtain ⟨hn, rfl⟩ := hq.2.2 hz
      obtain ⟨hn', rfl⟩ := hr.2.2 hz'
      split
      · rename_i hx
        have hxe := (xd_zero _ _ _ _ hz hz').mp hx
        split
        · rename_i hy
          have hye := (yd_zero _ _ _ _ hz hz').mp hy
          obtain ⟨h'', he⟩ := some_congr hn hxe.symm hye.symm
          rw [he] at hdr ⊢
          exact hdr
        · rename_i hy
          have hye : r.y.toF / r.z.toF ^ 3 ≠ q.y.toF / q.z.toF ^ 3 := fun hc => hy ((yd_zero _ _ _ _ hz hz').mpr hc.symm)
          have hneg : q.y.toF / q.z.toF ^ 3 = curve.negY (r.x.toF / r.z.toF ^ 2) (r.y.toF / r.z.toF ^ 3) := by
            rcases WeierstrassCurve.Affine.Y_eq_of_X_eq hn.1 hn'.1 hxe with h | h
            · exact absurd h.symm hye
            · exact h
          rw [Point.add_of_Y_eq hxe hneg]
          exact rep_infty
      · rename_i hx
        exact sum_rep _ _ _ _ _ _ hz hz' hx hn hn'

/-- `normalize` divides the projective coordinates out (and maps infinity to (0, 0)). -/
theorem normalize_eq (m : Mode) (q : Point256) :
    q.normalize m = .ok { x := ofF (q.x.toF / q.z.toF ^ 2), y := ofF (q.y.toF / q.z.toF ^ 3) } := by
  simp only [normalize, square_eq, mult_eq, inverse_eq, Res.bind_ok, toF_ofF]
  have e : q.z.toF * q.z.toF ^ 2 = q.z.toF ^ 3 := by ring
  rw [e, div_eq_mul_inv, div_eq_mul_inv]
  rfl

end Point256
end Husk
