import Mathlib.Data.ZMod.Basic
import Mathlib.AlgebraicGeometry.EllipticCurve.Affine.Point
/-! Curve P-256 (FIPS 186-4, D.1.2.3; SEC 2, secp256r1): constants, the prime field as Mathlib's `ZMod p`, the curve as a Mathlib Weierstrass curve. -/

namespace Husk
namespace Spec
namespace P256

/-- The prime of the field. -/
def p : Nat := 2 ^ 256 - 2 ^ 224 + 2 ^ 192 + 2 ^ 96 - 1
/-- The order of the group. -/
def n : Nat := 0xffffffff00000000ffffffffffffffffbce6faada7179e84f3b9cac2fc632551
/-- The coefficient `b`. -/
def b : Nat := 0x5ac635d8aa3a93e7b3ebbd55769886bc651d06b0cc53b0f63bce3c3e27d2604b
/-- The base point. -/
def gx : Nat := 0x6b17d1f2e12c4247f8bce6e563a440f277037d812deb33a0f4a13945d898c296
def gy : Nat := 0x4fe342e2fe1a7f9b8ee7eb4a7c0f9e162bce33576b315ececbb6406837bf51f5

theorem p_eq : p = 115792089210356248762697446949407573530086143415290314195533631308867097853951 := by decide

instance : NeZero p := ⟨by rw [p_eq]; decide⟩

/-- The field. -/
abbrev F := ZMod p

/-- `y² = x³ - 3x + b`. -/
def curve : WeierstrassCurve.Affine F := { a₁ := 0, a₂ := 0, a₃ := 0, a₄ := -3, a₆ := (b : F) }

end P256
end Spec
end Husk
