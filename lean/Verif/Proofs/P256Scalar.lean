import Verif.Proofs.P256Point
/-! `mult_scalar` of src/crypto/p256.rs, and the order of the base point. -/

namespace Husk
open Spec.P256 (p p_eq F curve)
open WeierstrassCurve.Affine (Point)

namespace Point256
open Int256

theorem ladderStep_rep (m : Mode) (q r : Point256) (P : curve.Point) (k : Nat) (bit : UInt32) (hb : bit = 0 ∨ bit = 1) (hq : Rep q P)
    (hr : Rep r (k • P)) : ∃ s, ladderStep m q bit r = .ok s ∧ Rep s ((2 * k + bit.toNat) • P) := by
  obtain ⟨d, hd, hdr⟩ := double_rep m r _ hr
  obtain ⟨a, ha, har⟩ := add_rep m d q _ _ hdr hq
  have e : k • P + k • P = (2 * k) • P := by rw [two_mul, add_nsmul]
  rw [e] at hdr har
  simp only [ladderStep, hd, Res.bind_ok, ha]
  refine ⟨_, rfl, ?_⟩
  rcases hb with rfl | rfl
  · rw [choose_zero]; exact hdr
  · rw [choose_one]
    have : (2 * k + (1 : UInt32).toNat) • P = (2 * k) • P + P := succ_nsmul P (2 * k)
    rw [this]; exact har

/-- The number whose binary digits (most significant first) follow those of `k`. -/
def bitsNat (bits : List UInt32) (k : Nat) : Nat := bits.foldl (fun k b => 2 * k + b.toNat) k

theorem ladder_rep (m : Mode) (q : Point256) (P : curve.Point) (hq : Rep q P) (bits : List UInt32) (hb : ∀ b ∈ bits, b = 0 ∨ b = 1) (r : Point256)
    (k : Nat) (hr : Rep r (k • P)) : ∃ s, ladder m q bits r = .ok s ∧ Rep s (bitsNat bits k • P) := by
  induction bits generalizing r k with
  | nil => exact ⟨r, rfl, hr⟩
  | cons b bits ih =>
    obtain ⟨s, hs, hsr⟩ := ladderStep_rep m q r P k b (hb b (by simp)) hq hr
    obtain ⟨t, ht, htr⟩ := ih (fun c hc => hb c (by simp [hc])) s _ hsr
    exact ⟨t, by rw [ladder, hs, Res.bind_ok, ht], htr⟩

/-- The scalar the loops of `mult_scalar` use: the low byte of each of the seven lowest limbs. -/
def effective (n : Int256) : Nat :=
  (n.v.getD 0 0).toNat % 256 + 256 * ((n.v.getD 1 0).toNat % 256) + 256 ^ 2 * ((n.v.getD 2 0).toNat % 256) +
    256 ^ 3 * ((n.v.getD 3 0).toNat % 256) + 256 ^ 4 * ((n.v.getD 4 0).toNat % 256) + 256 ^ 5 * ((n.v.getD 5 0).toNat % 256) +
    256 ^ 6 * ((n.v.getD 6 0).toNat % 256)

theorem bit_val (v : UInt32) : ∀ j ∈ [7, 6, 5, 4, 3, 2, 1, (0 : UInt32)], ((v >>> j) &&& 1).toNat = v.toNat / 2 ^ j.toNat % 2 := by
  intro j hj
  rw [UInt32.toNat_and, UInt32.toNat_shiftRight]
  have : (UInt32.toNat 1) = 1 := rfl
  rw [this, Nat.and_one_is_mod]
  simp only [List.mem_cons, List.not_mem_nil, or_false] at hj
  rcases hj with rfl | rfl | rfl | rfl | rfl | rfl | rfl | rfl <;> simp [Nat.shiftRight_eq_div_pow]

theorem byte_bits (v : UInt32) (k : Nat) :
    bitsNat ([7, 6, 5, 4, 3, 2, 1, 0].map fun (j : UInt32) => (v >>> j) &&& 1) k = 256 * k + v.toNat % 256 := by
  have h := bit_val v
  simp only [List.map_cons, List.map_nil, bitsNat, List.foldl_cons, List.foldl_nil]
  rw [h 7 (by simp), h 6 (by simp), h 5 (by simp), h 4 (by simp), h 3 (by simp), h 2 (by simp), h 1 (by simp), h 0 (by simp)]
  simp only [UInt32.reduceToNat, Nat.reducePow]
  omega

theorem ladderBits_val (n : Int256) : bitsNat (ladderBits n) 0 = effective n := by
  have happ : ∀ a b k, bitsNat (a ++ b) k = bitsNat b (bitsNat a k) := by intro a b k; simp [bitsNat]
  simp only [ladderBits, List.flatMap_cons, List.flatMap_nil, happ, byte_bits]
  rw [effective]
  show bitsNat [] _ = _
  simp only [bitsNat, List.foldl_nil]
  omega

theorem ladderBits_bit (n : Int256) : ∀ b ∈ ladderBits n, b = 0 ∨ b = 1 := by
  intro b hb
  simp only [ladderBits, List.mem_flatMap, List.mem_map] at hb
  obtain ⟨i, _, j, hj, rfl⟩ := hb
  have h := bit_val (n.v.getD i 0) j hj
  rcases Nat.mod_two_eq_zero_or_one ((n.v.getD i 0).toNat / 2 ^ j.toNat) with h0 | h0
  · left; apply UInt32.toNat_inj.mp; rw [h, h0]; rfl
  · right; apply UInt32.toNat_inj.mp; rw [h, h0]; rfl

theorem multScalar_rep (m : Mode) (q : Point256) (P : curve.Point) (hq : Rep q P) (n : Int256) :
    ∃ r, q.multScalar m n = .ok r ∧ Rep r (effective n • P) := by
  rw [← ladderBits_val]
  exact ladder_rep m q P hq _ (ladderBits_bit n) INFTY 0 (by rw [zero_nsmul]; exact rep_infty)

theorem effective_lt (n : Int256) : effective n < 2 ^ 56 := by
  unfold effective; omega

theorem effective_eq_iff (n : Int256) : effective n = n.val ↔ n.val < 256 := by
  obtain ⟨v, hv⟩ := n
  match v, hv with
  | [a, b, c, d, e, f, g, h], _ =>
    simp only [effective, val, lval, List.getD_cons_zero, List.getD_cons_succ]
    omega

end Point256

/-! ### The order of the base point -/

namespace Spec
namespace P256

theorem disc : curve.Δ ≠ 0 := by
  have h : curve.Δ = ((p - (27 * b ^ 2 - 108) * 16 % p : ℕ) : F) := by
    simp only [curve, WeierstrassCurve.Δ, WeierstrassCurve.b₂, WeierstrassCurve.b₄, WeierstrassCurve.b₆, WeierstrassCurve.b₈]
    rw [Nat.cast_sub (Nat.le_of_lt (Nat.mod_lt _ (by have := p_eq; omega))), ZMod.natCast_mod, ZMod.natCast_self,
      Nat.cast_mul, Nat.cast_sub (by decide)]
    push_cast
    ring
  rw [h, Ne, ZMod.natCast_eq_zero_iff]
  intro hd
  have := Nat.le_of_dvd (by decide +kernel) hd
  revert this
  decide +kernel

theorem nonsingular_iff (x y : F) : curve.Nonsingular x y ↔ y ^ 2 = x ^ 3 - 3 * x + (b : F) := by
  rw [← WeierstrassCurve.Affine.equation_iff_nonsingular_of_Δ_ne_zero disc, WeierstrassCurve.Affine.equation_iff]
  simp only [curve]
  constructor <;> intro h
  · linear_combination h
  · linear_combination h

/-- Being on the curve, as a statement about numbers that the kernel can decide. -/
theorem nonsingular_nat (x y : Nat) (h : (y ^ 2 + 3 * x) % p = (x ^ 3 + b) % p) : curve.Nonsingular (x : F) (y : F) := by
  rw [nonsingular_iff]
  have h' : ((y ^ 2 + 3 * x : ℕ) : F) = ((x ^ 3 + b : ℕ) : F) := by
    rw [ZMod.natCast_eq_natCast_iff']; exact h
  push_cast at h'
  linear_combination h'

theorem g_nonsingular : curve.Nonsingular (gx : F) (gy : F) := nonsingular_nat gx gy (by decide +kernel)

/-- The base point. -/
def G : curve.Point := .some _ _ g_nonsingular

theorem G_ne_zero : G ≠ 0 := Point.some_ne_zero _

/-! Jacobian arithmetic on numbers, only used to let the kernel compute `n • G`. -/

def msub (a b : Nat) : Nat := (a + (p - b % p)) % p

theorem msub_cast (a b : Nat) : ((msub a b : ℕ) : F) = (a : F) - (b : F) := by
  rw [msub, ZMod.natCast_mod, Nat.cast_add, Nat.cast_sub (Nat.le_of_lt (Nat.mod_lt _ (by have := p_eq; omega))), ZMod.natCast_mod]
  simp
  ring

structure J where
  x : Nat
  y : Nat
  z : Nat
  deriving DecidableEq

def J.Rep (j : J) (P : curve.Point) : Prop :=
  ((j.z : F) = 0 → P = 0) ∧ ((j.z : F) ≠ 0 → ∃ h : curve.Nonsingular ((j.x : F) / (j.z : F) ^ 2) ((j.y : F) / (j.z : F) ^ 3), P = .some _ _ h)

def J.toPoint (j : J) : Point256 := { x := .ofF j.x, y := .ofF j.y, z := .ofF j.z }

theorem J.rep_toPoint (j : J) (P : curve.Point) : j.toPoint.Rep P ↔ j.Rep P := by
  simp only [Point256.Rep, J.Rep, J.toPoint, Int256.toF_ofF]
  exact ⟨fun h => h.2, fun h => ⟨Int256.canon_ofF _, h⟩⟩

def J.dbl (j : J) : J :=
  let z2 := j.z ^ 2 % p
  let y2 := j.y ^ 2 % p
  let a := 3 * ((j.x + z2) * msub j.x z2) % p
  let xy2 := j.x * y2 % p
  let x := msub (a ^ 2) (8 * xy2)
  { x := x, y := msub (a * msub (4 * xy2) x) (8 * y2 ^ 2), z := 2 * j.y * j.z % p }

theorem J.dbl_cast (j : J) : (j.dbl.x : F) = Point256.dblX j.x j.y j.z ∧ (j.dbl.y : F) = Point256.dblY j.x j.y j.z ∧
    (j.dbl.z : F) = Point256.dblZ j.y j.z := by
  have hx : (j.dbl.x : F) = Point256.dblX j.x j.y j.z := by
    simp only [J.dbl, msub_cast, ZMod.natCast_mod, Nat.cast_mul, Nat.cast_add, Nat.cast_pow, Nat.cast_ofNat, Point256.dblX]
  refine ⟨hx, ?_, ?_⟩
  · rw [Point256.dblY, ← hx]
    simp only [J.dbl, msub_cast, ZMod.natCast_mod, Nat.cast_mul, Nat.cast_add, Nat.cast_pow, Nat.cast_ofNat]
  · simp only [J.dbl, ZMod.natCast_mod, Nat.cast_mul, Nat.cast_ofNat, Point256.dblZ]
    ring

theorem J.dbl_rep (j : J) (P : curve.Point) (h : j.Rep P) : j.dbl.Rep (P + P) := by
  obtain ⟨h1, h2, h3⟩ := j.dbl_cast
  by_cases hz : (j.z : F) = 0
  · rw [h.1 hz, add_zero]
    have : (j.dbl.z : F) = 0 := by rw [h3, hz, Point256.dblZ]; ring
    exact ⟨fun _ => rfl, fun hn => absurd this hn⟩
  · obtain ⟨hn, rfl⟩ := h.2 hz
    rw [← J.rep_toPoint, J.toPoint, h1, h2, h3]
    exact Point256.dbl_rep _ _ _ hz hn

/-- Addition of the base point. -/
def J.addG (j : J) : J :=
  let z2 := j.z ^ 2 % p
  let xd := msub j.x (gx * z2)
  let yd := msub j.y (gy * (j.z * z2 % p))
  let xd2 := xd ^ 2 % p
  let e := (j.x + gx * z2) % p * xd2 % p
  let x := msub (yd ^ 2) e
  let half := (p + 1) / 2
  { x := x, y := msub (yd * msub e (2 * x)) ((j.y + gy * (j.z * z2 % p)) % p * (xd * xd2 % p)) * half % p, z := j.z * xd % p }

theorem half_cast : (((p + 1) / 2 : ℕ) : F) = 1 / 2 := by
  rw [eq_div_iff Int256.two_ne]
  have : (((p + 1) / 2 : ℕ) : F) * 2 = (((p + 1) / 2 * 2 : ℕ) : F) := by push_cast; rfl
  rw [this]
  have e : (p + 1) / 2 * 2 = p + 1 := by have := p_eq; omega
  rw [e]
  simp

theorem J.addG_cast (j : J) : (j.addG.x : F) = Point256.sumX j.x j.y j.z gx gy 1 ∧ (j.addG.y : F) = Point256.sumY j.x j.y j.z gx gy 1 ∧
    (j.addG.z : F) = (j.z : F) * 1 * Point256.xd j.x j.z gx 1 := by
  have hx : (j.addG.x : F) = Point256.sumX j.x j.y j.z gx gy 1 := by
    simp only [J.addG, msub_cast, ZMod.natCast_mod, Nat.cast_mul, Nat.cast_add, Nat.cast_pow, Point256.sumX, Point256.yd, Point256.addE,
      Point256.xd, one_pow, mul_one]
  refine ⟨hx, ?_, ?_⟩
  · rw [Point256.sumY, ← hx]
    have hh := half_cast
    simp only [J.addG, msub_cast, ZMod.natCast_mod, Nat.cast_mul, Nat.cast_add, Nat.cast_pow, Point256.yd, Point256.addE,
      Point256.xd, one_pow, mul_one, Nat.cast_ofNat, hh]
    ring
  · simp only [J.addG, msub_cast, ZMod.natCast_mod, Nat.cast_mul, Nat.cast_pow, Point256.xd, one_pow, mul_one]

theorem J.addG_rep (j : J) (P : curve.Point) (h : j.Rep P) (hz : j.z % p ≠ 0) (hx : msub j.x (gx * j.z ^ 2) ≠ 0) : j.addG.Rep (P + G) := by
  obtain ⟨h1, h2, h3⟩ := j.addG_cast
  have hz' : (j.z : F) ≠ 0 := by
    rw [Ne, ZMod.natCast_eq_zero_iff]; exact fun hd => hz (Nat.mod_eq_zero_of_dvd hd)
  obtain ⟨hn, rfl⟩ := h.2 hz'
  have hxd : Point256.xd (j.x : F) (j.z : F) gx 1 ≠ 0 := by
    intro hc
    apply hx
    have : ((msub j.x (gx * j.z ^ 2) : ℕ) : F) = 0 := by
      rw [msub_cast]; push_cast; rw [← hc, Point256.xd]; ring
    rw [ZMod.natCast_eq_zero_iff] at this
    exact Nat.eq_zero_of_dvd_of_lt this (Nat.mod_lt _ (by have := p_eq; omega))
  have hg : curve.Nonsingular ((gx : F) / 1 ^ 2) ((gy : F) / 1 ^ 3) := by simpa using g_nonsingular
  have hG : G = .some _ _ hg := by
    rw [G]
    obtain ⟨h', he⟩ := Point256.some_congr g_nonsingular (x' := (gx : F) / 1 ^ 2) (y' := (gy : F) / 1 ^ 3) (by simp) (by simp)
    rw [he]
  rw [hG, ← J.rep_toPoint, J.toPoint, h1, h2, h3]
  exact Point256.sum_rep _ _ _ _ _ _ hz' one_ne_zero hxd hn hg

/-- Multiply by the binary digits, giving up on the exceptional cases of `addG`. -/
def J.run : List Bool → J → Option J
  | [], j => some j
  | b :: bits, j =>
    let d := j.dbl
    if b then
      if d.z % p ≠ 0 ∧ msub d.x (gx * d.z ^ 2) ≠ 0 then J.run bits d.addG else none
    else J.run bits d

def bitsVal (bits : List Bool) (k : Nat) : Nat := bits.foldl (fun k b => 2 * k + b.toNat) k

theorem J.run_rep (bits : List Bool) (j r : J) (k : Nat) (hj : j.Rep (k • G)) (h : J.run bits j = some r) : r.Rep (bitsVal bits k • G) := by
  induction bits generalizing j k with
  | nil => cases h; exact hj
  | cons b bits ih =>
    have hd := j.dbl_rep _ hj
    have e : k • G + k • G = (2 * k) • G := by rw [two_mul, add_nsmul]
    rw [e] at hd
    rw [J.run] at h
    cases b with
    | false => exact ih j.dbl (2 * k) hd (by simpa using h)
    | true =>
      simp only [if_true] at h
      split at h
      · rename_i hc
        have := J.addG_rep j.dbl _ hd hc.1 hc.2
        rw [← succ_nsmul] at this
        exact ih _ _ this h
      · cases h

/-- The binary digits of `n - 1` after the leading one. -/
def orderBits : List Bool := (List.range 255).map fun i => (n - 1).testBit (254 - i)

/-- The point is the opposite of the base point. -/
def isNegG : Option J → Bool
  | some r => decide (r.z % p ≠ 0 ∧ msub r.x (gx * r.z ^ 2) = 0 ∧ (r.y + gy * r.z ^ 3) % p = 0)
  | none => false

theorem isNegG_spec {o : Option J} (h : isNegG o = true) :
    ∃ r, o = some r ∧ r.z % p ≠ 0 ∧ msub r.x (gx * r.z ^ 2) = 0 ∧ (r.y + gy * r.z ^ 3) % p = 0 := by
  cases o with
  | none => cases h
  | some r => exact ⟨r, rfl, of_decide_eq_true h⟩

theorem orderCheck : isNegG (J.run orderBits { x := gx, y := gy, z := 1 }) = true := by decide +kernel

theorem orderBits_val : bitsVal orderBits 1 = n - 1 := by decide +kernel

theorem pred_smul_G (k : Nat) (hk : bitsVal orderBits 1 = k) : k • G + G = 0 := by
  obtain ⟨r, hr, hz, hx, hy⟩ := isNegG_spec orderCheck
  have h0 : J.Rep { x := gx, y := gy, z := 1 } (1 • G) := by
    rw [one_nsmul]
    refine ⟨fun h => absurd h (by simp), fun _ => ?_⟩
    exact Point256.some_congr g_nonsingular (by simp) (by simp)
  have hrep := J.run_rep _ _ _ _ h0 hr
  rw [hk] at hrep
  have hz' : (r.z : F) ≠ 0 := by
    rw [Ne, ZMod.natCast_eq_zero_iff]; exact fun hd => hz (Nat.mod_eq_zero_of_dvd hd)
  obtain ⟨hn, he⟩ := hrep.2 hz'
  have hx' : (r.x : F) / (r.z : F) ^ 2 = gx := by
    rw [div_eq_iff (pow_ne_zero 2 hz')]
    have : ((msub r.x (gx * r.z ^ 2) : ℕ) : F) = 0 := by rw [hx]; simp
    rw [msub_cast, sub_eq_zero] at this
    rw [this]; push_cast; rfl
  have hy' : (r.y : F) / (r.z : F) ^ 3 = -gy := by
    rw [div_eq_iff (pow_ne_zero 3 hz')]
    have : ((r.y + gy * r.z ^ 3 : ℕ) : F) = 0 := by rw [ZMod.natCast_eq_zero_iff]; exact Nat.dvd_of_mod_eq_zero hy
    push_cast at this
    linear_combination this
  rw [he, G]
  apply Point.add_of_Y_eq hx'
  rw [Point256.negY_eq, hy']

theorem smul_G_of (k N : Nat) (hk : bitsVal orderBits 1 = k) (hN : k + 1 = N) : N • G = 0 := by
  rw [← hN, succ_nsmul]; exact pred_smul_G k hk

theorem n_smul_G : n • G = 0 := smul_G_of (n - 1) n orderBits_val (by decide)

/-- The base point has order n. -/
theorem addOrderOf_G : addOrderOf G = n := by
  have : Fact (Nat.Prime n) := ⟨n_prime⟩
  exact addOrderOf_eq_prime n_smul_G G_ne_zero

theorem smul_G_inj {a c : Nat} (ha : a < n) (hc : c < n) (h : a • G = c • G) : a = c := by
  have := nsmul_injOn_Iio_addOrderOf (x := G)
  rw [addOrderOf_G] at this
  exact this ha hc h

theorem smul_G_eq_zero {a : Nat} (h : a • G = 0) : n ∣ a := by rw [← addOrderOf_G]; exact addOrderOf_dvd_of_nsmul_eq_zero h

end P256
end Spec

namespace Point256
open Int256

theorem G_rep : Rep G Spec.P256.G := by
  have hz : (G.z).toF = 1 := by show ONE.toF = 1; rw [ONE_eq, toF_ofF]
  refine ⟨?_, ?_, ?_⟩
  · show ONE.Canon
    rw [ONE_eq]; exact canon_ofF 1
  · intro h; rw [hz] at h; exact absurd h one_ne_zero
  · intro _
    have hx : G.x.toF = (Spec.P256.gx : F) := congrArg (Nat.cast) (show G.x.val = Spec.P256.gx by decide +kernel)
    have hy : G.y.toF = (Spec.P256.gy : F) := congrArg (Nat.cast) (show G.y.val = Spec.P256.gy by decide +kernel)
    rw [hz, hx, hy]
    exact some_congr Spec.P256.g_nonsingular (by simp) (by simp)

end Point256
end Husk
