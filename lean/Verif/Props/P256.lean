import Verif.Proofs.P256Scalar
/-! C44-C50: field arithmetic, inversion, constant-time helpers, encodings, the group law and scalar multiplication of src/crypto/p256.rs.
`Int256.val` is the number of the limbs ("value = v[0] + 2^32 v[1] + ...", src/crypto/p256.rs:292); the field and the curve are those of
Verif/Spec/P256.lean. -/

namespace Husk
open Spec.P256 (p p_eq F curve)
open WeierstrassCurve.Affine (Point)
open Int256

/-! ### C44 -/

private theorem res_val (x : F) (k : Nat) (h : x = (k : F)) : (ofF x).val = k % p := by
  rw [val_ofF, h, ZMod.val_natCast]

theorem C44_add (m : Mode) (a b : Int256) (ha : a.val < p) (hb : b.val < p) : ∃ r, a.add m b = .ok r ∧ r.val = (a.val + b.val) % p := by
  refine ⟨ofF (a.toF + b.toF), ?_, ?_⟩
  · conv_lhs => rw [Canon.eq ha, Canon.eq hb]
    exact add_ofF m _ _
  · exact res_val _ _ (by simp [toF])

theorem C44_double (m : Mode) (a : Int256) (ha : a.val < p) : ∃ r, a.double m = .ok r ∧ r.val = 2 * a.val % p := by
  rw [two_mul]; exact C44_add m a a ha ha

theorem C44_sub (m : Mode) (a b : Int256) (ha : a.val < p) (hb : b.val < p) : ∃ r, a.sub m b = .ok r ∧ r.val = (a.val + p - b.val) % p := by
  refine ⟨ofF (a.toF - b.toF), ?_, ?_⟩
  · conv_lhs => rw [Canon.eq ha, Canon.eq hb]
    exact sub_ofF m _ _
  · exact res_val _ _ (by rw [Nat.cast_sub (by omega)]; simp [toF])

/-- `mult` is right for all 256-bit operands, reduced or not. -/
theorem C44_mult (m : Mode) (a b : Int256) : ∃ r, a.mult m b = .ok r ∧ r.val = a.val * b.val % p :=
  ⟨_, mult_eq m a b, res_val _ _ (by simp [toF])⟩

theorem C44_square (m : Mode) (a : Int256) : ∃ r, a.square m = .ok r ∧ r.val = a.val ^ 2 % p := by
  rw [pow_two]; exact C44_mult m a a

theorem C44_reduce_once (m : Mode) (a : Int256) (c : UInt32) (hc : c = 0 ∨ c = 1) (h : a.val + 2 ^ 256 * c.toNat < 2 * p) :
    ∃ r, a.reduceOnce m c = .ok r ∧ r.val = (a.val + 2 ^ 256 * c.toNat) % p := by
  obtain ⟨r, hr, hv⟩ := reduceOnce_spec m a c hc (by have := p_eq; omega)
  refine ⟨r, hr, ?_⟩
  rw [hv]
  split
  · rw [Nat.mod_eq_of_lt (by assumption)]
  · rw [Nat.mod_eq_sub_mod (by omega), Nat.mod_eq_of_lt (by omega)]

/-- Halving: the reduced element whose double is the operand. -/
theorem C44_divide_by_2 (a : Int256) (ha : a.val < p) : a.divideBy2.val < p ∧ 2 * a.divideBy2.val % p = a.val := by
  have h := divideBy2_spec a
  rw [h]
  split
  · refine ⟨by omega, ?_⟩
    rw [Nat.mod_eq_of_lt (by omega)]; omega
  · have hp := p_eq
    refine ⟨by omega, ?_⟩
    have e : 2 * ((a.val + p) / 2) = a.val + p := by omega
    rw [e, Nat.add_mod_right, Nat.mod_eq_of_lt ha]

/-- Concrete operands that exercise the carries: p - 1 twice. -/
example : ∃ a b : Int256, a.val < p ∧ b.val < p ∧ p < a.val + b.val ∧ a.val % 2 = 0 := by
  have h : (ofNat (p - 1)).val = p - 1 := val_ofNat (by decide)
  exact ⟨ofNat (p - 1), ofNat (p - 1), by rw [h]; decide⟩

/-! ### C45 -/

theorem C45_inverse (m : Mode) (a : Int256) (ha : a.val < p) (h0 : a.val ≠ 0) :
    ∃ r, a.inverse m = .ok r ∧ r.val < p ∧ r.val * a.val % p = 1 := by
  refine ⟨_, inverse_eq m a, canon_ofF _, ?_⟩
  have hne : a.toF ≠ 0 := by
    rw [toF, Ne, ZMod.natCast_eq_zero_iff]
    exact fun hd => h0 (Nat.eq_zero_of_dvd_of_lt hd ha)
  have : (((ofF a.toF⁻¹).val * a.val : ℕ) : F) = ((1 : ℕ) : F) := by
    have e1 : ((ofF a.toF⁻¹).val : F) = a.toF⁻¹ := toF_ofF _
    have e2 : (a.val : F) = a.toF := rfl
    push_cast
    rw [e1, e2, inv_mul_cancel₀ hne]
  rw [ZMod.natCast_eq_natCast_iff'] at this
  rw [this]
  exact Nat.mod_eq_of_lt (by have := p_eq; omega)

theorem C45_inverse_zero (m : Mode) : ZERO.inverse m = .ok ZERO := by
  rw [inverse_eq, ZERO_eq, toF_ofF, inv_zero]

example : ∃ a : Int256, a.val < p ∧ a.val ≠ 0 ∧ a.val ≠ 1 := ⟨Point256.B, by decide +kernel⟩

/-! ### C46 -/

theorem C46_compare (a b : Int256) : (a.compare b = 0 ↔ a = b) ∧ (a.compare b = 1 ↔ a ≠ b) := by
  rw [compare_eq]
  by_cases h : a = b <;> simp [h]

theorem C46_choose (a b : Int256) : choose 0 a b = a ∧ choose 1 a b = b := ⟨choose_zero a b, choose_one a b⟩

theorem C46_choose_point (a b : Point256) : Point256.choose 0 a b = a ∧ Point256.choose 1 a b = b :=
  ⟨Point256.choose_zero a b, Point256.choose_one a b⟩

example : ONE.compare ZERO = 1 ∧ P256.compare P256 = 0 ∧ (ofNat (2 ^ 255)).compare ZERO = 1 := by decide +kernel

/-! ### C47 -/

theorem C47_roundtrip (a : Int256) : fromBytes a.toBytes = some a := fromBytes_toBytes a

theorem C47_big_endian (a : Int256) : a.toBytes.length = 32 ∧ beNat a.toBytes = a.val := ⟨toBytes_length a, beNat_toBytes a⟩

theorem C47_accepts_32 (b : Bytes) : (fromBytes b).isSome ↔ b.length = 32 := by
  constructor
  · intro h
    by_contra hn
    rw [fromBytes_none b hn] at h
    cases h
  · intro h
    obtain ⟨a, ha, _⟩ := fromBytes_some b h
    rw [ha]; rfl

theorem C47_inverse (b : Bytes) (a : Int256) (h : fromBytes b = some a) : a.toBytes = b ∧ a.val = beNat b := by
  have hl : b.length = 32 := (C47_accepts_32 b).mp (by rw [h]; rfl)
  obtain ⟨c, hc, h1, h2⟩ := fromBytes_some b hl
  rw [h] at hc; cases hc
  exact ⟨h1, h2⟩

example : fromBytes ((List.range 32).map fun i => UInt8.ofNat (7 * i)) ≠ none := by decide +kernel

/-! ### C48 -/

/-- `(X, Y)` lies on P-256 (as numbers modulo p). -/
def OnCurve (X Y : Nat) : Prop := (Y ^ 2 + 3 * X) % p = (X ^ 3 + Spec.P256.b) % p

instance (X Y : Nat) : Decidable (OnCurve X Y) := by unfold OnCurve; infer_instance

theorem onCurve_iff (X Y : Nat) : OnCurve X Y ↔ (Y : F) ^ 2 + 3 * (X : F) = (X : F) ^ 3 + (Spec.P256.b : F) := by
  rw [OnCurve, ← ZMod.natCast_eq_natCast_iff']
  push_cast
  rfl

theorem onCurve_nonsingular (X Y : Nat) : OnCurve X Y ↔ curve.Nonsingular (X : F) (Y : F) := by
  rw [onCurve_iff, Spec.P256.nonsingular_iff]
  constructor <;> intro h <;> linear_combination h

theorem B_eq : Point256.B = ofF (Spec.P256.b : F) := by rw [← toF_B]; exact canon_B.eq

/-- The curve check on a reduced `x` (any `y`). -/
theorem checkCurve_canon (m : Mode) (x y : Int256) (hx : x.val < p) :
    NPoint256.checkCurve m x y = .ok (if OnCurve x.val y.val then some { x, y } else none) := by
  obtain ⟨c, hc⟩ : ∃ c, x.toF = c := ⟨_, rfl⟩
  have hxc := Canon.eq hx
  rw [hc] at hxc
  simp only [NPoint256.checkCurve, square_eq, mult_eq, Res.bind_ok, hxc, double_ofF, add_ofF, toF_ofF, B_eq, compare_ofF]
  rw [← hxc]
  have e : OnCurve x.val y.val ↔ y.toF ^ 2 + (c + c + c) = c ^ 2 * c + (Spec.P256.b : F) := by
    rw [onCurve_iff, ← hc]
    simp only [toF]
    constructor <;> intro h <;> linear_combination h
  by_cases h : y.toF ^ 2 + (c + c + c) = c ^ 2 * c + (Spec.P256.b : F)
  · rw [if_pos h, if_pos (e.mpr h)]; rfl
  · rw [if_neg h, if_neg (fun h' => h (e.mp h'))]; rfl

theorem fromUncompressed_parts (m : Mode) (data : Bytes) :
    ((data.length ≠ 65 ∨ data.getD 0 0 ≠ 4) ∧ NPoint256.fromUncompressedBytes m data = .ok none) ∨
    ∃ x y : Int256, data = 4 :: (x.toBytes ++ y.toBytes) ∧ NPoint256.fromUncompressedBytes m data = NPoint256.checkCurve m x y := by
  by_cases hl : data.length = 65
  · by_cases h4 : data.getD 0 0 = 4
    · right
      obtain ⟨x, hx, hx1, _⟩ := fromBytes_some ((data.take 33).drop 1) (by simp [hl])
      obtain ⟨y, hy, hy1, _⟩ := fromBytes_some ((data.take 65).drop 33) (by simp [hl])
      refine ⟨x, y, ?_, ?_⟩
      · match data, hl, h4 with
        | d :: l, hl, h4 =>
          simp only [List.getD_cons_zero] at h4
          subst h4
          simp only [List.take_succ_cons, List.drop_succ_cons, List.drop_zero] at hx1 hy1
          rw [hx1, hy1]
          simp only [List.length_cons] at hl
          congr 1
          rw [List.take_of_length_le (by omega : l.length ≤ 64)]
          exact (List.take_append_drop 32 l).symm
      · rw [NPoint256.fromUncompressedBytes, if_neg (by simp [hl]), if_neg (not_not.mpr h4), hx, hy]
    · left
      refine ⟨.inr h4, ?_⟩
      rw [NPoint256.fromUncompressedBytes, if_neg (by simp [hl]), if_pos h4]; rfl
  · left
    refine ⟨.inl hl, ?_⟩
    rw [NPoint256.fromUncompressedBytes, if_pos (by simpa using hl)]; rfl

theorem fromUncompressed_of (m : Mode) (x y : Int256) :
    NPoint256.fromUncompressedBytes m (4 :: (x.toBytes ++ y.toBytes)) = NPoint256.checkCurve m x y := by
  rcases fromUncompressed_parts m (4 :: (x.toBytes ++ y.toBytes)) with ⟨h, _⟩ | ⟨x', y', he, h⟩
  · simp [toBytes_length] at h
  · rw [h]
    simp only [List.cons.injEq, true_and] at he
    obtain ⟨e1, e2⟩ := List.append_inj he (by rw [toBytes_length, toBytes_length])
    have e3 : x = x' := by apply val_inj; rw [← beNat_toBytes, ← beNat_toBytes, e1]
    have e4 : y = y' := by apply val_inj; rw [← beNat_toBytes, ← beNat_toBytes, e2]
    rw [e3, e4]

/-- Full statement of C48: `from_uncompressed_bytes` accepts `data` iff it is `04 || X || Y` with `X, Y < p` on the curve, and returns that point. It
is false (see below), so only its parts are proved. -/
def DecodesExactlyTheCurve (m : Mode) : Prop :=
  ∀ data : Bytes, ∃ r, NPoint256.fromUncompressedBytes m data = .ok r ∧
    ∀ q, r = some q ↔ (data = 4 :: (q.x.toBytes ++ q.y.toBytes) ∧ q.x.val < p ∧ q.y.val < p ∧ OnCurve q.x.val q.y.val)

/-- Every canonical encoding of a curve point is accepted, and the point is the one encoded. -/
theorem C48_accepts_curve_points (m : Mode) (X Y : Nat) (hX : X < p) (hY : Y < p) (h : OnCurve X Y) :
    ∃ q, NPoint256.fromUncompressedBytes m (4 :: (beBytes 32 X ++ beBytes 32 Y)) = .ok (some q) ∧ q.x.val = X ∧ q.y.val = Y ∧
      q.toUncompressedBytes = 4 :: (beBytes 32 X ++ beBytes 32 Y) := by
  have hp := p_eq
  have vx : (ofNat X).val = X := val_ofNat (by omega)
  have vy : (ofNat Y).val = Y := val_ofNat (by omega)
  refine ⟨{ x := ofNat X, y := ofNat Y }, ?_, vx, vy, ?_⟩
  · have := fromUncompressed_of m (ofNat X) (ofNat Y)
    rw [toBytes_eq, toBytes_eq, vx, vy] at this
    rw [this, checkCurve_canon m _ _ (by rw [vx]; exact hX), vx, vy, if_pos h]
  · rw [NPoint256.toUncompressedBytes, toBytes_eq, toBytes_eq, vx, vy]

/-- Strings of the wrong length or format are rejected, without a panic. -/
theorem C48_rejects_malformed (m : Mode) (data : Bytes) (h : data.length ≠ 65 ∨ data.getD 0 0 ≠ 4) :
    NPoint256.fromUncompressedBytes m data = .ok none := by
  rcases fromUncompressed_parts m data with ⟨_, h'⟩ | ⟨x, y, he, _⟩
  · exact h'
  · rw [he] at h; simp [toBytes_length] at h

/-- Whatever is accepted encodes back to the same bytes. -/
theorem C48_reencodes (m : Mode) (data : Bytes) (q : NPoint256) (h : NPoint256.fromUncompressedBytes m data = .ok (some q)) :
    q.toUncompressedBytes = data := by
  rcases fromUncompressed_parts m data with ⟨_, h'⟩ | ⟨x, y, he, h'⟩
  · rw [h] at h'; cases h'
  · rw [h] at h'
    have : q = { x, y } := by
      simp only [NPoint256.checkCurve] at h'
      have h' := h'.symm
      simp only [Res.bind_eq_ok] at h'
      obtain ⟨_, _, _, _, _, _, _, _, _, _, _, _, _, _, h'⟩ := h'
      split at h'
      · cases h'
      · cases h'; rfl
    rw [this, he, NPoint256.toUncompressedBytes]

/-- Partial C48 (for x-coordinates below p): no panic, and acceptance is exactly being on the curve. Missing: x-coordinates in [p, 2^256). -/
theorem C48_exact_for_reduced_x_partial (m : Mode) (data : Bytes) (hx : beNat ((data.take 33).drop 1) < p) :
    ∃ r, NPoint256.fromUncompressedBytes m data = .ok r ∧
      ∀ q, r = some q ↔ (data = 4 :: (q.x.toBytes ++ q.y.toBytes) ∧ OnCurve q.x.val q.y.val) := by
  rcases fromUncompressed_parts m data with ⟨hb, h'⟩ | ⟨x, y, he, h'⟩
  · refine ⟨none, h', fun q => ⟨fun h => (by cases h), fun ⟨h, _⟩ => ?_⟩⟩
    rw [h] at hb; simp [toBytes_length] at hb
  · have hxp : x.val < p := by
      rw [he] at hx
      simp only [List.take_succ_cons, List.drop_succ_cons, List.drop_zero] at hx
      rw [List.take_left' (toBytes_length x), beNat_toBytes] at hx
      exact hx
    refine ⟨_, h'.trans (checkCurve_canon m x y hxp), fun q => ?_⟩
    constructor
    · intro h
      split at h
      · cases h; exact ⟨he, by assumption⟩
      · cases h
    · rintro ⟨hd, ho⟩
      rw [he] at hd
      simp only [List.cons.injEq, true_and] at hd
      obtain ⟨e1, e2⟩ := List.append_inj hd (by rw [toBytes_length, toBytes_length])
      have e3 : x = q.x := by apply val_inj; rw [← beNat_toBytes, ← beNat_toBytes, e1]
      have e4 : y = q.y := by apply val_inj; rw [← beNat_toBytes, ← beNat_toBytes, e2]
      rw [e3, e4, if_pos ho]

/-! The check as it is for all 256-bit numbers, on `Nat`. -/

def addN (m : Mode) (a b : Nat) : Res Nat :=
  if a + b < 2 ^ 256 + p then .ok (if a + b < p then a + b else a + b - p)
  else match m with | .debug => .panic | .release => .ok (a + b - 2 ^ 256)

theorem add_N (m : Mode) (a b : Int256) : a.add m b = (addN m a.val b.val).bind fun r => .ok (ofNat r) := by
  rw [addN.eq_def]
  split
  · rename_i h
    obtain ⟨r, hr, hv⟩ := add_spec m a b h
    show _ = Res.ok (ofNat _)
    rw [hr, ← hv, ofNat_val]
  · rename_i h
    rw [add_overflow m a b (by omega)]
    cases m <;> rfl

/-- `lhs` and `rhs` of the check for X and Y. -/
def checkCurveN (m : Mode) (X Y : Nat) : Res Bool :=
  (addN m X X).bind fun x2 => (addN m x2 X).bind fun x3 => (addN m (Y * Y % p) x3).bind fun lhs =>
    .ok (decide (lhs = (X * X % p * X % p + Spec.P256.b) % p))

theorem addN_lt {m : Mode} {a b r : Nat} (ha : a < 2 ^ 256) (hb : b < 2 ^ 256) (h : addN m a b = .ok r) : r < 2 ^ 256 := by
  rw [addN.eq_def] at h
  have hp := p_eq
  split at h
  · have h := Res.ok.inj h
    split at h <;> omega
  · cases m
    · cases h
    · have h := Res.ok.inj h
      omega

/-- The behaviour of the curve check on all pairs of 256-bit numbers. -/
theorem C48_check (m : Mode) (x y : Int256) :
    NPoint256.checkCurve m x y = (checkCurveN m x.val y.val).bind fun ok => .ok (if ok then some { x, y } else none) := by
  obtain ⟨y2, hy2, vy2⟩ := C44_square m y
  obtain ⟨xx, hxx, vxx⟩ := C44_square m x
  obtain ⟨x3, hx3, vx3⟩ := C44_mult m xx x
  have hp : 0 < p := by have := p_eq; omega
  have hB : Point256.B.val = Spec.P256.b := by decide +kernel
  obtain ⟨rhs, hrhs, vrhs⟩ := C44_add m x3 Point256.B (by rw [vx3]; exact Nat.mod_lt _ hp) canon_B
  simp only [NPoint256.checkCurve, hy2, hxx, hx3, hrhs, Res.bind_ok, double]
  rw [add_N, checkCurveN]
  cases h1 : addN m x.val x.val with
  | err k => rfl
  | panic => rfl
  | diverge => rfl
  | ok a1 =>
    have l1 := addN_lt x.val_lt x.val_lt h1
    show ((ofNat a1).add m x).bind _ = ((addN m a1 x.val).bind _).bind _
    rw [add_N, val_ofNat l1]
    cases h2 : addN m a1 x.val with
    | err k => rfl
    | panic => rfl
    | diverge => rfl
    | ok a2 =>
      have l2 := addN_lt l1 x.val_lt h2
      show (y2.add m (ofNat a2)).bind _ = ((addN m (y.val * y.val % p) a2).bind _).bind _
      rw [add_N, val_ofNat l2, vy2, pow_two]
      cases h3 : addN m (y.val * y.val % p) a2 with
      | err k => rfl
      | panic => rfl
      | diverge => rfl
      | ok a3 =>
        have l3 := addN_lt (lt_trans (Nat.mod_lt _ hp) (by decide)) l2 h3
        show Res.ok _ = Res.ok _
        congr 1
        have hr : rhs.val = (x.val * x.val % p * x.val % p + Spec.P256.b) % p := by rw [vrhs, vx3, vxx, hB, pow_two]
        by_cases he : a3 = rhs.val
        · have : ofNat a3 = rhs := by rw [he, ofNat_val]
          rw [this, (C46_compare rhs rhs).1.mpr rfl, ← hr, he]
          simp
        · have : ofNat a3 ≠ rhs := by intro hc; apply he; rw [← hc, val_ofNat l3]
          rw [(C46_compare _ rhs).2.mpr this, ← hr]
          simp [he]

theorem addN_debug {a b r : Nat} (h : addN .debug a b = .ok r) : (r : F) = (a : F) + (b : F) := by
  rw [addN.eq_def] at h
  split at h
  · cases h
    split
    · push_cast; rfl
    · rw [Nat.cast_sub (by omega)]; simp
  · cases h

theorem checkCurveN_debug {X Y : Nat} (h : checkCurveN .debug X Y = .ok true) : OnCurve X Y := by
  rw [checkCurveN] at h
  rw [onCurve_iff]
  obtain ⟨x2, h2, h⟩ := Res.bind_eq_ok.mp h
  obtain ⟨x3, h3, h⟩ := Res.bind_eq_ok.mp h
  obtain ⟨l, hl, h⟩ := Res.bind_eq_ok.mp h
  have f1 := addN_debug h2
  have f2 := addN_debug h3
  have f3 := addN_debug hl
  simp only [Res.ok.injEq, decide_eq_true_eq] at h
  have f4 : (l : F) = (X : F) * X * X + (Spec.P256.b : F) := by
    rw [h, ZMod.natCast_mod, Nat.cast_add, ZMod.natCast_mod, Nat.cast_mul, ZMod.natCast_mod, Nat.cast_mul]
  rw [ZMod.natCast_mod, Nat.cast_mul, f2, f1, f4] at f3
  linear_combination -f3

/-- In a debug build whatever is accepted is on the curve (as numbers modulo p). Missing for C48: release builds, and canonical coordinates. -/
theorem C48_debug_accepts_only_curve_partial (data : Bytes) (q : NPoint256)
    (h : NPoint256.fromUncompressedBytes .debug data = .ok (some q)) : OnCurve q.x.val q.y.val := by
  rcases fromUncompressed_parts .debug data with ⟨_, h'⟩ | ⟨x, y, he, h'⟩
  · rw [h] at h'; cases h'
  · rw [h, C48_check] at h'
    obtain ⟨ok, hok, h'⟩ := Res.bind_eq_ok.mp h'.symm
    cases ok with
    | false => cases h'
    | true =>
      cases h'
      exact checkCurveN_debug hok

/-- The decoder accepts a non-canonical coordinate: X = p, Y² = b. -/
def nonCanonical : Bytes := 4 :: (beBytes 32 p ++ beBytes 32 0x66485c780e2f83d72433bd5d84a06bb6541c2af31dae871728bf856a174f93f4)

theorem fromUncompressed_nat (m : Mode) (X Y : Nat) (hX : X < 2 ^ 256) (hY : Y < 2 ^ 256) (h : checkCurveN m X Y = .ok true) :
    NPoint256.fromUncompressedBytes m (4 :: (beBytes 32 X ++ beBytes 32 Y)) = .ok (some { x := ofNat X, y := ofNat Y }) := by
  have vx : (ofNat X).val = X := val_ofNat hX
  have vy : (ofNat Y).val = Y := val_ofNat hY
  have := fromUncompressed_of m (ofNat X) (ofNat Y)
  rw [toBytes_eq, toBytes_eq, vx, vy, C48_check, vx, vy, h] at this
  exact this

theorem C48_accepts_non_canonical (m : Mode) : ∃ q, NPoint256.fromUncompressedBytes m nonCanonical = .ok (some q) ∧ ¬ q.x.val < p := by
  refine ⟨_, fromUncompressed_nat m _ _ (by decide) (by decide) ?_, ?_⟩
  · cases m <;> decide +kernel
  · show ¬ (ofNat p).val < p
    rw [val_ofNat (by decide)]; exact lt_irrefl _

/-- A release build accepts a point that is not on the curve. -/
def offCurve : Bytes := 4 :: (beBytes 32 (2 ^ 256 - 2) ++ beBytes 32 0xd0aa39e2ffc2fc9571d366ff266028bbe7a4d043e68685c2f809b80ca4c646d)

theorem C48_release_accepts_off_curve :
    ∃ q, NPoint256.fromUncompressedBytes .release offCurve = .ok (some q) ∧ ¬ OnCurve q.x.val q.y.val := by
  refine ⟨_, fromUncompressed_nat .release _ _ (by decide) (by decide) (by decide +kernel), ?_⟩
  show ¬ OnCurve (ofNat (2 ^ 256 - 2)).val (ofNat 0xd0aa39e2ffc2fc9571d366ff266028bbe7a4d043e68685c2f809b80ca4c646d).val
  rw [val_ofNat (by decide), val_ofNat (by decide)]
  decide +kernel

theorem fromUncompressed_beBytes (m : Mode) (X Y : Nat) (hX : X < 2 ^ 256) (hY : Y < 2 ^ 256) : NPoint256.fromUncompressedBytes m (4 :: (beBytes 32 X ++ beBytes 32 Y)) =
    (checkCurveN m X Y).bind fun ok => .ok (if ok then some { x := ofNat X, y := ofNat Y } else none) := by
  have vx : (ofNat X).val = X := val_ofNat hX
  have vy : (ofNat Y).val = Y := val_ofNat hY
  have := fromUncompressed_of m (ofNat X) (ofNat Y)
  rwa [toBytes_eq, toBytes_eq, vx, vy, C48_check, vx, vy] at this

/-- The arithmetic of the window, for any modulus `P` of the range `N`. -/
theorem window_upper {N P X : Nat} (hP : P ≤ N) (h : N + 2 * P ≤ 3 * X) (hX : X < N) (h2 : X + X < N + P) :
    ¬ X + X < P ∧ ¬ X + X - P + X < N + P := by omega

theorem window_reduced {P X x2 x3 yy l : Nat} (hx2 : x2 = if X + X < P then X + X else X + X - P)
    (hx3 : x3 = if x2 + X < P then x2 + X else x2 + X - P) (hl : l = if yy + x3 < P then yy + x3 else yy + x3 - P) (hy : yy < P) :
    l < P ↔ (X < P ∨ yy + 3 * (X - P) < P) := by
  rw [hl, hx3, hx2]
  split <;> split <;> split <;> omega

theorem window_lower {N P X x2 : Nat} (hP : P ≤ N) (h : 3 * X < N + 2 * P) (hx2 : x2 = if X + X < P then X + X else X + X - P) :
    X + X < N + P ∧ x2 + X < N + P := by
  rw [hx2]
  split <;> omega

/-- In the window every debug build panics: an addition of the check leaves the range for which `reduce_once` is made. -/
theorem checkCurveN_debug_panics (X Y : Nat) (hX : 2 ^ 256 + 2 * p ≤ 3 * X) (hX' : X < 2 ^ 256) : checkCurveN .debug X Y = .panic := by
  have hp := p_eq
  rw [checkCurveN]
  by_cases h : X + X < 2 ^ 256 + p
  · obtain ⟨n1, n2⟩ := window_upper (by omega) hX hX' h
    obtain ⟨x2, hx2⟩ : ∃ x2, x2 = X + X - p := ⟨_, rfl⟩
    have h1 : addN .debug X X = .ok x2 := by
      rw [addN, if_pos h, if_neg n1, hx2]
    have h2 : addN .debug x2 X = .panic := by
      rw [addN, if_neg (by rw [hx2]; exact n2)]
    rw [h1]
    show (addN .debug x2 X).bind _ = _
    rw [h2]
    rfl
  · have h1 : addN .debug X X = .panic := by rw [addN, if_neg h]
    rw [h1]
    rfl

/-- What a debug build accepts of the x-coordinates below the window: besides the equation of the curve, the left side of the check must
come out reduced, which it need not if X is not. -/
def DebugAccepts (X Y : Nat) : Prop := OnCurve X Y ∧ (X < p ∨ Y * Y % p + 3 * (X - p) < p)

instance (X Y : Nat) : Decidable (DebugAccepts X Y) := by unfold DebugAccepts; infer_instance

theorem checkCurveN_debug_returns (X Y : Nat) (hX : 3 * X < 2 ^ 256 + 2 * p) (hX' : X < 2 ^ 256) :
    checkCurveN .debug X Y = .ok (decide (DebugAccepts X Y)) := by
  have hp := p_eq
  have hadd : ∀ a b, a + b < 2 ^ 256 + p → addN .debug a b = .ok (if a + b < p then a + b else a + b - p) := fun a b h => by rw [addN, if_pos h]
  have hpos : 0 < p := by omega
  have hY : Y * Y % p < p := Nat.mod_lt _ hpos
  obtain ⟨yy, hyy⟩ : ∃ yy, yy = Y * Y % p := ⟨_, rfl⟩
  obtain ⟨x2, hx2⟩ : ∃ x2, x2 = if X + X < p then X + X else X + X - p := ⟨_, rfl⟩
  obtain ⟨x3, hx3⟩ : ∃ x3, x3 = if x2 + X < p then x2 + X else x2 + X - p := ⟨_, rfl⟩
  obtain ⟨n1, n2⟩ := window_lower (by omega) hX hx2
  have h1 : addN .debug X X = .ok x2 := by rw [hadd X X n1, hx2]
  have h2 : addN .debug x2 X = .ok x3 := by rw [hadd x2 X n2, hx3]
  have h3 : x3 < 2 ^ 256 := addN_lt (addN_lt hX' hX' h1) hX' h2
  rw [← hyy] at hY
  obtain ⟨l, hl⟩ : ∃ l, l = if yy + x3 < p then yy + x3 else yy + x3 - p := ⟨_, rfl⟩
  have h4 : addN .debug (Y * Y % p) x3 = .ok l := by rw [← hyy, hadd yy x3 (by omega), hl]
  have hc : checkCurveN .debug X Y = .ok (decide (l = (X * X % p * X % p + Spec.P256.b) % p)) := by
    rw [checkCurveN, h1]
    show (addN .debug x2 X).bind _ = _
    rw [h2]
    show (addN .debug (Y * Y % p) x3).bind _ = _
    rw [h4]
    rfl
  have hlt : l < p ↔ (X < p ∨ yy + 3 * (X - p) < p) := window_reduced hx2 hx3 hl hY
  rw [hc]
  congr 1
  rw [decide_eq_decide]
  constructor
  · intro h
    refine ⟨checkCurveN_debug (by rw [hc, decide_eq_true h]), ?_⟩
    rw [← hyy]
    exact hlt.mp (by rw [h]; exact Nat.mod_lt _ hpos)
  · rintro ⟨ho, hr⟩
    rw [← hyy] at hr
    have hl' := hlt.mpr hr
    have f1 := addN_debug h1
    have f2 := addN_debug h2
    have f3 := addN_debug h4
    rw [onCurve_iff] at ho
    have f4 : ((((X * X % p * X % p + Spec.P256.b) % p : Nat)) : F) = (X : F) * X * X + (Spec.P256.b : F) := by
      rw [ZMod.natCast_mod, Nat.cast_add, ZMod.natCast_mod, Nat.cast_mul, ZMod.natCast_mod, Nat.cast_mul]
    rw [ZMod.natCast_mod, Nat.cast_mul, f2, f1] at f3
    have f5 : (l : F) = (((X * X % p * X % p + Spec.P256.b) % p : Nat) : F) := by
      rw [f4, f3]
      linear_combination ho
    rw [ZMod.natCast_eq_natCast_iff'] at f5
    rwa [Nat.mod_eq_of_lt hl', Nat.mod_mod] at f5

/-- A debug build on an encoding of 65 bytes that begins with 4: it panics exactly if three times X reaches `2 ^ 256 + 2 * p`; otherwise it
accepts exactly the points on the curve, but for non-canonical X whose left side is not reduced. -/
theorem C48_debug_exact (X Y : Nat) (hX : X < 2 ^ 256) (hY : Y < 2 ^ 256) :
    NPoint256.fromUncompressedBytes .debug (4 :: (beBytes 32 X ++ beBytes 32 Y)) =
      if 2 ^ 256 + 2 * p ≤ 3 * X then .panic else .ok (if DebugAccepts X Y then some { x := ofNat X, y := ofNat Y } else none) := by
  rw [fromUncompressed_beBytes .debug X Y hX hY]
  by_cases h : 2 ^ 256 + 2 * p ≤ 3 * X
  · rw [if_pos h, checkCurveN_debug_panics X Y h hX]
    rfl
  · rw [if_neg h, checkCurveN_debug_returns X Y (by omega) hX]
    show Res.ok _ = Res.ok _
    simp only [decide_eq_true_eq]

/-- A debug build panics on every x-coordinate in the upper window. -/
theorem C48_debug_panics (X Y : Nat) (hX : 2 ^ 256 + 2 * p ≤ 3 * X) (hX' : X < 2 ^ 256) :
    NPoint256.fromUncompressedBytes .debug (4 :: (beBytes 32 X ++ beBytes 32 Y)) = .panic := by
  have hy : beBytes 32 Y = beBytes 32 (Y % 2 ^ 256) := by
    have h1 : beNat (beBytes 32 Y) = beNat (beBytes 32 (Y % 2 ^ 256)) := by
      rw [beNat_beBytes, beNat_beBytes]
      show Y % 2 ^ 256 = Y % 2 ^ 256 % 2 ^ 256
      rw [Nat.mod_mod]
    exact beNat_inj (by simp) h1
  rw [hy, fromUncompressed_beBytes .debug _ _ hX' (Nat.mod_lt _ (by decide)), checkCurveN_debug_panics X _ hX hX']
  rfl

example : ∃ X, 2 ^ 256 + 2 * p ≤ 3 * X ∧ X < 2 ^ 256 := ⟨2 ^ 256 - 1, by decide +kernel⟩

/-- So the full statement fails in both build modes. -/
theorem C48_not_exact (m : Mode) : ¬ DecodesExactlyTheCurve m := by
  intro h
  obtain ⟨r, hr, hq⟩ := h nonCanonical
  obtain ⟨q, hq', hn⟩ := C48_accepts_non_canonical m
  rw [hq'] at hr
  cases hr
  exact hn ((hq q).mp rfl).2.1

/-- The base point's encoding is accepted. -/
example : OnCurve Spec.P256.gx Spec.P256.gy ∧ Spec.P256.gx < p ∧ Spec.P256.gy < p := by decide +kernel

/-! ### C49 -/

/-- Every accepted point with coordinates on the curve is represented by `to_point`. -/
theorem toPoint_rep (q : NPoint256) (h : OnCurve q.x.val q.y.val) :
    ∃ hn : curve.Nonsingular q.x.toF q.y.toF, q.toPoint.Rep (.some _ _ hn) := by
  have hn := (onCurve_nonsingular _ _).mp h
  refine ⟨hn, ?_⟩
  have hz : q.toPoint.z.toF = 1 := by show ONE.toF = 1; rw [ONE_eq, toF_ofF]
  refine ⟨?_, ?_, ?_⟩
  · show ONE.Canon
    rw [ONE_eq]; exact canon_ofF 1
  · intro h; rw [hz] at h; exact absurd h one_ne_zero
  · intro _
    rw [hz]
    exact Point256.some_congr hn (by simp [NPoint256.toPoint, toF]) (by simp [NPoint256.toPoint, toF])

theorem C49_add (m : Mode) (q r : Point256) (P Q : curve.Point) (hq : q.Rep P) (hr : r.Rep Q) :
    ∃ s, q.add m r = .ok s ∧ s.Rep (P + Q) := Point256.add_rep m q r P Q hq hr

theorem C49_double (m : Mode) (q : Point256) (P : curve.Point) (hq : q.Rep P) : ∃ s, q.double m = .ok s ∧ s.Rep (P + P) :=
  Point256.double_rep m q P hq

/-- `normalize` returns the reduced affine coordinates of the represented point. -/
theorem C49_normalize (m : Mode) (q : Point256) (x y : F) (h : curve.Nonsingular x y) (hq : q.Rep (.some x y h)) :
    ∃ r, q.normalize m = .ok r ∧ r.x.val < p ∧ r.y.val < p ∧ r.x.toF = x ∧ r.y.toF = y := by
  refine ⟨_, Point256.normalize_eq m q, canon_ofF _, canon_ofF _, ?_⟩
  have hz : q.z.toF ≠ 0 := fun hc => Point.some_ne_zero h (hq.2.1 hc)
  obtain ⟨hn, he⟩ := hq.2.2 hz
  simp only [Point.some.injEq] at he
  rw [toF_ofF, toF_ofF]
  exact ⟨he.1.symm, he.2.symm⟩

/-- Infinity has no affine coordinates; `normalize` returns (0, 0). -/
theorem C49_normalize_infinity (m : Mode) (q : Point256) (hq : q.Rep 0) : q.normalize m = .ok { x := ZERO, y := ZERO } := by
  have hz : q.z.toF = 0 := by
    by_contra hc
    obtain ⟨hn, he⟩ := hq.2.2 hc
    exact Point.some_ne_zero hn he.symm
  rw [Point256.normalize_eq, hz, ZERO_eq]
  simp

/-- Representations of one point are equivalent exactly as projective coordinates: the represented point is determined by the coordinates. -/
theorem C49_rep_unique (q : Point256) (P Q : curve.Point) (hP : q.Rep P) (hQ : q.Rep Q) : P = Q := by
  by_cases hz : q.z.toF = 0
  · rw [hP.2.1 hz, hQ.2.1 hz]
  · obtain ⟨h, rfl⟩ := hP.2.2 hz
    obtain ⟨h', rfl⟩ := hQ.2.2 hz
    rfl

/-- The hypotheses hold of the base point (and of its multiples, opposite pairs and infinity). -/
example : Point256.G.Rep Spec.P256.G ∧ Point256.INFTY.Rep 0 ∧ Spec.P256.G ≠ 0 := ⟨Point256.G_rep, Point256.rep_infty, Spec.P256.G_ne_zero⟩

/-! ### C50 -/

/-- Full statement of C50 (false, see below). -/
def MultipliesByScalar (m : Mode) : Prop :=
  ∀ (q : Point256) (P : curve.Point) (n : Int256), q.Rep P → ∃ r, q.multScalar m n = .ok r ∧ r.Rep (n.val • P)

theorem effective_sum (n : Int256) : Point256.effective n = ∑ i ∈ Finset.range 7, (n.val / 2 ^ (32 * i)) % 256 * 256 ^ i := by
  have step : ∀ (a : UInt32) (l : List UInt32) (k : Nat), lval (a :: l) / 2 ^ (32 * (k + 1)) = lval l / 2 ^ (32 * k) := by
    intro a l k
    have ha := a.toNat_lt
    rw [pow32, ← Nat.div_div_eq_div_mul, lval]
    congr 1
    omega
  have low : ∀ (a : UInt32) (l : List UInt32), lval (a :: l) / 2 ^ (32 * 0) % 256 = a.toNat % 256 := by
    intro a l
    rw [lval]; omega
  obtain ⟨v, hv⟩ := n
  match v, hv with
  | [a, b, c, d, e, f, g, h], _ =>
    simp only [Point256.effective, val, List.getD_cons_zero, List.getD_cons_succ, Finset.sum_range_succ, Finset.sum_range_zero]
    iterate 21 rw [step]
    iterate 7 rw [low]
    ring

/-- What `mult_scalar` computes: the loops `for i in (0..7) … for j in (0..8)` look at the low byte of the seven lowest 32-bit limbs. -/
theorem C50_effective_scalar (m : Mode) (q : Point256) (P : curve.Point) (hq : q.Rep P) (n : Int256) :
    ∃ r, q.multScalar m n = .ok r ∧
      r.Rep ((∑ i ∈ Finset.range 7, (n.val / 2 ^ (32 * i)) % 256 * 256 ^ i) • P) := by
  obtain ⟨r, hr, hrep⟩ := Point256.multScalar_rep m q P hq n
  refine ⟨r, hr, ?_⟩
  rw [← effective_sum]
  exact hrep

/-- Partial C50: right for scalars below 256. -/
theorem C50_mult_scalar_partial (m : Mode) (q : Point256) (P : curve.Point) (hq : q.Rep P) (n : Int256) (hn : n.val < 256) :
    ∃ r, q.multScalar m n = .ok r ∧ r.Rep (n.val • P) := by
  obtain ⟨r, hr, hrep⟩ := Point256.multScalar_rep m q P hq n
  rw [(Point256.effective_eq_iff n).mpr hn] at hrep
  exact ⟨r, hr, hrep⟩

/-- For every scalar from 256 up to the group order, multiplication of the base point is wrong. -/
theorem C50_wrong_from_256 (m : Mode) (n : Int256) (h1 : 256 ≤ n.val) (h2 : n.val < Spec.P256.n) :
    ∃ r, Point256.G.multScalar m n = .ok r ∧ ¬ r.Rep (n.val • Spec.P256.G) := by
  obtain ⟨r, hr, hrep⟩ := Point256.multScalar_rep m _ _ Point256.G_rep n
  refine ⟨r, hr, fun hc => ?_⟩
  have he := C49_rep_unique r _ _ hrep hc
  have hlt : Point256.effective n < Spec.P256.n := lt_trans (Point256.effective_lt n) (by decide)
  have := Spec.P256.smul_G_inj hlt h2 he
  have := (Point256.effective_eq_iff n).mp this
  omega

theorem C50_not_scalar_multiplication (m : Mode) : ¬ MultipliesByScalar m := by
  intro h
  have hv : (ofNat 256).val = 256 := val_ofNat (by decide)
  obtain ⟨r, hr, hrep⟩ := h Point256.G Spec.P256.G (ofNat 256) Point256.G_rep
  obtain ⟨r', hr', hn⟩ := C50_wrong_from_256 m (ofNat 256) (by rw [hv]) (by rw [hv]; decide)
  rw [hr] at hr'; cases hr'
  exact hn hrep

end Husk
