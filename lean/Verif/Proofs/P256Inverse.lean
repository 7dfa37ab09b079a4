import Verif.Proofs.P256Field
import Verif.Proofs.P256Prime
import Mathlib.FieldTheory.Finite.Basic
/-! The addition chain of `inverse`, `divide_by_2`. -/

namespace Husk
namespace Int256
open Spec.P256 (p p_eq F)

theorem squareN_succ (m : Mode) (n : Nat) (a : Int256) : squareN m (n + 1) a = .ok (ofF (a.toF ^ 2 ^ (n + 1))) := by
  induction n generalizing a with
  | zero => simp [squareN, square_eq]
  | succ n ih =>
    rw [squareN, square_eq, Res.bind_ok, ih, toF_ofF, ← pow_mul, ← pow_succ']

theorem squareN_eq (m : Mode) (n : Nat) (hn : n ≠ 0) (a : Int256) : squareN m n a = .ok (ofF (a.toF ^ 2 ^ n)) := by
  cases n with
  | zero => exact absurd rfl hn
  | succ n => exact squareN_succ m n a

theorem zN_eq (m : Mode) (n : Nat) (hn : n ≠ 0) (a : Int256) : zN m a n = .ok (ofF (a.toF ^ (2 ^ n + 1))) := by
  rw [zN, squareN_eq m n hn, Res.bind_ok, mult_eq, toF_ofF, pow_succ]

theorem z1_eq (m : Mode) (a b : Int256) : z1 m a b = .ok (ofF (a.toF ^ 2 * b.toF)) := by
  rw [z1, square_eq, Res.bind_ok, mult_eq, toF_ofF]

theorem inverse_pow (m : Mode) (a : Int256) : a.inverse m = .ok (ofF (a.toF ^ (p - 2))) := by
  have e : p - 2 = 115792089210356248762697446949407573530086143415290314195533631308867097853949 := by decide
  rw [e]
  generalize hx : a.toF = x
  simp only [inverse, zN_eq m _ (by decide : (1 : Nat) ≠ 0), zN_eq m _ (by decide : (2 : Nat) ≠ 0), zN_eq m _ (by decide : (4 : Nat) ≠ 0),
    zN_eq m _ (by decide : (8 : Nat) ≠ 0), zN_eq m _ (by decide : (16 : Nat) ≠ 0), zN_eq m _ (by decide : (5 : Nat) ≠ 0),
    zN_eq m _ (by decide : (11 : Nat) ≠ 0), zN_eq m _ (by decide : (23 : Nat) ≠ 0), zN_eq m _ (by decide : (47 : Nat) ≠ 0),
    zN_eq m _ (by decide : (96 : Nat) ≠ 0), squareN_eq m _ (by decide : (224 : Nat) ≠ 0), z1_eq, square_eq, mult_eq, Res.bind_ok, toF_ofF, hx,
    ← pow_mul, ← pow_succ, ← pow_add]
  congr 3

theorem pow_sub_two (x : F) : x ^ (p - 2) = x⁻¹ := by
  have h2 : 2 < p := by have := p_eq; omega
  by_cases h : x = 0
  · rw [h, inv_zero]
    exact zero_pow (by omega)
  · have h1 := ZMod.pow_card_sub_one_eq_one h
    have e : p - 1 = (p - 2) + 1 := by omega
    rw [e, pow_succ] at h1
    exact eq_inv_of_mul_eq_one_left h1

theorem inverse_eq (m : Mode) (a : Int256) : a.inverse m = .ok (ofF a.toF⁻¹) := by rw [inverse_pow, pow_sub_two]

theorem two_ne : (2 : F) ≠ 0 := by
  have h : ((2 : ℕ) : F) ≠ 0 := by
    rw [Ne, ZMod.natCast_eq_zero_iff]
    intro h
    have := Nat.le_of_dvd (by decide) h
    rw [p_eq] at this
    exact absurd this (by decide)
  simpa using h

/-- `divide_by_2` for all 256-bit operands. -/
theorem divideBy2_spec (a : Int256) : a.divideBy2.val = if a.val % 2 = 0 then a.val / 2 else (a.val + p) / 2 := by
  have h0 : (a.v.getD 0 0 &&& 1).toNat = a.val % 2 := by
    rw [UInt32.toNat_and]
    refine (Nat.and_one_is_mod _).trans ?_
    cases a with | mk v hv =>
    match v, hv with
    | x :: l, _ => simp only [val, lval, List.getD_cons_zero]; omega
  obtain ⟨g1, g2⟩ := addNoReduce_spec a P256
  rw [val_P256] at g1
  have hne : ∀ b : Int256, b.v ≠ [] := by
    intro b hb
    have := b.len
    rw [hb] at this
    exact absurd this (by decide)
  have e0 : (0 : UInt32) = (0 : UInt32) <<< 31 := by decide
  simp only [divideBy2]
  rcases Nat.mod_two_eq_zero_or_one a.val with h | h
  · have : a.v.getD 0 0 &&& 1 = 0 := by apply UInt32.toNat_inj.mp; rw [h0, h]; rfl
    rw [this, choose_zero, if_pos h]
    simp only [val]
    rw [e0, halve_spec _ _ (hne a) (.inl rfl)]
    simp
  · have : a.v.getD 0 0 &&& 1 = 1 := by apply UInt32.toNat_inj.mp; rw [h0, h]; rfl
    rw [this, choose_one, if_neg (by omega)]
    simp only [val]
    rw [halve_spec _ _ (hne _) g2, (a.addNoReduce P256).1.len]
    rw [← val, ← val, ← g1]

theorem divideBy2_toF (a : Int256) : a.divideBy2.toF = a.toF / 2 := by
  rw [eq_div_iff two_ne, toF, toF, divideBy2_spec]
  have hc : ∀ k : ℕ, (k : F) * 2 = ((2 * k : ℕ) : F) := by intro k; push_cast; ring
  rw [hc]
  split
  · congr 1; omega
  · have : 2 * ((a.val + p) / 2) = a.val + p := by rw [p_eq]; omega
    rw [this]; simp

theorem divideBy2_ofF (x : F) : (ofF x).divideBy2 = ofF (x / 2) := by
  have h := canon_ofF x
  have hc : (ofF x).divideBy2.Canon := by
    rw [Canon, divideBy2_spec]
    unfold Canon at h
    split
    · omega
    · rw [p_eq] at *; omega
  rw [hc.eq, divideBy2_toF, toF_ofF]

theorem ZERO_eq : ZERO = ofF 0 := by
  have : ZERO.Canon := by rw [Canon, p_eq]; decide
  rw [this.eq]; simp [toF, val, lval, ZERO]

theorem ONE_eq : ONE = ofF 1 := by
  have : ONE.Canon := by rw [Canon, p_eq]; decide
  rw [this.eq]; simp [toF, val, lval, ONE]

theorem compare_ofF (x y : F) : (ofF x).compare (ofF y) = if x = y then 0 else 1 := by
  rw [compare_eq]; simp only [ofF_inj]

theorem canon_B : Point256.B.Canon := by rw [Canon, p_eq]; decide

theorem toF_B : Point256.B.toF = (Spec.P256.b : F) := by
  rw [toF]; congr 1

/-! ### bytes -/

theorem or_add (x y : UInt32) (k q : Nat) (hx : x.toNat = q * 2 ^ k) (hy : y.toNat < 2 ^ k) : (x ||| y).toNat = x.toNat + y.toNat := by
  rw [UInt32.toNat_or, hx, ← Nat.shiftLeft_eq, Nat.shiftLeft_add_eq_or_of_lt hy]

theorem limbOf_toNat (a b c d : UInt8) : (limbOf a b c d).toNat = a.toNat * 2 ^ 24 + b.toNat * 2 ^ 16 + c.toNat * 2 ^ 8 + d.toNat := by
  have ha := a.toNat_lt
  have hb := b.toNat_lt
  have hc := c.toNat_lt
  have hd := d.toNat_lt
  have h1 : (a.toUInt32 <<< 24).toNat = a.toNat * 2 ^ 24 := by
    rw [UInt32.toNat_shiftLeft, UInt8.toNat_toUInt32]; simp only [UInt32.reduceToNat, Nat.shiftLeft_eq, Nat.reduceMod]; omega
  have h2 : (b.toUInt32 <<< 16).toNat = b.toNat * 2 ^ 16 := by
    rw [UInt32.toNat_shiftLeft, UInt8.toNat_toUInt32]; simp only [UInt32.reduceToNat, Nat.shiftLeft_eq, Nat.reduceMod]; omega
  have h3 : (c.toUInt32 <<< 8).toNat = c.toNat * 2 ^ 8 := by
    rw [UInt32.toNat_shiftLeft, UInt8.toNat_toUInt32]; simp only [UInt32.reduceToNat, Nat.shiftLeft_eq, Nat.reduceMod]; omega
  have h4 : d.toUInt32.toNat = d.toNat := UInt8.toNat_toUInt32 d
  have z : (0 : UInt32) ||| (a.toUInt32 <<< 24) = a.toUInt32 <<< 24 := by simp
  have g1 := or_add (a.toUInt32 <<< 24) (b.toUInt32 <<< 16) 24 a.toNat h1 (by omega)
  have g2 := or_add (a.toUInt32 <<< 24 ||| b.toUInt32 <<< 16) (c.toUInt32 <<< 8) 16 (a.toNat * 2 ^ 8 + b.toNat) (by omega) (by omega)
  have g3 := or_add (a.toUInt32 <<< 24 ||| b.toUInt32 <<< 16 ||| c.toUInt32 <<< 8) d.toUInt32 8 (a.toNat * 2 ^ 16 + b.toNat * 2 ^ 8 + c.toNat)
    (by omega) (by omega)
  rw [limbOf, z, g3, g2, g1]
  omega

theorem limbBytes_eq (x : UInt32) : limbBytes x = beBytes 4 x.toNat := by
  have hx := x.toNat_lt
  have h1 : (x >>> 24).toUInt8 = UInt8.ofNat (x.toNat / 256 / 256 / 256) := by
    apply UInt8.toNat_inj.mp
    rw [UInt32.toNat_toUInt8, UInt32.toNat_shiftRight]; simp [Nat.shiftRight_eq_div_pow, Nat.div_div_eq_div_mul]
  have h2 : (x >>> 16).toUInt8 = UInt8.ofNat (x.toNat / 256 / 256) := by
    apply UInt8.toNat_inj.mp
    rw [UInt32.toNat_toUInt8, UInt32.toNat_shiftRight]; simp [Nat.shiftRight_eq_div_pow, Nat.div_div_eq_div_mul]
  have h3 : (x >>> 8).toUInt8 = UInt8.ofNat (x.toNat / 256) := by
    apply UInt8.toNat_inj.mp
    rw [UInt32.toNat_toUInt8, UInt32.toNat_shiftRight]; simp [Nat.shiftRight_eq_div_pow]
  have h4 : x.toUInt8 = UInt8.ofNat x.toNat := by
    apply UInt8.toNat_inj.mp
    rw [UInt32.toNat_toUInt8]; simp
  simp only [limbBytes, h1, h2, h3, h4, beBytes, leBytes]
  rfl

theorem limbBytes_limbOf (a b c d : UInt8) : limbBytes (limbOf a b c d) = [a, b, c, d] := by
  rw [limbBytes_eq, limbOf_toNat]
  have h : a.toNat * 2 ^ 24 + b.toNat * 2 ^ 16 + c.toNat * 2 ^ 8 + d.toNat = beNat [a, b, c, d] := by
    simp [beNat, leNat]; omega
  rw [h]
  exact beBytes_beNat [a, b, c, d]

theorem limbsOf_flatMap (k : Nat) (b : Bytes) (h : b.length = 4 * k) : (limbsOf b).flatMap limbBytes = b := by
  induction k generalizing b with
  | zero => rw [List.length_eq_zero_iff.mp (by omega : b.length = 0)]; rfl
  | succ k ih =>
    match b, h with
    | x :: y :: z :: w :: l, h =>
      simp only [limbsOf, List.flatMap_cons, limbBytes_limbOf]
      rw [ih l (by simp at h; omega)]; rfl

theorem beNat_flatMap (l : List UInt32) : beNat (l.reverse.flatMap limbBytes) = lval l := by
  induction l with
  | nil => rfl
  | cons x l ih =>
    have hx := x.toNat_lt
    simp only [List.reverse_cons, List.flatMap_append, List.flatMap_cons, List.flatMap_nil, List.append_nil]
    unfold beNat at ih ⊢
    rw [List.reverse_append, leNat_append, ih, limbBytes_eq, lval]
    simp only [beBytes, List.reverse_reverse, leBytes_length, leNat_leBytes]
    have : x.toNat % 256 ^ 4 = x.toNat := Nat.mod_eq_of_lt (by omega)
    rw [this]; rfl

theorem beNat_toBytes (a : Int256) : beNat a.toBytes = a.val := beNat_flatMap a.v

theorem toBytes_length (a : Int256) : a.toBytes.length = 32 := by
  have : ∀ l : List UInt32, (l.flatMap limbBytes).length = 4 * l.length := by
    intro l
    induction l with
    | nil => rfl
    | cons x l ih => simp only [List.flatMap_cons, List.length_append, ih, List.length_cons]; simp [limbBytes]; omega
  rw [toBytes, this, List.length_reverse, a.len]

theorem toBytes_eq (a : Int256) : a.toBytes = beBytes 32 a.val := by
  rw [← beNat_toBytes, ← toBytes_length a, beBytes_beNat]

theorem fromBytes_some (b : Bytes) (h : b.length = 32) : ∃ a, fromBytes b = some a ∧ a.toBytes = b ∧ a.val = beNat b := by
  have ht : ∀ a, fromBytes b = some a → a.toBytes = b := by
    intro a ha
    rw [fromBytes, dif_pos h] at ha
    cases ha
    simp only [toBytes, List.reverse_reverse]
    exact limbsOf_flatMap 8 b h
  have : ∃ a, fromBytes b = some a := by rw [fromBytes, dif_pos h]; exact ⟨_, rfl⟩
  obtain ⟨a, ha⟩ := this
  exact ⟨a, ha, ht a ha, by rw [← beNat_toBytes, ht a ha]⟩

theorem fromBytes_none (b : Bytes) (h : b.length ≠ 32) : fromBytes b = none := by rw [fromBytes, dif_neg h]

theorem fromBytes_toBytes (a : Int256) : fromBytes a.toBytes = some a := by
  obtain ⟨c, h1, _, h3⟩ := fromBytes_some a.toBytes (toBytes_length a)
  rw [h1]; congr 1; apply val_inj; rw [h3, beNat_toBytes]

end Int256
end Husk
