import Verif.Proofs.P256Limbs
import Verif.Spec.P256
import Mathlib.Tactic.LinearCombination
/-! Field arithmetic of src/crypto/p256.rs refines `ZMod p`. -/

namespace Husk
namespace Int256
open Spec.P256 (p p_eq F)

/-- The field element of an `Int256`. -/
def toF (a : Int256) : F := (a.val : F)
/-- The reduced `Int256` of a field element. -/
def ofF (x : F) : Int256 := ofNat x.val
/-- "value must be < P256" (src/crypto/p256.rs:293). -/
def Canon (a : Int256) : Prop := a.val < p

theorem val_ofF (x : F) : (ofF x).val = x.val := by
  apply val_ofNat
  have := ZMod.val_lt x
  have h := p_eq
  omega

theorem toF_ofF (x : F) : (ofF x).toF = x := by rw [toF, val_ofF]; exact ZMod.natCast_zmod_val x

theorem canon_ofF (x : F) : (ofF x).Canon := by rw [Canon, val_ofF]; exact ZMod.val_lt x

theorem Canon.eq {a : Int256} (h : a.Canon) : a = ofF a.toF := by
  apply val_inj
  rw [val_ofF, toF, ZMod.val_natCast, Nat.mod_eq_of_lt h]

theorem ofF_inj {x y : F} : ofF x = ofF y ↔ x = y := ⟨fun h => by rw [← toF_ofF x, h, toF_ofF], fun h => by rw [h]⟩

theorem val_P256 : P256.val = p := by decide +kernel

theorem val_eq_toF {a : Int256} (h : a.Canon) : a.val = a.toF.val := by rw [toF, ZMod.val_natCast, Nat.mod_eq_of_lt h]

theorem reduceOnce_spec (m : Mode) (a : Int256) (c : UInt32) (hc : c = 0 ∨ c = 1) (h : a.val + 2 ^ 256 * c.toNat < 2 ^ 256 + p) :
    ∃ r, a.reduceOnce m c = .ok r ∧
      r.val = if a.val + 2 ^ 256 * c.toNat < p then a.val + 2 ^ 256 * c.toNat else a.val + 2 ^ 256 * c.toNat - p := by
  obtain ⟨h1, h2⟩ := subNoReduce_spec a P256
  rw [val_P256] at h1
  have ha := a.val_lt
  have hv := (a.subNoReduce P256).1.val_lt
  rw [p_eq] at *
  rw [reduceOnce]
  generalize hs : a.subNoReduce P256 = s at *
  obtain ⟨v, cs⟩ := s
  simp only at *
  rcases hc with rfl | rfl <;> rcases h2 with rfl | rfl
  · refine ⟨v, by simp [debugAssert, choose_zero], ?_⟩
    simp only [UInt32.toNat_zero] at *; rw [if_neg (by omega)]; omega
  · refine ⟨a, by simp [debugAssert, choose_one], ?_⟩
    have : (1 : UInt32).toNat = 1 := rfl
    simp only [UInt32.toNat_zero] at *; rw [if_pos (by omega)]; omega
  · have : (1 : UInt32).toNat = 1 := rfl
    simp only [UInt32.toNat_zero] at *; omega
  · refine ⟨v, by simp [debugAssert, choose_zero], ?_⟩
    have : (1 : UInt32).toNat = 1 := rfl
    rw [if_neg (by omega)]; omega

/-- Outside its precondition `reduce_once` violates its assertion, or returns its argument unchanged. -/
theorem reduceOnce_overflow (m : Mode) (a : Int256) (h : p ≤ a.val) :
    a.reduceOnce m 1 = match m with | .debug => .panic | .release => .ok a := by
  obtain ⟨h1, h2⟩ := subNoReduce_spec a P256
  rw [val_P256] at h1
  have ha := a.val_lt
  have hv := (a.subNoReduce P256).1.val_lt
  rw [p_eq] at *
  rw [reduceOnce]
  generalize hs : a.subNoReduce P256 = s at *
  obtain ⟨v, cs⟩ := s
  simp only at *
  rcases h2 with rfl | rfl
  · cases m
    · rfl
    · simp [debugAssert, choose_one]
  · have : (1 : UInt32).toNat = 1 := rfl
    omega

theorem add_spec (m : Mode) (a b : Int256) (h : a.val + b.val < 2 ^ 256 + p) :
    ∃ r, a.add m b = .ok r ∧ r.val = if a.val + b.val < p then a.val + b.val else a.val + b.val - p := by
  obtain ⟨h1, h2⟩ := addNoReduce_spec a b
  rw [add]
  generalize hs : a.addNoReduce b = s at *
  obtain ⟨v, c⟩ := s
  simp only at *
  rw [← h1] at h ⊢
  exact reduceOnce_spec m v c h2 h

/-- `add` outside its precondition. -/
theorem add_overflow (m : Mode) (a b : Int256) (h : 2 ^ 256 + p ≤ a.val + b.val) :
    a.add m b = match m with | .debug => .panic | .release => .ok (ofNat (a.val + b.val - 2 ^ 256)) := by
  obtain ⟨h1, h2⟩ := addNoReduce_spec a b
  have hv := (a.addNoReduce b).1.val_lt
  have ha := a.val_lt
  have hb := b.val_lt
  rw [add]
  generalize hs : a.addNoReduce b = s at *
  obtain ⟨v, c⟩ := s
  simp only at *
  have e1 : (1 : UInt32).toNat = 1 := rfl
  rcases h2 with rfl | rfl
  · simp only [UInt32.toNat_zero] at *
    rw [p_eq] at h; omega
  · have hve : v.val = a.val + b.val - 2 ^ 256 := by omega
    rw [reduceOnce_overflow m v (by rw [p_eq] at *; omega), ← hve, ofNat_val]

theorem sub_spec (m : Mode) (a b : Int256) (h : b.val ≤ a.val + p) :
    ∃ r, a.sub m b = .ok r ∧ r.val = if b.val ≤ a.val then a.val - b.val else a.val + p - b.val := by
  obtain ⟨h1, h2⟩ := subNoReduce_spec a b
  have ha := a.val_lt
  have hb := b.val_lt
  rw [sub]
  generalize hs : a.subNoReduce b = s at *
  obtain ⟨v, cs⟩ := s
  obtain ⟨g1, g2⟩ := addNoReduce_spec v P256
  have hv := v.val_lt
  rw [val_P256] at g1
  simp only at *
  have hw := (v.addNoReduce P256).1.val_lt
  generalize ht : v.addNoReduce P256 = t at *
  obtain ⟨w, ca⟩ := t
  simp only at *
  have e1 : (1 : UInt32).toNat = 1 := rfl
  have e0 : (0 : UInt32).toNat = 0 := rfl
  rw [p_eq] at *
  rcases h2 with rfl | rfl
  · refine ⟨v, by simp [debugAssert, choose_zero], ?_⟩
    rw [if_pos (by omega)]; omega
  · have hca : ca = 1 := by
      rcases g2 with rfl | rfl
      · exfalso; omega
      · rfl
    subst hca
    refine ⟨w, by simp [debugAssert, choose_one], ?_⟩
    rw [if_neg (by omega)]; omega

/-- Addition when at least one operand is reduced: the sum in the field. -/
theorem add_toF (m : Mode) (a b : Int256) (h : a.val + b.val < 2 ^ 256 + p) :
    ∃ r, a.add m b = .ok r ∧ r.toF = a.toF + b.toF := by
  obtain ⟨r, hr, hv⟩ := add_spec m a b h
  refine ⟨r, hr, ?_⟩
  rw [toF, toF, toF, hv]
  split
  · push_cast; rfl
  · rename_i hn
    rw [Nat.cast_sub (by omega)]
    push_cast; simp

theorem sub_toF (m : Mode) (a b : Int256) (h : b.val ≤ a.val + p) :
    ∃ r, a.sub m b = .ok r ∧ r.toF = a.toF - b.toF := by
  obtain ⟨r, hr, hv⟩ := sub_spec m a b h
  refine ⟨r, hr, ?_⟩
  rw [toF, toF, toF, hv]
  split
  · rename_i hn
    rw [Nat.cast_sub hn]
  · rw [Nat.cast_sub (by omega)]
    push_cast; simp

/-- `add` of reduced operands. -/
theorem add_ofF (m : Mode) (x y : F) : (ofF x).add m (ofF y) = .ok (ofF (x + y)) := by
  have hx := canon_ofF x
  have hy := canon_ofF y
  unfold Canon at hx hy
  obtain ⟨r, hr, hv⟩ := add_spec m (ofF x) (ofF y) (by have := p_eq; omega)
  obtain ⟨r', hr', hf⟩ := add_toF m (ofF x) (ofF y) (by have := p_eq; omega)
  rw [hr] at hr'; cases hr'
  rw [toF_ofF, toF_ofF] at hf
  rw [hr, ← hf]
  congr 1
  apply Canon.eq
  rw [Canon, hv]
  split
  · assumption
  · omega

theorem double_ofF (m : Mode) (x : F) : (ofF x).double m = .ok (ofF (x + x)) := add_ofF m x x

/-- `sub` of reduced operands. -/
theorem sub_ofF (m : Mode) (x y : F) : (ofF x).sub m (ofF y) = .ok (ofF (x - y)) := by
  have hx := canon_ofF x
  have hy := canon_ofF y
  unfold Canon at hx hy
  obtain ⟨r, hr, hv⟩ := sub_spec m (ofF x) (ofF y) (by omega)
  obtain ⟨r', hr', hf⟩ := sub_toF m (ofF x) (ofF y) (by omega)
  rw [hr] at hr'; cases hr'
  rw [toF_ofF, toF_ofF] at hf
  rw [hr, ← hf]
  congr 1
  apply Canon.eq
  rw [Canon, hv]
  split <;> omega

theorem reduceOnceZero_eq (m : Mode) (a : Int256) : a.reduceOnceZero m = .ok (ofF a.toF) := by
  have ha := a.val_lt
  have e0 : (0 : UInt32).toNat = 0 := rfl
  obtain ⟨r, hr, hv⟩ := reduceOnce_spec m a 0 (.inl rfl) (by rw [e0]; omega)
  rw [e0, Nat.mul_zero, Nat.add_zero] at hv
  rw [reduceOnceZero, hr]
  have hc : r.Canon := by
    rw [Canon, hv]
    split
    · assumption
    · rw [p_eq]; omega
  have : r.toF = a.toF := by
    rw [toF, toF, hv]
    split
    · rfl
    · rw [Nat.cast_sub (by omega)]; simp
  rw [← this, ← hc.eq]

theorem list16 {α : Type} (l : List α) (h : l.length = 16) : ∃ a0 a1 a2 a3 a4 a5 a6 a7 a8 a9 a10 a11 a12 a13 a14 a15,
    l = [a0, a1, a2, a3, a4, a5, a6, a7, a8, a9, a10, a11, a12, a13, a14, a15] := by
  match l, h with
  | [a0, a1, a2, a3, a4, a5, a6, a7, a8, a9, a10, a11, a12, a13, a14, a15], _ => exact ⟨_, _, _, _, _, _, _, _, _, _, _, _, _, _, _, _, rfl⟩

/-- The NIST reduction identity behind `mult`, in any ring in which p vanishes. -/
theorem nist_identity {R : Type} [CommRing R] (hp : (2 ^ 256 - 2 ^ 224 + 2 ^ 192 + 2 ^ 96 - 1 : R) = 0) (a0 a1 a2 a3 a4 a5 a6 a7 a8 a9 a10 a11 a12 a13 a14 a15 : UInt32) :
    (val ⟨[a0, a1, a2, a3, a4, a5, a6, a7], rfl⟩ : R) + ((val ⟨[0, 0, 0, a11, a12, a13, a14, a15], rfl⟩ : R) + (val ⟨[0, 0, 0, a11, a12, a13, a14, a15], rfl⟩ : R)) + ((val ⟨[0, 0, 0, a12, a13, a14, a15, 0], rfl⟩ : R) + (val ⟨[0, 0, 0, a12, a13, a14, a15, 0], rfl⟩ : R)) + (val ⟨[a8, a9, a10, 0, 0, 0, a14, a15], rfl⟩ : R) + (val ⟨[a9, a10, a11, a13, a14, a15, a13, a8], rfl⟩ : R) -
      ((val ⟨[a11, a12, a13, 0, 0, 0, a8, a10], rfl⟩ : R) + (val ⟨[a12, a13, a14, a15, 0, 0, a9, a11], rfl⟩ : R) + (val ⟨[a13, a14, a15, a8, a9, a10, 0, a12], rfl⟩ : R) + (val ⟨[a14, a15, 0, a9, a10, a11, 0, a13], rfl⟩ : R)) =
    (lval [a0, a1, a2, a3, a4, a5, a6, a7, a8, a9, a10, a11, a12, a13, a14, a15] : R) := by
  simp only [val, lval, UInt32.toNat_zero]
  push_cast
  linear_combination ((-1) * (a8.toNat : R) + (-4294967297) * (a9.toNat : R) + (-18446744078004518912) * (a10.toNat : R) + (-79228162532711081667253501951) * (a11.toNat : R) + (-340282367000166625977638945021017194495) * (a12.toNat : R) + (-1461501637671185285124623296161210883009696235519) * (a13.toNat : R) + (-6277101736848182401166692341332123086285927382448418586623) * (a14.toNat : R) + (-26959946673427741530053695850515137729844644212646842236464328081408) * (a15.toNat : R)) * hp

theorem reduceWide_eq (m : Mode) (l : List UInt32) (h : l.length = 16) : reduceWide m (fun i => l.getD i 0) = .ok (ofF (lval l : F)) := by
  obtain ⟨a0, a1, a2, a3, a4, a5, a6, a7, a8, a9, a10, a11, a12, a13, a14, a15, rfl⟩ := list16 l h
  simp only [reduceWide, parts, List.getD_cons_zero, List.getD_cons_succ, reduceOnceZero_eq, Res.bind_ok, double_ofF, add_ofF, sub_ofF]
  have hp : (2 ^ 256 - 2 ^ 224 + 2 ^ 192 + 2 ^ 96 - 1 : F) = 0 := by
    have h : ((p : ℕ) : F) = 0 := ZMod.natCast_self p
    have e : p + 2 ^ 224 + 1 = 2 ^ 256 + 2 ^ 192 + 2 ^ 96 := by decide
    have h' : ((p + 2 ^ 224 + 1 : ℕ) : F) = ((2 ^ 256 + 2 ^ 192 + 2 ^ 96 : ℕ) : F) := by rw [e]
    simp only [Nat.cast_add, Nat.cast_pow, Nat.cast_ofNat, h, Nat.cast_one] at h'
    linear_combination -h'
  rw [← nist_identity hp]
  rfl

/-- `mult` for all 256-bit operands. -/
theorem mult_eq (m : Mode) (a b : Int256) : a.mult m b = .ok (ofF (a.toF * b.toF)) := by
  obtain ⟨h1, h2, h3⟩ := product_spec a b
  simp only [mult, h3]
  have : debugAssert m ((0 : UInt64) == 0) = .ok () := by cases m <;> rfl
  rw [this, Res.bind_ok, reduceWide_eq m _ h2, h1]
  simp only [toF, Nat.cast_mul]

theorem square_eq (m : Mode) (a : Int256) : a.square m = .ok (ofF (a.toF ^ 2)) := by rw [square, mult_eq, pow_two]

end Int256
end Husk
