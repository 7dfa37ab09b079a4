import Verif.Proofs.Poly1305Prime
import Verif.Props.Poly1305
import Mathlib.Algebra.Polynomial.Roots
import Mathlib.Algebra.Field.ZMod
/-! The polynomial hash inside Poly1305: two different messages collide, up to a given difference, for few `r`. -/

namespace Husk.Poly1305

open Polynomial Spec.Poly1305

instance : Fact (Nat.Prime P) := ⟨prime_P⟩

/-- The polynomial of a list of blocks. -/
noncomputable def poly (bs : List Bytes) : (ZMod P)[X] := bs.foldl (fun acc b => (acc + C (blockNum b : ZMod P)) * X) 0

theorem poly_concat (bs : List Bytes) (b : Bytes) : poly (bs ++ [b]) = (poly bs + C (blockNum b : ZMod P)) * X := by
  simp [poly, List.foldl_append]

theorem accumulate_concat (r : Nat) (bs : List Bytes) (b : Bytes) : accumulate r (bs ++ [b]) = (accumulate r bs + blockNum b) * r % P := by
  simp [accumulate, List.foldl_append]

theorem eval_poly (r : Nat) (bs : List Bytes) : (poly bs).eval (r : ZMod P) = (accumulate r bs : ZMod P) := by
  induction bs using List.reverseRecOn with
  | nil => simp [poly, accumulate]
  | append_singleton bs b ih =>
    rw [poly_concat, accumulate_concat, ZMod.natCast_mod]
    simp [ih]

theorem accumulate_lt (r : Nat) (bs : List Bytes) : accumulate r bs < P := by
  induction bs using List.reverseRecOn with
  | nil => exact prime_P.pos
  | append_singleton bs b _ => rw [accumulate_concat]; exact Nat.mod_lt _ prime_P.pos

theorem natDegree_poly (bs : List Bytes) : (poly bs).natDegree ≤ bs.length := by
  induction bs using List.reverseRecOn with
  | nil => simp [poly]
  | append_singleton bs b ih =>
    rw [poly_concat, List.length_append, List.length_singleton]
    refine natDegree_mul_le.trans (Nat.add_le_add ?_ natDegree_X_le)
    refine (natDegree_add_le _ _).trans ?_
    rw [natDegree_C]
    omega

theorem coeff_poly (bs : List Bytes) : (poly bs).coeff 0 = 0 := by
  induction bs using List.reverseRecOn with
  | nil => simp [poly]
  | append_singleton bs b _ => rw [poly_concat]; simp

theorem blockNum_lt {b : Bytes} (h : b.length ≤ 16) : blockNum b < P := by
  have h1 := leNat_lt b
  have h2 : (256 : Nat) ^ b.length = 2 ^ (8 * b.length) := by rw [pow_mul]; norm_num
  have h3 : 2 ^ (8 * b.length) ≤ 2 ^ 128 := Nat.pow_le_pow_right (by decide) (by omega)
  have h4 : P = 2 ^ 130 - 5 := rfl
  rw [blockNum]
  omega

theorem blockNum_pos (b : Bytes) : 0 < blockNum b := by
  have : 0 < 2 ^ (8 * b.length) := Nat.pow_pos (by decide)
  rw [blockNum]
  omega

theorem blockNum_cast_ne {b : Bytes} (h : b.length ≤ 16) : (blockNum b : ZMod P) ≠ 0 := by
  rw [Ne, ZMod.natCast_eq_zero_iff]
  exact Nat.not_dvd_of_pos_of_lt (blockNum_pos b) (blockNum_lt h)

theorem blockNum_inj {b b' : Bytes} (h : blockNum b = blockNum b') : b = b' := by
  have key : ∀ {b b' : Bytes}, blockNum b = blockNum b' → b.length ≤ b'.length := by
    intro b b' h
    by_contra hlt
    have h1 := leNat_lt b'
    rw [show (256 : Nat) ^ b'.length = 2 ^ (8 * b'.length) by rw [pow_mul]; norm_num] at h1
    have h2 : 2 ^ (8 * b'.length + 1) ≤ 2 ^ (8 * b.length) := Nat.pow_le_pow_right (by decide) (by omega)
    rw [pow_succ] at h2
    simp only [blockNum] at h
    omega
  have hl : b.length = b'.length := Nat.le_antisymm (key h) (key h.symm)
  refine leNat_inj hl ?_
  simp only [blockNum, hl] at h
  omega

theorem poly_inj {bs bs' : List Bytes} (h1 : ∀ b ∈ bs, b.length ≤ 16) (h2 : ∀ b ∈ bs', b.length ≤ 16) (h : poly bs = poly bs') : bs = bs' := by
  induction bs using List.reverseRecOn generalizing bs' with
  | nil =>
    rcases List.eq_nil_or_concat bs' with rfl | ⟨bs', b', rfl⟩
    · rfl
    · exfalso
      rw [List.concat_eq_append] at h h2
      rw [poly_concat, show poly [] = 0 from rfl] at h
      have h := (mul_eq_zero.mp h.symm).resolve_right X_ne_zero
      have hc := congrArg (fun p => coeff p 0) h
      simp only [coeff_add, coeff_poly, coeff_C_zero, coeff_zero, zero_add] at hc
      exact blockNum_cast_ne (h2 b' (by simp)) hc
  | append_singleton bs b ih =>
    rcases List.eq_nil_or_concat bs' with rfl | ⟨bs', b', rfl⟩
    · exfalso
      rw [poly_concat, show poly [] = 0 from rfl] at h
      have h := (mul_eq_zero.mp h).resolve_right X_ne_zero
      have hc := congrArg (fun p => coeff p 0) h
      simp only [coeff_add, coeff_poly, coeff_C_zero, coeff_zero, zero_add] at hc
      exact blockNum_cast_ne (h1 b (by simp)) hc
    · rw [List.concat_eq_append] at h h2 ⊢
      rw [poly_concat, poly_concat] at h
      have h := mul_right_cancel₀ X_ne_zero h
      have hc := congrArg (fun p => coeff p 0) h
      simp only [coeff_add, coeff_poly, coeff_C_zero, zero_add] at hc
      rw [ZMod.natCast_eq_natCast_iff', Nat.mod_eq_of_lt (blockNum_lt (h1 b (by simp))), Nat.mod_eq_of_lt (blockNum_lt (h2 b' (by simp)))] at hc
      have hb := blockNum_inj hc
      subst hb
      rw [ih (fun x hx => h1 x (by simp [hx])) (fun x hx => h2 x (by simp [hx])) (add_right_cancel h)]

/-- For different lists of blocks and a given difference there are few `r`. -/
theorem few_roots {bs bs' : List Bytes} (h1 : ∀ b ∈ bs, b.length ≤ 16) (h2 : ∀ b ∈ bs', b.length ≤ 16) (h : bs ≠ bs') (e : ZMod P) (Z : Finset (ZMod P))
    (hZ : ∀ x ∈ Z, (poly bs).eval x - (poly bs').eval x = e) : Z.card ≤ max bs.length bs'.length := by
  have hne : poly bs - poly bs' - C e ≠ 0 := by
    intro h0
    have hc := congrArg (fun p => coeff p 0) h0
    simp only [coeff_sub, coeff_poly, coeff_C_zero, coeff_zero, sub_zero, zero_sub, neg_eq_zero] at hc
    rw [hc, C_0, sub_zero, sub_eq_zero] at h0
    exact h (poly_inj h1 h2 h0)
  have hd : (poly bs - poly bs' - C e).natDegree ≤ max bs.length bs'.length := by
    refine (natDegree_sub_le _ _).trans ?_
    rw [natDegree_C]
    refine max_le ((natDegree_sub_le _ _).trans ?_) (Nat.zero_le _)
    exact max_le_max (natDegree_poly bs) (natDegree_poly bs')
  refine (card_le_degree_of_subset_roots ?_).trans hd
  intro x hx
  rw [mem_roots hne, IsRoot.def]
  simp [hZ x hx]

end Husk.Poly1305
