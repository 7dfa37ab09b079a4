import Verif.Proofs.P256Prime
/-! 2^130 - 5 is prime: Pratt certificates checked by the kernel. -/

namespace Husk.Poly1305

private theorem prime_2 : Nat.Prime 2 := by norm_num
private theorem prime_3 : Nat.Prime 3 := by norm_num
private theorem prime_5 : Nat.Prime 5 := by norm_num
private theorem prime_11 : Nat.Prime 11 := by norm_num
private theorem prime_13 : Nat.Prime 13 := by norm_num
private theorem prime_17 : Nat.Prime 17 := by norm_num
private theorem prime_23 : Nat.Prime 23 := by norm_num
private theorem prime_43 : Nat.Prime 43 := by norm_num
private theorem prime_67 : Nat.Prime 67 := by norm_num
private theorem prime_73 : Nat.Prime 73 := by norm_num
private theorem prime_461 : Nat.Prime 461 := by norm_num
private theorem prime_487 : Nat.Prime 487 := by norm_num
private theorem prime_4889 : Nat.Prime 4889 := by norm_num
private theorem prime_19403 : Nat.Prime 19403 := by norm_num
private theorem prime_37003 : Nat.Prime 37003 := by norm_num

private theorem prime_3134801 : Nat.Prime 3134801 :=
  Spec.P256.pratt 3134801 3 [2, 2, 2, 2, 5, 5, 17, 461] (by decide +kernel) (by
    intro q hq
    simp only [List.mem_cons, List.not_mem_nil, or_false] at hq
    rcases hq with rfl | rfl | rfl | rfl | rfl | rfl | rfl | rfl
    · exact prime_2
    · exact prime_2
    · exact prime_2
    · exact prime_2
    · exact prime_5
    · exact prime_5
    · exact prime_17
    · exact prime_461)

private theorem prime_221101 : Nat.Prime 221101 :=
  Spec.P256.pratt 221101 22 [2, 2, 3, 5, 5, 11, 67] (by decide +kernel) (by
    intro q hq
    simp only [List.mem_cons, List.not_mem_nil, or_false] at hq
    rcases hq with rfl | rfl | rfl | rfl | rfl | rfl | rfl
    · exact prime_2
    · exact prime_2
    · exact prime_3
    · exact prime_5
    · exact prime_5
    · exact prime_11
    · exact prime_67)

private theorem prime_4024685905107147541 : Nat.Prime 4024685905107147541 :=
  Spec.P256.pratt 4024685905107147541 2 [2, 2, 3, 3, 5, 13, 43, 4889, 37003, 221101] (by decide +kernel) (by
    intro q hq
    simp only [List.mem_cons, List.not_mem_nil, or_false] at hq
    rcases hq with rfl | rfl | rfl | rfl | rfl | rfl | rfl | rfl | rfl | rfl
    · exact prime_2
    · exact prime_2
    · exact prime_3
    · exact prime_3
    · exact prime_5
    · exact prime_13
    · exact prime_43
    · exact prime_4889
    · exact prime_37003
    · exact prime_221101)

private theorem prime_897064739519922787230182993783 : Nat.Prime 897064739519922787230182993783 :=
  Spec.P256.pratt 897064739519922787230182993783 5 [2, 73, 487, 3134801, 4024685905107147541] (by decide +kernel) (by
    intro q hq
    simp only [List.mem_cons, List.not_mem_nil, or_false] at hq
    rcases hq with rfl | rfl | rfl | rfl | rfl
    · exact prime_2
    · exact prime_73
    · exact prime_487
    · exact prime_3134801
    · exact prime_4024685905107147541)

private theorem prime_32985101 : Nat.Prime 32985101 :=
  Spec.P256.pratt 32985101 2 [2, 2, 5, 5, 17, 19403] (by decide +kernel) (by
    intro q hq
    simp only [List.mem_cons, List.not_mem_nil, or_false] at hq
    rcases hq with rfl | rfl | rfl | rfl | rfl | rfl
    · exact prime_2
    · exact prime_2
    · exact prime_5
    · exact prime_5
    · exact prime_17
    · exact prime_19403)

/-- The modulus of Poly1305 is prime. -/
theorem prime_P : Nat.Prime (2 ^ 130 - 5) :=
  Spec.P256.pratt (2 ^ 130 - 5) 2 [2, 23, 32985101, 897064739519922787230182993783] (by decide +kernel) (by
    intro q hq
    simp only [List.mem_cons, List.not_mem_nil, or_false] at hq
    rcases hq with rfl | rfl | rfl | rfl
    · exact prime_2
    · exact prime_23
    · exact prime_32985101
    · exact prime_897064739519922787230182993783)

end Husk.Poly1305
