import Verif.Proofs.Poly1305
/-! C36: Poly1305. -/

namespace Husk

/-- C36: for every message and every 16-byte `r` and `s`, in both build modes (so: with no overflow of any checked `u32`/`u64`
operation), `authenticate` returns the RFC 8439 Poly1305 tag. -/
theorem C36_poly1305 (m : Mode) (msg r s : Bytes) (hr : r.length = 16) (hs : s.length = 16) :
    Poly1305.authenticate m msg r s = .ok (Spec.Poly1305.mac msg r s) := Poly1305.authenticate_spec m msg r s hr hs

/-- The accumulator as the polynomial of the English claim: `Σ blockNum(b_i) * r^(n-i)` modulo 2^130 - 5. -/
theorem C36_accumulate_is_polynomial (r : Nat) (bs : List Bytes) :
    Spec.Poly1305.accumulate r bs =
      ((List.range bs.length).map fun i => Spec.Poly1305.blockNum (bs.getD i []) * r ^ (bs.length - i)).sum % Spec.Poly1305.P := by
  have gen : ∀ (bs : List Bytes) (acc : Nat), bs.foldl (fun acc b => (acc + Spec.Poly1305.blockNum b) * r % Spec.Poly1305.P) acc % Spec.Poly1305.P =
      (acc * r ^ bs.length + ((List.range bs.length).map fun i => Spec.Poly1305.blockNum (bs.getD i []) * r ^ (bs.length - i)).sum) % Spec.Poly1305.P := by
    intro bs
    induction bs with
    | nil => intro acc; simp
    | cons b bs ih =>
      intro acc
      rw [List.foldl_cons, ih, List.length_cons, List.range_succ_eq_map, List.map_cons, List.map_map, List.sum_cons]
      have e : ((List.range bs.length).map ((fun i => Spec.Poly1305.blockNum ((b :: bs).getD i []) * r ^ (bs.length + 1 - i)) ∘ Nat.succ)) =
          (List.range bs.length).map fun i => Spec.Poly1305.blockNum (bs.getD i []) * r ^ (bs.length - i) := by
        apply List.map_congr_left
        intro i _
        simp
      rw [e]
      generalize ((List.range bs.length).map fun i => Spec.Poly1305.blockNum (bs.getD i []) * r ^ (bs.length - i)).sum = S
      simp only [List.getD_cons_zero, Nat.sub_zero]
      rw [show acc * r ^ (bs.length + 1) + (Spec.Poly1305.blockNum b * r ^ (bs.length + 1) + S) =
        (acc + Spec.Poly1305.blockNum b) * r * r ^ bs.length + S by ring]
      exact Nat.ModEq.add_right _ (Nat.ModEq.mul_right _ (Nat.mod_modEq _ _))
  have h := gen bs 0
  rw [Nat.zero_mul, Nat.zero_add] at h
  rw [← h, Spec.Poly1305.accumulate]
  cases bs with
  | nil => rfl
  | cons b bs =>
    have : ∀ (l : List Bytes) (acc : Nat), acc < Spec.Poly1305.P →
        l.foldl (fun acc b => (acc + Spec.Poly1305.blockNum b) * r % Spec.Poly1305.P) acc < Spec.Poly1305.P := by
      intro l
      induction l with
      | nil => intro acc h; exact h
      | cons b l ih => intro acc _; exact ih _ (Nat.mod_lt _ (by decide))
    rw [Nat.mod_eq_of_lt (this _ _ (by decide))]

theorem Spec.Poly1305.mac_length (msg r s : Bytes) : (Spec.Poly1305.mac msg r s).length = 16 := by simp [Spec.Poly1305.mac]

/-- Non-vacuity: RFC 8439 section 2.5.2 key, and a key with all bits set. -/
example : ([0x85, 0xd6, 0xbe, 0x78, 0x57, 0x55, 0x6d, 0x33, 0x7f, 0x44, 0x52, 0xfe, 0x42, 0xd5, 0x06, 0xa8] : Bytes).length = 16 ∧
    (List.replicate 16 (255 : UInt8)).length = 16 := by decide

end Husk
