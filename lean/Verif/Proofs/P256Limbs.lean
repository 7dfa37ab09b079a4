import Verif.Model.P256
import Mathlib.Tactic.Ring
import Mathlib.Tactic.IntervalCases
/-! Values of limb lists: addition, subtraction, schoolbook multiplication and halving of src/crypto/p256.rs over `Nat`. -/

namespace Husk
namespace Int256

theorem pow32 (k : Nat) : 2 ^ (32 * (k + 1)) = 2 ^ 32 * 2 ^ (32 * k) := by rw [Nat.mul_add, Nat.pow_add, Nat.mul_comm]

/-- Value of a list of 32-bit limbs, least significant first. -/
def lval : List UInt32 → Nat
  | [] => 0
  | a :: l => a.toNat + 2 ^ 32 * lval l

theorem lval_lt (l : List UInt32) : lval l < 2 ^ (32 * l.length) := by
  induction l with
  | nil => simp [lval]
  | cons a l ih =>
    simp only [lval, List.length_cons]
    have h : 2 ^ (32 * (l.length + 1)) = 2 ^ 32 * 2 ^ (32 * l.length) := pow32 _
    rw [h]
    have := a.toNat_lt
    omega

theorem lval_inj (a b : List UInt32) (h : a.length = b.length) (hv : lval a = lval b) : a = b := by
  induction a generalizing b with
  | nil => cases b with
    | nil => rfl
    | cons => simp at h
  | cons x a ih =>
    cases b with
    | nil => simp at h
    | cons y b =>
      simp only [lval] at hv
      have hx := x.toNat_lt
      have hy := y.toNat_lt
      have h1 : x.toNat = y.toNat := by omega
      have h2 : lval a = lval b := by omega
      rw [ih b (by simpa using h) h2, UInt32.toNat_inj.mp h1]

/-- Value of an `Int256`, "value = v[0] + 2^32 v[1] + ... " (src/crypto/p256.rs:292). -/
def val (a : Int256) : Nat := lval a.v

theorem val_lt (a : Int256) : a.val < 2 ^ 256 := by
  have := lval_lt a.v
  rw [a.len] at this
  exact this

theorem val_inj {a b : Int256} (h : a.val = b.val) : a = b := by
  cases a with | mk a ha => cases b with | mk b hb =>
  have := lval_inj a b (ha.trans hb.symm) h
  subst this; rfl

/-- Limbs of a number. -/
def limbs : Nat → Nat → List UInt32
  | 0, _ => []
  | k + 1, n => UInt32.ofNat n :: limbs k (n / 2 ^ 32)

theorem limbs_length (k n : Nat) : (limbs k n).length = k := by
  induction k generalizing n with
  | zero => rfl
  | succ k ih => simp [limbs, ih]

theorem lval_limbs (k n : Nat) (h : n < 2 ^ (32 * k)) : lval (limbs k n) = n := by
  induction k generalizing n with
  | zero => simp at h; simp [limbs, lval, h]
  | succ k ih =>
    have h' : 2 ^ (32 * (k + 1)) = 2 ^ 32 * 2 ^ (32 * k) := pow32 _
    rw [h'] at h
    simp only [limbs, lval]
    rw [ih _ (Nat.div_lt_of_lt_mul h)]
    simp only [UInt32.toNat_ofNat']
    omega

/-- The `Int256` of a number below 2^256. -/
def ofNat (n : Nat) : Int256 := ⟨limbs 8 n, limbs_length 8 n⟩

theorem val_ofNat {n : Nat} (h : n < 2 ^ 256) : (ofNat n).val = n := lval_limbs 8 n (by simpa using h)

theorem ofNat_val (a : Int256) : ofNat a.val = a := val_inj (val_ofNat a.val_lt)

/-! ### compare and choose -/

theorem diffLimbs_eq_zero (a b : List UInt32) (d : UInt32) (h : a.length = b.length) : diffLimbs a b d = 0 ↔ d = 0 ∧ a = b := by
  induction a generalizing b d with
  | nil => cases b with
    | nil => simp [diffLimbs]
    | cons => simp at h
  | cons x a ih =>
    cases b with
    | nil => simp at h
    | cons y b =>
      rw [diffLimbs, ih b _ (by simpa using h)]
      rw [UInt32.or_eq_zero_iff, UInt32.xor_eq_zero_iff]
      simp [and_assoc]

theorem fold_eq (d : UInt32) : fold d = if d = 0 then 0 else 1 := by
  by_cases h : d = 0
  · subst h; decide
  · rw [if_neg h]
    apply UInt32.toBitVec_inj.mp
    have hne : ∃ i, d.toBitVec.getLsbD i = true := by
      by_contra hc
      push Not at hc
      exact h (UInt32.toBitVec_inj.mp (BitVec.eq_of_getLsbD_eq (by intro i hi; simpa using hc i)))
    obtain ⟨i, hi⟩ := hne
    have hlt : i < 32 := BitVec.lt_of_getLsbD hi
    apply BitVec.eq_of_getLsbD_eq
    intro j hj
    by_cases hj0 : j = 0
    · subst hj0
      simp only [fold, UInt32.toBitVec_or, UInt32.toBitVec_and, UInt32.toBitVec_shiftRight, BitVec.getLsbD_or, BitVec.getLsbD_and]
      simp
      rw [BitVec.getLsbD_eq_getElem hlt] at hi
      interval_cases i <;> simp [hi]
    · simp only [fold, UInt32.toBitVec_and, BitVec.getLsbD_and]
      have : (UInt32.toBitVec 1).getLsbD j = false := by
        show (1#32).getLsbD j = false
        rw [BitVec.getLsbD_one]; simp [hj0]
      rw [this]; simp

theorem compare_eq (a b : Int256) : a.compare b = if a = b then 0 else 1 := by
  have h := diffLimbs_eq_zero a.v b.v 0 (a.len.trans b.len.symm)
  rw [compare, fold_eq]
  have e : a.v = b.v ↔ a = b := by
    constructor
    · intro h; cases a; cases b; simpa using h
    · intro h; rw [h]
  simp only [h, true_and, e]

theorem choose_zero (a b : Int256) : choose 0 a b = a := by
  cases a with | mk a ha => cases b with | mk b hb =>
  simp only [choose, mk.injEq]
  have : a.length = b.length := ha.trans hb.symm
  clear ha hb
  induction a generalizing b with
  | nil => rfl
  | cons x a ih => cases b with
    | nil => simp at this
    | cons y b => simp only [List.zipWith_cons_cons]; rw [ih b (by simpa using this)]; simp

theorem choose_one (a b : Int256) : choose 1 a b = b := by
  cases a with | mk a ha => cases b with | mk b hb =>
  simp only [choose, mk.injEq]
  have : a.length = b.length := ha.trans hb.symm
  clear ha hb
  induction a generalizing b with
  | nil => cases b with
    | nil => rfl
    | cons => simp at this
  | cons x a ih => cases b with
    | nil => simp at this
    | cons y b =>
      simp only [List.zipWith_cons_cons]; rw [ih b (by simpa using this)]
      simp [← UInt32.xor_assoc]

/-! ### addition and subtraction -/

theorem addLimbs_spec (a b : List UInt32) (c : UInt64) (h : a.length = b.length) (hc : c.toNat ≤ 1) :
    lval (addLimbs a b c).1 + 2 ^ (32 * a.length) * (addLimbs a b c).2.toNat = lval a + lval b + c.toNat ∧ (addLimbs a b c).2.toNat ≤ 1 := by
  induction a generalizing b c with
  | nil => cases b with
    | nil => simp [addLimbs, lval, hc]
    | cons => simp at h
  | cons x a ih =>
    cases b with
    | nil => simp at h
    | cons y b =>
      have hx := x.toNat_lt
      have hy := y.toNat_lt
      have hs : (x.toUInt64 + y.toUInt64 + c).toNat = x.toNat + y.toNat + c.toNat := by
        simp only [UInt64.toNat_add, UInt32.toNat_toUInt64]; omega
      have hc' : ((x.toUInt64 + y.toUInt64 + c) >>> 32).toNat = (x.toNat + y.toNat + c.toNat) / 2 ^ 32 := by
        rw [UInt64.toNat_shiftRight, hs]; simp [Nat.shiftRight_eq_div_pow]
      obtain ⟨h1, h2⟩ := ih b ((x.toUInt64 + y.toUInt64 + c) >>> 32) (by simpa using h) (by omega)
      simp only [addLimbs, lval, List.length_cons]
      refine ⟨?_, h2⟩
      have hp : 2 ^ (32 * (a.length + 1)) = 2 ^ 32 * 2 ^ (32 * a.length) := pow32 _
      rw [hp, Nat.mul_assoc]
      rw [hc'] at h1
      rw [UInt64.toNat_toUInt32, hs]
      omega

theorem subLimbs_spec (a b : List UInt32) (c : UInt64) (h : a.length = b.length) (hc : c.toNat ≤ 1) :
    lval (subLimbs a b c).1 + lval b + c.toNat = lval a + 2 ^ (32 * a.length) * (subLimbs a b c).2.toNat ∧ (subLimbs a b c).2.toNat ≤ 1 := by
  induction a generalizing b c with
  | nil => cases b with
    | nil => simp [subLimbs, lval, hc]
    | cons => simp at h
  | cons x a ih =>
    cases b with
    | nil => simp at h
    | cons y b =>
      have hx := x.toNat_lt
      have hy := y.toNat_lt
      have hs : (x.toUInt64 - y.toUInt64 - c).toNat = (2 ^ 64 + x.toNat - y.toNat - c.toNat) % 2 ^ 64 := by
        simp only [UInt64.toNat_sub, UInt32.toNat_toUInt64]; omega
      have hc' : ((x.toUInt64 - y.toUInt64 - c) >>> 63).toNat = (2 ^ 64 + x.toNat - y.toNat - c.toNat) % 2 ^ 64 / 2 ^ 63 := by
        rw [UInt64.toNat_shiftRight, hs]; simp [Nat.shiftRight_eq_div_pow]
      obtain ⟨h1, h2⟩ := ih b ((x.toUInt64 - y.toUInt64 - c) >>> 63) (by simpa using h) (by omega)
      simp only [subLimbs, lval, List.length_cons]
      refine ⟨?_, h2⟩
      have hp : 2 ^ (32 * (a.length + 1)) = 2 ^ 32 * 2 ^ (32 * a.length) := pow32 _
      rw [hp, Nat.mul_assoc]
      rw [hc'] at h1
      rw [UInt64.toNat_toUInt32, hs]
      omega

theorem addNoReduce_spec (a b : Int256) :
    (a.addNoReduce b).1.val + 2 ^ 256 * (a.addNoReduce b).2.toNat = a.val + b.val ∧
    ((a.addNoReduce b).2 = 0 ∨ (a.addNoReduce b).2 = 1) := by
  obtain ⟨h1, h2⟩ := addLimbs_spec a.v b.v 0 (a.len.trans b.len.symm) (by decide)
  have e : (addLimbs a.v b.v 0).2.toUInt32.toNat = (addLimbs a.v b.v 0).2.toNat := by
    rw [UInt64.toNat_toUInt32]; omega
  constructor
  · simp only [addNoReduce, val, e]
    rw [a.len] at h1
    simpa using h1
  · simp only [addNoReduce]
    rcases Nat.le_one_iff_eq_zero_or_eq_one.mp h2 with h | h
    · left; apply UInt32.toNat_inj.mp; rw [e, h]; rfl
    · right; apply UInt32.toNat_inj.mp; rw [e, h]; rfl

theorem subNoReduce_spec (a b : Int256) :
    (a.subNoReduce b).1.val + b.val = a.val + 2 ^ 256 * (a.subNoReduce b).2.toNat ∧
    ((a.subNoReduce b).2 = 0 ∨ (a.subNoReduce b).2 = 1) := by
  obtain ⟨h1, h2⟩ := subLimbs_spec a.v b.v 0 (a.len.trans b.len.symm) (by decide)
  have e : (subLimbs a.v b.v 0).2.toUInt32.toNat = (subLimbs a.v b.v 0).2.toNat := by
    rw [UInt64.toNat_toUInt32]; omega
  constructor
  · simp only [subNoReduce, val, e]
    rw [a.len] at h1
    simpa using h1
  · simp only [subNoReduce]
    rcases Nat.le_one_iff_eq_zero_or_eq_one.mp h2 with h | h
    · left; apply UInt32.toNat_inj.mp; rw [e, h]; rfl
    · right; apply UInt32.toNat_inj.mp; rw [e, h]; rfl

/-! ### schoolbook multiplication -/

/-- Value of a list of 64-bit words of weight 2^32. -/
def wval : List UInt64 → Nat
  | [] => 0
  | a :: l => a.toNat + 2 ^ 32 * wval l

theorem wval_set (l : List UInt64) (k : Nat) (x : UInt64) (h : k < l.length) :
    wval (l.set k x) + (l.getD k 0).toNat * 2 ^ (32 * k) = wval l + x.toNat * 2 ^ (32 * k) := by
  induction l generalizing k with
  | nil => simp at h
  | cons a l ih =>
    cases k with
    | zero => simp [wval]; omega
    | succ k =>
      have := ih k (by simpa using h)
      simp only [List.set_cons_succ, wval, List.getD_cons_succ]
      have hp : 2 ^ (32 * (k + 1)) = 2 ^ 32 * 2 ^ (32 * k) := pow32 _
      rw [hp, Nat.mul_left_comm, Nat.mul_left_comm x.toNat]
      omega

/-- All words at most `M`. -/
def Bounded (w : List UInt64) (M : Nat) : Prop := ∀ x ∈ w, x.toNat ≤ M

theorem Bounded.getD {w : List UInt64} {M : Nat} (h : Bounded w M) (k : Nat) : (w.getD k 0).toNat ≤ M := by
  by_cases hk : k < w.length
  · rw [List.getD_eq_getElem?_getD, List.getElem?_eq_getElem hk]
    exact h _ (List.getElem_mem hk)
  · rw [List.getD_eq_getElem?_getD, List.getElem?_eq_none (by omega)]
    simp

theorem Bounded.set {w : List UInt64} {M : Nat} (h : Bounded w M) (k : Nat) {x : UInt64} (hx : x.toNat ≤ M) : Bounded (w.set k x) M := by
  intro y hy
  rcases List.mem_or_eq_of_mem_set hy with h' | h'
  · exact h _ h'
  · rw [h']; exact hx

theorem Bounded.mono {w : List UInt64} {M N : Nat} (h : Bounded w M) (hMN : M ≤ N) : Bounded w N :=
  fun x hx => (h x hx).trans hMN

theorem mulStep_spec (a b : UInt32) (k : Nat) (w : List UInt64) (M : Nat) (hk : k + 1 < w.length) (hb : Bounded w M) (hM : M < 2 ^ 50) :
    wval (mulStep a b k w) = wval w + a.toNat * b.toNat * 2 ^ (32 * k) ∧ (mulStep a b k w).length = w.length ∧
      Bounded (mulStep a b k w) (M + 2 ^ 33) := by
  have ha := a.toNat_lt
  have hbb := b.toNat_lt
  have hm : a.toNat * b.toNat ≤ (2 ^ 32 - 1) * (2 ^ 32 - 1) := Nat.mul_le_mul (by omega) (by omega)
  have hw := hb.getD k
  have hw1 := hb.getD (k + 1)
  have h1 : (a.toUInt64 * b.toUInt64).toNat = a.toNat * b.toNat := by
    simp only [UInt64.toNat_mul, UInt32.toNat_toUInt64]
    exact Nat.mod_eq_of_lt (by omega)
  generalize hP : a.toNat * b.toNat = P at hm h1 ⊢
  have hlow : (a.toUInt64 * b.toUInt64).toUInt32.toUInt64.toNat = P % 2 ^ 32 := by
    rw [UInt32.toNat_toUInt64, UInt64.toNat_toUInt32, h1]
  have hhigh : ((a.toUInt64 * b.toUInt64) >>> 32).toNat = P / 2 ^ 32 := by
    rw [UInt64.toNat_shiftRight, h1]; simp [Nat.shiftRight_eq_div_pow]
  have hwij : (w.getD k 0 + (a.toUInt64 * b.toUInt64).toUInt32.toUInt64).toNat = (w.getD k 0).toNat + P % 2 ^ 32 := by
    rw [UInt64.toNat_add, hlow]; omega
  have hwlow : (w.getD k 0 + (a.toUInt64 * b.toUInt64).toUInt32.toUInt64).toUInt32.toUInt64.toNat = ((w.getD k 0).toNat + P % 2 ^ 32) % 2 ^ 32 := by
    rw [UInt32.toNat_toUInt64, UInt64.toNat_toUInt32, hwij]
  have hwhigh : (((a.toUInt64 * b.toUInt64) >>> 32) + ((w.getD k 0 + (a.toUInt64 * b.toUInt64).toUInt32.toUInt64) >>> 32)).toNat =
      P / 2 ^ 32 + ((w.getD k 0).toNat + P % 2 ^ 32) / 2 ^ 32 := by
    rw [UInt64.toNat_add, hhigh, UInt64.toNat_shiftRight, hwij]
    simp only [UInt64.reduceToNat, Nat.shiftRight_eq_div_pow, Nat.reduceMod]
    omega
  simp only [mulStep]
  generalize (w.getD k 0 + (a.toUInt64 * b.toUInt64).toUInt32.toUInt64).toUInt32.toUInt64 = wlow at *
  generalize ((a.toUInt64 * b.toUInt64) >>> 32) + ((w.getD k 0 + (a.toUInt64 * b.toUInt64).toUInt32.toUInt64) >>> 32) = whigh at *
  have hg : (w.set k wlow).getD (k + 1) 0 = w.getD (k + 1) 0 := by
    rw [List.getD_eq_getElem?_getD, List.getElem?_set_ne (by omega), ← List.getD_eq_getElem?_getD]
  simp only [hg]
  have hnew : (w.getD (k + 1) 0 + whigh).toNat = (w.getD (k + 1) 0).toNat + whigh.toNat := by
    rw [UInt64.toNat_add]; omega
  refine ⟨?_, by simp, ?_⟩
  · have e1 := wval_set w k wlow (by omega)
    have e2 := wval_set (w.set k wlow) (k + 1) (w.getD (k + 1) 0 + whigh) (by simpa using hk)
    rw [hg, hnew] at e2
    have hp : 2 ^ (32 * (k + 1)) = 2 ^ 32 * 2 ^ (32 * k) := pow32 _
    rw [Nat.add_mul] at e2
    have e3 : whigh.toNat * 2 ^ (32 * (k + 1)) = (2 ^ 32 * whigh.toNat) * 2 ^ (32 * k) := by rw [hp]; ring
    have e4 : wlow.toNat * 2 ^ (32 * k) + (2 ^ 32 * whigh.toNat) * 2 ^ (32 * k) = (w.getD k 0).toNat * 2 ^ (32 * k) + P * 2 ^ (32 * k) := by
      have : wlow.toNat + 2 ^ 32 * whigh.toNat = (w.getD k 0).toNat + P := by omega
      rw [← Nat.add_mul, ← Nat.add_mul, this]
    omega
  · apply Bounded.set
    · apply Bounded.set (hb.mono (by omega)); omega
    · omega

theorem mulRow_spec (a : UInt32) (b : List UInt32) (k : Nat) (w : List UInt64) (M : Nat) (hk : k + b.length < w.length) (hb : Bounded w M)
    (hM : M + b.length * 2 ^ 33 < 2 ^ 50) :
    wval (mulRow a b k w) = wval w + a.toNat * lval b * 2 ^ (32 * k) ∧ (mulRow a b k w).length = w.length ∧
      Bounded (mulRow a b k w) (M + b.length * 2 ^ 33) := by
  induction b generalizing k w M with
  | nil => simp [mulRow, lval]; exact hb
  | cons x b ih =>
    simp only [List.length_cons] at hk hM
    obtain ⟨h1, h2, h3⟩ := mulStep_spec a x k w M (by omega) hb (by omega)
    obtain ⟨g1, g2, g3⟩ := ih (k + 1) (mulStep a x k w) (M + 2 ^ 33) (by omega) h3 (by omega)
    refine ⟨?_, by rw [mulRow, g2, h2], ?_⟩
    · rw [mulRow, g1, h1, lval]
      have hp : 2 ^ (32 * (k + 1)) = 2 ^ 32 * 2 ^ (32 * k) := pow32 _
      rw [hp]; ring
    · rw [mulRow, List.length_cons]
      exact g3.mono (by omega)

theorem mulRows_spec (b a : List UInt32) (i : Nat) (w : List UInt64) (M : Nat) (hk : i + a.length + b.length ≤ w.length) (hb : Bounded w M)
    (hM : M + a.length * (b.length * 2 ^ 33) < 2 ^ 50) :
    wval (mulRows b a i w) = wval w + lval a * lval b * 2 ^ (32 * i) ∧ (mulRows b a i w).length = w.length ∧
      Bounded (mulRows b a i w) (M + a.length * (b.length * 2 ^ 33)) := by
  induction a generalizing i w M with
  | nil => simp [mulRows, lval]; exact hb
  | cons x a ih =>
    simp only [List.length_cons, Nat.add_mul, Nat.one_mul] at hk hM
    obtain ⟨h1, h2, h3⟩ := mulRow_spec x b i w M (by omega) hb (by omega)
    obtain ⟨g1, g2, g3⟩ := ih (i + 1) (mulRow x b i w) (M + b.length * 2 ^ 33) (by omega) h3 (by omega)
    refine ⟨?_, by rw [mulRows, g2, h2], ?_⟩
    · rw [mulRows, g1, h1, lval]
      have hp : 2 ^ (32 * (i + 1)) = 2 ^ 32 * 2 ^ (32 * i) := pow32 _
      rw [hp]; ring
    · rw [mulRows, List.length_cons]
      refine g3.mono ?_
      rw [Nat.add_mul, Nat.one_mul]; omega

theorem carryLimbs_spec (w : List UInt64) (c : UInt64) (hb : Bounded w (2 ^ 50)) (hc : c.toNat ≤ 2 ^ 50) :
    lval (carryLimbs w c).1 + 2 ^ (32 * w.length) * (carryLimbs w c).2.toNat = wval w + c.toNat ∧ (carryLimbs w c).1.length = w.length := by
  induction w generalizing c with
  | nil => simp [carryLimbs, lval, wval]
  | cons x w ih =>
    have hx : x.toNat ≤ 2 ^ 50 := hb x (by simp)
    have hs : (x + c).toNat = x.toNat + c.toNat := by rw [UInt64.toNat_add]; omega
    have hc' : ((x + c) >>> 32).toNat = (x.toNat + c.toNat) / 2 ^ 32 := by
      rw [UInt64.toNat_shiftRight, hs]; simp [Nat.shiftRight_eq_div_pow]
    obtain ⟨h1, h2⟩ := ih ((x + c) >>> 32) (fun y hy => hb y (by simp [hy])) (by omega)
    simp only [carryLimbs, lval, wval, List.length_cons]
    refine ⟨?_, by rw [h2]⟩
    have hp : 2 ^ (32 * (w.length + 1)) = 2 ^ 32 * 2 ^ (32 * w.length) := pow32 _
    rw [hp, Nat.mul_assoc, UInt64.toNat_toUInt32, hs]
    rw [hc'] at h1
    omega

theorem wval_replicate (n : Nat) : wval (List.replicate n 0) = 0 := by
  induction n with
  | zero => rfl
  | succ n ih => simp [List.replicate_succ, wval, ih]

theorem product_spec (a b : Int256) :
    lval (carryLimbs (mulRows b.v a.v 0 (List.replicate 16 0)) 0).1 = a.val * b.val ∧
    (carryLimbs (mulRows b.v a.v 0 (List.replicate 16 0)) 0).1.length = 16 ∧
    (carryLimbs (mulRows b.v a.v 0 (List.replicate 16 0)) 0).2 = 0 := by
  obtain ⟨h1, h2, h3⟩ := mulRows_spec b.v a.v 0 (List.replicate 16 0) 0 (by simp [a.len, b.len]) (by intro x hx; simp at hx; simp [hx])
    (by simp [a.len, b.len])
  rw [a.len, b.len] at h3
  obtain ⟨g1, g2⟩ := carryLimbs_spec (mulRows b.v a.v 0 (List.replicate 16 0)) 0 (h3.mono (by decide)) (by decide)
  rw [h1, h2, wval_replicate] at g1
  rw [h2] at g2
  simp only [List.length_replicate] at g1 g2
  have hlt := lval_lt (carryLimbs (mulRows b.v a.v 0 (List.replicate 16 0)) 0).1
  rw [g2] at hlt
  have hab : a.val * b.val < 2 ^ 256 * 2 ^ 256 := Nat.mul_lt_mul'' a.val_lt b.val_lt
  change _ = 0 + a.val * b.val * 2 ^ (32 * 0) + 0 at g1
  have hz : (carryLimbs (mulRows b.v a.v 0 (List.replicate 16 0)) 0).2.toNat = 0 := by omega
  refine ⟨by omega, g2, ?_⟩
  apply UInt64.toNat_inj.mp; rw [hz]; rfl

/-! ### halving -/

theorem halve_spec (l : List UInt32) (t : UInt32) (hl : l ≠ []) (ht : t = 0 ∨ t = 1) :
    lval (halve l (t <<< 31)) = (lval l + 2 ^ (32 * l.length) * t.toNat) / 2 := by
  have orv : ∀ (a b : UInt32), b = 0 ∨ b = 1 → ((a >>> 1) ||| (b <<< 31)).toNat = a.toNat / 2 + 2 ^ 31 * b.toNat := by
    intro a b hb
    have ha := a.toNat_lt
    rw [UInt32.toNat_or, UInt32.toNat_shiftRight]
    rcases hb with rfl | rfl
    · simp [Nat.shiftRight_eq_div_pow]
    · have : ((1 : UInt32) <<< 31).toNat = 2 ^ 31 * 1 := by decide
      rw [this, Nat.or_comm]
      rw [show a.toNat >>> (UInt32.toNat 1 % 32) = a.toNat / 2 by simp [Nat.shiftRight_eq_div_pow]]
      rw [← Nat.two_pow_add_eq_or_of_lt (by omega)]
      have : (1 : UInt32).toNat = 1 := rfl
      omega
  induction l with
  | nil => exact absurd rfl hl
  | cons a l ih =>
    cases l with
    | nil => simp only [halve, lval, orv a t ht, List.length_singleton]; omega
    | cons b l =>
      have hb : b &&& 1 = 0 ∨ b &&& 1 = 1 := by
        have : (b &&& 1).toNat = b.toNat % 2 := by rw [UInt32.toNat_and]; exact Nat.and_one_is_mod _
        rcases Nat.mod_two_eq_zero_or_one b.toNat with h | h
        · left; apply UInt32.toNat_inj.mp; rw [this, h]; rfl
        · right; apply UInt32.toNat_inj.mp; rw [this, h]; rfl
      have hbn : (b &&& 1).toNat = b.toNat % 2 := by rw [UInt32.toNat_and]; exact Nat.and_one_is_mod _
      have := ih (by simp)
      simp only [halve, lval, orv a _ hb, hbn, List.length_cons] at this ⊢
      rw [this]
      have hp : 2 ^ (32 * (l.length + 1 + 1)) * t.toNat = 2 ^ 32 * (2 ^ (32 * (l.length + 1)) * t.toNat) := by rw [pow32, Nat.mul_assoc]
      have hev : 2 ^ (32 * (l.length + 1)) * t.toNat = 2 ^ 32 * (2 ^ (32 * l.length) * t.toNat) := by rw [pow32, Nat.mul_assoc]
      rw [hp, hev]
      omega

end Int256
end Husk
