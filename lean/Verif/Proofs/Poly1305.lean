import Verif.Model.Poly1305
import Verif.Spec.Poly1305
import Mathlib.Tactic.Ring
import Mathlib.Data.Nat.ModEq
/-! Refinement of the limb implementation of Poly1305 to arithmetic modulo 2^130 - 5. -/

namespace Husk.Poly1305

theorem u32_shr (x : UInt32) (k : Nat) (hk : k < 32) : (x >>> UInt32.ofNat k).toNat = x.toNat / 2 ^ k := by
  rw [UInt32.toNat_shiftRight, Nat.shiftRight_eq_div_pow]
  congr 2
  simp
  omega

theorem u32_mask (x : UInt32) : (x &&& 0x3ffffff).toNat = x.toNat % 2 ^ 26 := by
  rw [UInt32.toNat_and, show UInt32.toNat 0x3ffffff = 2 ^ 26 - 1 from rfl, Nat.and_two_pow_sub_one_eq_mod]

theorem le32_toNat (b : Bytes) (i : Nat) (h : i + 4 ≤ b.length) : (le32 b i).toNat = leNat b / 256 ^ i % 2 ^ 32 := by
  unfold le32
  have hl : leNat ((b.drop i).take 4) < 256 ^ 4 := by
    have := leNat_lt ((b.drop i).take 4)
    rwa [show ((b.drop i).take 4).length = 4 by simp; omega] at this
  rw [UInt32.toNat_ofNat', Nat.mod_eq_of_lt (by simpa using hl)]
  have e1 : leNat b = leNat (b.take i) + 256 ^ i * leNat (b.drop i) := by
    conv => lhs; rw [← List.take_append_drop i b]
    rw [leNat_append, List.length_take, Nat.min_eq_left (by omega)]
  have e2 : leNat (b.drop i) = leNat ((b.drop i).take 4) + 256 ^ 4 * leNat ((b.drop i).drop 4) := by
    conv => lhs; rw [← List.take_append_drop 4 (b.drop i)]
    rw [leNat_append, show ((b.drop i).take 4).length = 4 by simp; omega]
  have hlt : leNat (b.take i) < 256 ^ i := by
    have := leNat_lt (b.take i)
    rwa [List.length_take, Nat.min_eq_left (by omega)] at this
  rw [e1, Nat.add_mul_div_left _ _ (Nat.pow_pos (by omega)), Nat.div_eq_of_lt hlt, Nat.zero_add, e2]
  omega

/-- Splitting of a bitwise AND at bit `k`. -/
theorem and_split (N m M k : Nat) (hm : m < 2 ^ k) : N &&& (m + 2 ^ k * M) = (N &&& m) + 2 ^ k * ((N / 2 ^ k) &&& M) := by
  have h1 : (N &&& (m + 2 ^ k * M)) % 2 ^ k = N &&& m := by
    rw [Nat.and_mod_two_pow, Nat.add_mul_mod_self_left, Nat.mod_eq_of_lt hm]
    conv => rhs; rw [← Nat.mod_eq_of_lt (Nat.lt_of_le_of_lt (@Nat.and_le_right N m) hm), Nat.and_mod_two_pow, Nat.mod_eq_of_lt hm]
  have h2 : (N &&& (m + 2 ^ k * M)) / 2 ^ k = (N / 2 ^ k) &&& M := by
    rw [Nat.and_div_two_pow, Nat.add_mul_div_left _ _ (Nat.two_pow_pos k), Nat.div_eq_of_lt hm, Nat.zero_add]
  rw [← h1, ← h2, Nat.mod_add_div]

/-- Value of five 26-bit limbs. -/
def val5 (a0 a1 a2 a3 a4 : Nat) : Nat := a0 + 2 ^ 26 * a1 + 2 ^ 52 * a2 + 2 ^ 78 * a3 + 2 ^ 104 * a4

theorem and_of_mod (x m k : Nat) (hm : m < 2 ^ k) : (x % 2 ^ k) &&& m = x &&& m := by
  have : (x &&& m) % 2 ^ k = x &&& m := Nat.mod_eq_of_lt (Nat.lt_of_le_of_lt Nat.and_le_right hm)
  rw [← this, Nat.and_mod_two_pow, Nat.mod_eq_of_lt hm]

/-- The limbs of `r` are the clamped `r`. -/
theorem new_r (r s : Bytes) (hr : r.length = 16) :
    let st := new r s
    val5 st.r0.toNat st.r1.toNat st.r2.toNat st.r3.toNat st.r4.toNat = Spec.Poly1305.clamp (leNat r) ∧
    st.r0.toNat < 2 ^ 26 ∧ st.r1.toNat < 2 ^ 26 ∧ st.r2.toNat < 2 ^ 26 ∧ st.r3.toNat < 2 ^ 26 ∧ st.r4.toNat < 2 ^ 20 := by
  have e0 : (new r s).r0.toNat = leNat r &&& 0x3ffffff := by
    simp only [new, UInt32.toNat_and, le32_toNat r 0 (by omega)]
    rw [show UInt32.toNat 0x3ffffff = 0x3ffffff from rfl, and_of_mod _ _ _ (by decide)]
    simp
  have sh : ∀ (i k : Nat) (x : UInt32), i + 4 ≤ 16 → (k : Nat) < 32 → x.toNat < 2 ^ (32 - k) →
      ((le32 r i >>> UInt32.ofNat k) &&& x).toNat = (leNat r / 2 ^ (8 * i + k)) &&& x.toNat := by
    intro i k x hi hk hx
    rw [UInt32.toNat_and, u32_shr _ _ hk, le32_toNat r i (by omega)]
    have : leNat r / 256 ^ i % 2 ^ 32 / 2 ^ k = (leNat r / 2 ^ (8 * i + k)) % 2 ^ (32 - k) := by
      rw [show (256 : Nat) = 2 ^ 8 from rfl, ← Nat.pow_mul, Nat.pow_add 2 (8 * i) k, ← Nat.div_div_eq_div_mul]
      conv => lhs; rw [show (32 : Nat) = k + (32 - k) by omega, Nat.pow_add, Nat.mod_mul_right_div_self]
    rw [this, and_of_mod _ _ _ hx]
  have e1 : (new r s).r1.toNat = leNat r / 2 ^ 26 &&& 0x3ffff03 := sh 3 2 0x3ffff03 (by omega) (by omega) (by decide)
  have e2 : (new r s).r2.toNat = leNat r / 2 ^ 52 &&& 0x3ffc0ff := sh 6 4 0x3ffc0ff (by omega) (by omega) (by decide)
  have e3 : (new r s).r3.toNat = leNat r / 2 ^ 78 &&& 0x3f03fff := sh 9 6 0x3f03fff (by omega) (by omega) (by decide)
  have e4 : (new r s).r4.toNat = leNat r / 2 ^ 104 &&& 0x00fffff := sh 12 8 0x00fffff (by omega) (by omega) (by decide)
  refine ⟨?_, ?_, ?_, ?_, ?_, ?_⟩
  · rw [e0, e1, e2, e3, e4, Spec.Poly1305.clamp,
      show 0x0ffffffc0ffffffc0ffffffc0fffffff = 0x3ffffff + 2 ^ 26 * (0x3ffff03 + 2 ^ 26 * (0x3ffc0ff + 2 ^ 26 * (0x3f03fff + 2 ^ 26 * 0x00fffff))) from rfl]
    rw [and_split _ _ _ _ (by decide), and_split _ _ _ _ (by decide), and_split _ _ _ _ (by decide), and_split _ _ _ _ (by decide)]
    simp only [Nat.div_div_eq_div_mul, val5]
    norm_num
    ring
  · rw [e0]; exact Nat.lt_of_le_of_lt Nat.and_le_right (by decide)
  · rw [e1]; exact Nat.lt_of_le_of_lt Nat.and_le_right (by decide)
  · rw [e2]; exact Nat.lt_of_le_of_lt Nat.and_le_right (by decide)
  · rw [e3]; exact Nat.lt_of_le_of_lt Nat.and_le_right (by decide)
  · rw [e4]; exact Nat.lt_of_le_of_lt Nat.and_le_right (by decide)

theorem dot5_spec (m : Mode) (a0 b0 a1 b1 a2 b2 a3 b3 a4 b4 : UInt32)
    (h : a0.toNat * b0.toNat + a1.toNat * b1.toNat + a2.toNat * b2.toNat + a3.toNat * b3.toNat + a4.toNat * b4.toNat < 2 ^ 64) :
    ∃ d, dot5 m a0 b0 a1 b1 a2 b2 a3 b3 a4 b4 = .ok d ∧
      d.toNat = a0.toNat * b0.toNat + a1.toNat * b1.toNat + a2.toNat * b2.toNat + a3.toNat * b3.toNat + a4.toNat * b4.toNat := by
  have c : ∀ x : UInt32, x.toUInt64.toNat = x.toNat := fun x => rfl
  unfold dot5
  obtain ⟨p0, h0, n0⟩ := mulU64_spec m a0.toUInt64 b0.toUInt64 (by rw [c, c]; omega)
  obtain ⟨p1, h1, n1⟩ := mulU64_spec m a1.toUInt64 b1.toUInt64 (by rw [c, c]; omega)
  obtain ⟨p2, h2, n2⟩ := mulU64_spec m a2.toUInt64 b2.toUInt64 (by rw [c, c]; omega)
  obtain ⟨p3, h3, n3⟩ := mulU64_spec m a3.toUInt64 b3.toUInt64 (by rw [c, c]; omega)
  obtain ⟨p4, h4, n4⟩ := mulU64_spec m a4.toUInt64 b4.toUInt64 (by rw [c, c]; omega)
  rw [c, c] at n0 n1 n2 n3 n4
  obtain ⟨q1, g1, k1⟩ := addU64_spec m p0 p1 (by omega)
  obtain ⟨q2, g2, k2⟩ := addU64_spec m q1 p2 (by omega)
  obtain ⟨q3, g3, k3⟩ := addU64_spec m q2 p3 (by omega)
  obtain ⟨q4, g4, k4⟩ := addU64_spec m q3 p4 (by omega)
  simp only [h0, h1, h2, h3, h4, g1, g2, g3, g4, Res.bind_ok]
  exact ⟨q4, rfl, by omega⟩

/-- The multiplication identity behind `d0..d4`, in any base `X`. -/
theorem mul_identity (X a0 a1 a2 a3 a4 r0 r1 r2 r3 r4 : Nat) :
    let E := (a1 * r4 + a2 * r3 + a3 * r2 + a4 * r1) + (a2 * r4 + a3 * r3 + a4 * r2) * X + (a3 * r4 + a4 * r3) * X ^ 2 + a4 * r4 * X ^ 3
    (a0 + X * a1 + X ^ 2 * a2 + X ^ 3 * a3 + X ^ 4 * a4) * (r0 + X * r1 + X ^ 2 * r2 + X ^ 3 * r3 + X ^ 4 * r4) + 5 * E =
    (a0 * r0 + a1 * (r4 * 5) + a2 * (r3 * 5) + a3 * (r2 * 5) + a4 * (r1 * 5)) +
    X * (a0 * r1 + a1 * r0 + a2 * (r4 * 5) + a3 * (r3 * 5) + a4 * (r2 * 5)) +
    X ^ 2 * (a0 * r2 + a1 * r1 + a2 * r0 + a3 * (r4 * 5) + a4 * (r3 * 5)) +
    X ^ 3 * (a0 * r3 + a1 * r2 + a2 * r1 + a3 * r0 + a4 * (r4 * 5)) +
    X ^ 4 * (a0 * r4 + a1 * r3 + a2 * r2 + a3 * r1 + a4 * r0) + X ^ 5 * E := by
  intro E
  simp only [E]
  ring

/-- The four limbs bounds that hold between blocks. -/
structure Bounded (st : State) : Prop where
  r0 : st.r0.toNat < 2 ^ 26
  r1 : st.r1.toNat < 2 ^ 26
  r2 : st.r2.toNat < 2 ^ 26
  r3 : st.r3.toNat < 2 ^ 26
  r4 : st.r4.toNat < 2 ^ 20
  h0 : st.h0.toNat < 2 ^ 26
  h1 : st.h1.toNat < 2 ^ 26 + 64
  h2 : st.h2.toNat < 2 ^ 26
  h3 : st.h3.toNat < 2 ^ 26
  h4 : st.h4.toNat < 2 ^ 26

/-- Value of the accumulator / of `r` / of the pad. -/
def State.H (st : State) : Nat := val5 st.h0.toNat st.h1.toNat st.h2.toNat st.h3.toNat st.h4.toNat
def State.R (st : State) : Nat := val5 st.r0.toNat st.r1.toNat st.r2.toNat st.r3.toNat st.r4.toNat
def State.pad (st : State) : Nat := st.pad0.toNat + 2 ^ 32 * st.pad1.toNat + 2 ^ 64 * st.pad2.toNat + 2 ^ 96 * st.pad3.toNat

/-- Limbs of a 16-byte block. -/
theorem block_limbs (b : Bytes) (hb : b.length = 16) (isPartial : Bool) :
    ∃ l0 l1 l2 l3 l4 : Nat, (le32 b 0 &&& 0x3ffffff).toNat = l0 ∧ ((le32 b 3 >>> 2) &&& 0x3ffffff).toNat = l1 ∧
      ((le32 b 6 >>> 4) &&& 0x3ffffff).toNat = l2 ∧ ((le32 b 9 >>> 6) &&& 0x3ffffff).toNat = l3 ∧
      ((le32 b 12 >>> 8) ||| (if isPartial then 0 else (1 : UInt32) <<< (24 : UInt32))).toNat = l4 ∧
      l0 < 2 ^ 26 ∧ l1 < 2 ^ 26 ∧ l2 < 2 ^ 26 ∧ l3 < 2 ^ 26 ∧ l4 < 2 ^ 25 ∧
      val5 l0 l1 l2 l3 l4 = leNat b + (if isPartial then 0 else 2 ^ 128) := by
  have hN : leNat b < 2 ^ 128 := by
    have := leNat_lt b
    rw [hb] at this
    exact this
  have e4 : (le32 b 12 >>> 8).toNat = leNat b / 2 ^ 104 := by
    rw [show (8 : UInt32) = UInt32.ofNat 8 from rfl, u32_shr _ _ (by omega), le32_toNat b 12 (by omega)]
    norm_num
    omega
  refine ⟨_, _, _, _, _, rfl, rfl, rfl, rfl, rfl, ?_⟩
  rw [u32_mask, u32_mask, u32_mask, u32_mask, show (2 : UInt32) = UInt32.ofNat 2 from rfl,
    show (4 : UInt32) = UInt32.ofNat 4 from rfl, show (6 : UInt32) = UInt32.ofNat 6 from rfl,
    u32_shr _ _ (by omega), u32_shr _ _ (by omega), u32_shr _ _ (by omega), le32_toNat b 0 (by omega), le32_toNat b 3 (by omega),
    le32_toNat b 6 (by omega), le32_toNat b 9 (by omega)]
  have e5 : ((le32 b 12 >>> 8) ||| (if isPartial then 0 else (1 : UInt32) <<< (24 : UInt32))).toNat =
      leNat b / 2 ^ 104 + (if isPartial then 0 else 2 ^ 24) := by
    rw [UInt32.toNat_or, e4]
    cases isPartial
    · simp only [Bool.false_eq_true, if_false]
      rw [show UInt32.toNat ((1 : UInt32) <<< (24 : UInt32)) = 1 <<< 24 from rfl, Nat.or_comm,
        ← Nat.shiftLeft_add_eq_or_of_lt (by omega)]
      omega
    · simp
  rw [e5]
  refine ⟨Nat.mod_lt _ (by decide), Nat.mod_lt _ (by decide), Nat.mod_lt _ (by decide), Nat.mod_lt _ (by decide), ?_, ?_⟩
  · split <;> omega
  · unfold val5
    norm_num
    split <;> omega

theorem u64_low26 (d : UInt64) : (d.toUInt32 &&& 0x3ffffff).toNat = d.toNat % 2 ^ 26 := by
  rw [u32_mask, UInt64.toNat_toUInt32]
  omega

theorem u64_high (d : UInt64) (h : d.toNat < 2 ^ 58) : (d >>> 26).toUInt32.toNat = d.toNat / 2 ^ 26 := by
  rw [UInt64.toNat_toUInt32, UInt64.toNat_shiftRight, Nat.shiftRight_eq_div_pow, show UInt64.toNat 26 % 64 = 26 from rfl]
  omega

theorem computeBlock_spec (m : Mode) (st : State) (b : Bytes) (hb : b.length = 16) (isPartial : Bool) (hst : Bounded st) :
    ∃ st', computeBlock m st b isPartial = .ok st' ∧ Bounded st' ∧ st'.R = st.R ∧ st'.pad = st.pad ∧
      st'.H % Spec.Poly1305.P = (st.H + (leNat b + if isPartial then 0 else 2 ^ 128)) * st.R % Spec.Poly1305.P := by
  obtain ⟨br0, br1, br2, br3, br4, bh0, bh1, bh2, bh3, bh4⟩ := hst
  obtain ⟨l0, l1, l2, l3, l4, el0, el1, el2, el3, el4, bl0, bl1, bl2, bl3, bl4, hval⟩ := block_limbs b hb isPartial
  have c64 : ∀ x : UInt32, x.toUInt64.toNat = x.toNat := fun x => rfl
  have c5 : UInt32.toNat 5 = 5 := rfl
  unfold computeBlock
  obtain ⟨s1, hs1, ns1⟩ := mulU32_spec m st.r1 5 (by rw [c5]; omega)
  obtain ⟨s2, hs2, ns2⟩ := mulU32_spec m st.r2 5 (by rw [c5]; omega)
  obtain ⟨s3, hs3, ns3⟩ := mulU32_spec m st.r3 5 (by rw [c5]; omega)
  obtain ⟨s4, hs4, ns4⟩ := mulU32_spec m st.r4 5 (by rw [c5]; omega)
  rw [c5] at ns1 ns2 ns3 ns4
  obtain ⟨a0, ha0, na0⟩ := addU32_spec m st.h0 _ (by rw [el0]; omega)
  obtain ⟨a1, ha1, na1⟩ := addU32_spec m st.h1 _ (by rw [el1]; omega)
  obtain ⟨a2, ha2, na2⟩ := addU32_spec m st.h2 _ (by rw [el2]; omega)
  obtain ⟨a3, ha3, na3⟩ := addU32_spec m st.h3 _ (by rw [el3]; omega)
  obtain ⟨a4, ha4, na4⟩ := addU32_spec m st.h4 _ (by rw [el4]; omega)
  rw [el0] at na0; rw [el1] at na1; rw [el2] at na2; rw [el3] at na3; rw [el4] at na4
  simp only [hs1, hs2, hs3, hs4, ha0, ha1, ha2, ha3, ha4, Res.bind_ok]
  -- bounds of the summands
  have B : ∀ {x y : Nat} (X Y : Nat), x ≤ X → y ≤ Y → x * y ≤ X * Y := fun _ _ h1 h2 => Nat.mul_le_mul h1 h2
  have b0 : a0.toNat ≤ 2 ^ 27 := by omega
  have b1 : a1.toNat ≤ 2 ^ 27 + 64 := by omega
  have b2 : a2.toNat ≤ 2 ^ 27 := by omega
  have b3 : a3.toNat ≤ 2 ^ 27 := by omega
  have b4 : a4.toNat ≤ 2 ^ 26 + 2 ^ 25 := by omega
  have bs1 : s1.toNat ≤ 5 * 2 ^ 26 := by omega
  have bs2 : s2.toNat ≤ 5 * 2 ^ 26 := by omega
  have bs3 : s3.toNat ≤ 5 * 2 ^ 26 := by omega
  have bs4 : s4.toNat ≤ 5 * 2 ^ 20 := by omega
  have p00 := B _ _ b0 (Nat.le_of_lt br0)
  have p01 := B _ _ b0 (Nat.le_of_lt br1)
  have p02 := B _ _ b0 (Nat.le_of_lt br2)
  have p03 := B _ _ b0 (Nat.le_of_lt br3)
  have p04 := B _ _ b0 (Nat.le_of_lt br4)
  have p10 := B _ _ b1 (Nat.le_of_lt br0)
  have p11 := B _ _ b1 (Nat.le_of_lt br1)
  have p12 := B _ _ b1 (Nat.le_of_lt br2)
  have p13 := B _ _ b1 (Nat.le_of_lt br3)
  have q14 := B _ _ b1 bs4
  have p20 := B _ _ b2 (Nat.le_of_lt br0)
  have p21 := B _ _ b2 (Nat.le_of_lt br1)
  have p22 := B _ _ b2 (Nat.le_of_lt br2)
  have q23 := B _ _ b2 bs3
  have q24 := B _ _ b2 bs4
  have p30 := B _ _ b3 (Nat.le_of_lt br0)
  have p31 := B _ _ b3 (Nat.le_of_lt br1)
  have q32 := B _ _ b3 bs2
  have q33 := B _ _ b3 bs3
  have q34 := B _ _ b3 bs4
  have p40 := B _ _ b4 (Nat.le_of_lt br0)
  have q41 := B _ _ b4 bs1
  have q42 := B _ _ b4 bs2
  have q43 := B _ _ b4 bs3
  have q44 := B _ _ b4 bs4
  obtain ⟨d0, hd0, nd0⟩ := dot5_spec m a0 st.r0 a1 s4 a2 s3 a3 s2 a4 s1 (by omega)
  obtain ⟨d1, hd1, nd1⟩ := dot5_spec m a0 st.r1 a1 st.r0 a2 s4 a3 s3 a4 s2 (by omega)
  obtain ⟨d2, hd2, nd2⟩ := dot5_spec m a0 st.r2 a1 st.r1 a2 st.r0 a3 s4 a4 s3 (by omega)
  obtain ⟨d3, hd3, nd3⟩ := dot5_spec m a0 st.r3 a1 st.r2 a2 st.r1 a3 st.r0 a4 s4 (by omega)
  obtain ⟨d4, hd4, nd4⟩ := dot5_spec m a0 st.r4 a1 st.r3 a2 st.r2 a3 st.r1 a4 st.r0 (by omega)
  have bd0 : d0.toNat < 2 ^ 57 := by omega
  have bd1 : d1.toNat < 2 ^ 57 := by omega
  have bd2 : d2.toNat < 2 ^ 57 := by omega
  have bd3 : d3.toNat < 2 ^ 57 := by omega
  have bd4 : d4.toNat < 4 * 2 ^ 53 - 2 ^ 50 := by omega
  clear p00 p01 p02 p03 p04 p10 p11 p12 p13 q14 p20 p21 p22 q23 q24 p30 p31 q32 q33 q34 p40 q41 q42 q43 q44
  simp only [hd0, hd1, hd2, hd3, hd4, Res.bind_ok]
  obtain ⟨e1, he1, ne1⟩ := addU64_spec m d1 (d0 >>> 26).toUInt32.toUInt64 (by rw [c64, u64_high _ (by omega)]; omega)
  rw [c64, u64_high _ (by omega)] at ne1
  simp only [he1, Res.bind_ok]
  obtain ⟨e2, he2, ne2⟩ := addU64_spec m d2 (e1 >>> 26).toUInt32.toUInt64 (by rw [c64, u64_high _ (by omega)]; omega)
  rw [c64, u64_high _ (by omega)] at ne2
  simp only [he2, Res.bind_ok]
  obtain ⟨e3, he3, ne3⟩ := addU64_spec m d3 (e2 >>> 26).toUInt32.toUInt64 (by rw [c64, u64_high _ (by omega)]; omega)
  rw [c64, u64_high _ (by omega)] at ne3
  simp only [he3, Res.bind_ok]
  obtain ⟨e4, he4, ne4⟩ := addU64_spec m d4 (e3 >>> 26).toUInt32.toUInt64 (by rw [c64, u64_high _ (by omega)]; omega)
  rw [c64, u64_high _ (by omega)] at ne4
  simp only [he4, Res.bind_ok]
  obtain ⟨c, hc, nc⟩ := mulU32_spec m (e4 >>> 26).toUInt32 5 (by rw [c5, u64_high _ (by omega)]; omega)
  rw [c5, u64_high _ (by omega)] at nc
  simp only [hc, Res.bind_ok]
  obtain ⟨f0, hf0, nf0⟩ := addU32_spec m (d0.toUInt32 &&& 0x3ffffff) c (by rw [u64_low26]; omega)
  rw [u64_low26] at nf0
  simp only [hf0, Res.bind_ok]
  have sf0 : (f0 >>> 26).toNat = f0.toNat / 2 ^ 26 := u32_shr f0 26 (by omega)
  obtain ⟨f1, hf1, nf1⟩ := addU32_spec m (e1.toUInt32 &&& 0x3ffffff) (f0 >>> 26) (by rw [u64_low26, sf0]; omega)
  rw [u64_low26, sf0] at nf1
  simp only [hf1, Res.bind_ok, Res.pure_def]
  have m0 := u32_mask f0
  have m2 := u64_low26 e2
  have m3 := u64_low26 e3
  have m4 := u64_low26 e4
  refine ⟨_, rfl, ⟨br0, br1, br2, br3, br4, ?_, ?_, ?_, ?_, ?_⟩, rfl, rfl, ?_⟩
  · rw [m0]; omega
  · simp only; omega
  · rw [m2]; omega
  · rw [m3]; omega
  · rw [m4]; omega
  · -- the value
    have hsum : st.H + (leNat b + if isPartial then 0 else 2 ^ 128) = val5 a0.toNat a1.toNat a2.toNat a3.toNat a4.toNat := by
      rw [← hval]
      simp only [State.H, val5]
      omega
    have hid := mul_identity (2 ^ 26) a0.toNat a1.toNat a2.toNat a3.toNat a4.toNat st.r0.toNat st.r1.toNat st.r2.toNat st.r3.toNat st.r4.toNat
    rw [← ns1, ← ns2, ← ns3, ← ns4, ← nd0, ← nd1, ← nd2, ← nd3, ← nd4] at hid
    rw [hsum]
    have hv : val5 (f0 &&& 0x3ffffff).toNat f1.toNat (e2.toUInt32 &&& 0x3ffffff).toNat (e3.toUInt32 &&& 0x3ffffff).toNat
        (e4.toUInt32 &&& 0x3ffffff).toNat + (2 ^ 130 - 5) * (e4.toNat / 2 ^ 26) = val5 d0.toNat d1.toNat d2.toNat d3.toNat d4.toNat := by
      rw [m0, m2, m3, m4]
      clear hid hsum hval nd0 nd1 nd2 nd3 nd4 na0 na1 na2 na3 na4 m0 m2 m3 m4
      simp only [val5]
      omega
    have hA : val5 a0.toNat a1.toNat a2.toNat a3.toNat a4.toNat = a0.toNat + 2 ^ 26 * a1.toNat + (2 ^ 26) ^ 2 * a2.toNat +
        (2 ^ 26) ^ 3 * a3.toNat + (2 ^ 26) ^ 4 * a4.toNat := by simp only [val5, ← Nat.pow_mul]
    have hR : st.R = st.r0.toNat + 2 ^ 26 * st.r1.toNat + (2 ^ 26) ^ 2 * st.r2.toNat +
        (2 ^ 26) ^ 3 * st.r3.toNat + (2 ^ 26) ^ 4 * st.r4.toNat := by simp only [State.R, val5, ← Nat.pow_mul]
    have hD : val5 d0.toNat d1.toNat d2.toNat d3.toNat d4.toNat = d0.toNat + 2 ^ 26 * d1.toNat + (2 ^ 26) ^ 2 * d2.toNat +
        (2 ^ 26) ^ 3 * d3.toNat + (2 ^ 26) ^ 4 * d4.toNat := by simp only [val5, ← Nat.pow_mul]
    simp only at hid
    rw [← hA, ← hR, ← hD, ← hv] at hid
    unfold State.H
    simp only
    rw [Spec.Poly1305.P]
    generalize val5 (f0 &&& 0x3ffffff).toNat f1.toNat (e2.toUInt32 &&& 0x3ffffff).toNat (e3.toUInt32 &&& 0x3ffffff).toNat
        (e4.toUInt32 &&& 0x3ffffff).toNat = Hn at hid ⊢
    generalize val5 a0.toNat a1.toNat a2.toNat a3.toNat a4.toNat * st.R = Z at hid ⊢
    generalize (a1.toNat * st.r4.toNat + a2.toNat * st.r3.toNat + a3.toNat * st.r2.toNat + a4.toNat * st.r1.toNat +
      (a2.toNat * st.r4.toNat + a3.toNat * st.r3.toNat + a4.toNat * st.r2.toNat) * 2 ^ 26 +
      (a3.toNat * st.r4.toNat + a4.toNat * st.r3.toNat) * (2 ^ 26) ^ 2 + a4.toNat * st.r4.toNat * (2 ^ 26) ^ 3) = E at hid
    have : Z = Hn + (2 ^ 130 - 5) * (e4.toNat / 2 ^ 26 + E) := by
      clear hA hR hD hv hsum hval nd0 nd1 nd2 nd3 nd4
      omega
    rw [this, Nat.add_mul_mod_self_left]

/-- The 32-bit words of a number given by five 26-bit limbs. -/
theorem pack_words (h0 h1 h2 h3 h4 : UInt32) (b0 : h0.toNat < 2 ^ 26) (b1 : h1.toNat < 2 ^ 26) (b2 : h2.toNat < 2 ^ 26)
    (b3 : h3.toNat < 2 ^ 26) :
    (h0 ||| (h1 <<< 26)).toNat + 2 ^ 32 * ((h1 >>> 6) ||| (h2 <<< 20)).toNat + 2 ^ 64 * ((h2 >>> 12) ||| (h3 <<< 14)).toNat +
      2 ^ 96 * ((h3 >>> 18) ||| (h4 <<< 8)).toNat = val5 h0.toNat h1.toNat h2.toNat h3.toNat h4.toNat % 2 ^ 128 := by
  have orr : ∀ (x y : UInt32) (k : Nat), k < 32 → x.toNat < 2 ^ k →
      (x ||| (y <<< UInt32.ofNat k)).toNat = x.toNat + 2 ^ k * (y.toNat % 2 ^ (32 - k)) := by
    intro x y k hk hx
    have h1 : (y <<< UInt32.ofNat k).toNat = (y.toNat % 2 ^ (32 - k)) <<< k := by
      rw [UInt32.toNat_shiftLeft]
      have : (UInt32.ofNat k).toNat % 32 = k := by simp; omega
      rw [this, Nat.shiftLeft_eq, Nat.shiftLeft_eq]
      conv => lhs; rw [show (32 : Nat) = (32 - k) + k by omega, Nat.pow_add]
      rw [Nat.mul_mod_mul_right]
    rw [UInt32.toNat_or, h1, Nat.or_comm, ← Nat.shiftLeft_add_eq_or_of_lt hx, Nat.shiftLeft_eq]
    ring
  have s1 : (h1 >>> 6).toNat = h1.toNat / 2 ^ 6 := u32_shr h1 6 (by omega)
  have s2 : (h2 >>> 12).toNat = h2.toNat / 2 ^ 12 := u32_shr h2 12 (by omega)
  have s3 : (h3 >>> 18).toNat = h3.toNat / 2 ^ 18 := u32_shr h3 18 (by omega)
  have o0 := orr h0 h1 26 (by omega) b0
  have o1 := orr (h1 >>> 6) h2 20 (by omega) (by rw [s1]; omega)
  have o2 := orr (h2 >>> 12) h3 14 (by omega) (by rw [s2]; omega)
  have o3 := orr (h3 >>> 18) h4 8 (by omega) (by rw [s3]; omega)
  rw [s1] at o1; rw [s2] at o2; rw [s3] at o3
  rw [show (26 : UInt32) = UInt32.ofNat 26 from rfl, show (20 : UInt32) = UInt32.ofNat 20 from rfl,
    show (14 : UInt32) = UInt32.ofNat 14 from rfl, show (8 : UInt32) = UInt32.ofNat 8 from rfl, o0, o1, o2, o3]
  clear o0 o1 o2 o3 orr s1 s2 s3
  simp only [val5]
  omega

theorem leBytes_add (j k n : Nat) : leBytes (j + k) n = leBytes j n ++ leBytes k (n / 256 ^ j) := by
  induction j generalizing n with
  | zero => simp [leBytes]
  | succ j ih =>
    rw [show j + 1 + k = (j + k) + 1 by omega, leBytes, ih, leBytes, Nat.div_div_eq_div_mul, Nat.pow_succ, Nat.mul_comm 256]
    rfl

theorem leBytes_mod (k n n' : Nat) (h : n % 256 ^ k = n' % 256 ^ k) : leBytes k n = leBytes k n' :=
  leNat_inj (by simp) (by rw [leNat_leBytes, leNat_leBytes, h])

/-- The selection between `h` and `h - p` by a mask. -/
theorem select_hi (h g : UInt32) : (h &&& ~~~(0 - 1)) ||| (g &&& (0 - 1)) = g := by
  apply UInt32.toBitVec_inj.mp
  simp only [UInt32.toBitVec_or, UInt32.toBitVec_and, UInt32.toBitVec_not]
  have : (0 - 1 : UInt32).toBitVec = BitVec.allOnes 32 := rfl
  rw [this, BitVec.not_allOnes, BitVec.and_zero, BitVec.zero_or, BitVec.and_allOnes]

theorem select_lo (h g : UInt32) : (h &&& ~~~(1 - 1)) ||| (g &&& (1 - 1)) = h := by
  apply UInt32.toBitVec_inj.mp
  simp only [UInt32.toBitVec_or, UInt32.toBitVec_and, UInt32.toBitVec_not]
  have : (1 - 1 : UInt32).toBitVec = 0#32 := rfl
  rw [this, BitVec.not_zero, BitVec.and_zero, BitVec.or_zero, BitVec.and_allOnes]

/-- The tail of `finalize`: adding the pad. -/
theorem addPad_spec (m : Mode) (w0 w1 w2 w3 p0 p1 p2 p3 : UInt32) :
    ∃ f0 f1 f2 f3 t1 t2 t3, addU64 m w0.toUInt64 p0.toUInt64 = .ok f0 ∧ addU64 m w1.toUInt64 p1.toUInt64 = .ok t1 ∧
      addU64 m t1 (f0 >>> 32) = .ok f1 ∧ addU64 m w2.toUInt64 p2.toUInt64 = .ok t2 ∧ addU64 m t2 (f1 >>> 32) = .ok f2 ∧
      addU64 m w3.toUInt64 p3.toUInt64 = .ok t3 ∧ addU64 m t3 (f2 >>> 32) = .ok f3 ∧
      leBytes 4 f0.toUInt32.toNat ++ leBytes 4 f1.toUInt32.toNat ++ leBytes 4 f2.toUInt32.toNat ++ leBytes 4 f3.toUInt32.toNat =
        leBytes 16 ((w0.toNat + 2 ^ 32 * w1.toNat + 2 ^ 64 * w2.toNat + 2 ^ 96 * w3.toNat) +
          (p0.toNat + 2 ^ 32 * p1.toNat + 2 ^ 64 * p2.toNat + 2 ^ 96 * p3.toNat)) := by
  have c64 : ∀ x : UInt32, x.toUInt64.toNat = x.toNat := fun x => rfl
  have lt := fun x : UInt32 => x.toNat_lt
  have sh : ∀ x : UInt64, (x >>> 32).toNat = x.toNat / 2 ^ 32 := by
    intro x
    rw [UInt64.toNat_shiftRight, Nat.shiftRight_eq_div_pow]
    rfl
  have l0 := lt w0; have l1 := lt w1; have l2 := lt w2; have l3 := lt w3
  have k0 := lt p0; have k1 := lt p1; have k2 := lt p2; have k3 := lt p3
  obtain ⟨f0, hf0, nf0⟩ := addU64_spec m w0.toUInt64 p0.toUInt64 (by rw [c64, c64]; omega)
  rw [c64, c64] at nf0
  obtain ⟨t1, ht1, nt1⟩ := addU64_spec m w1.toUInt64 p1.toUInt64 (by rw [c64, c64]; omega)
  rw [c64, c64] at nt1
  obtain ⟨f1, hf1, nf1⟩ := addU64_spec m t1 (f0 >>> 32) (by rw [sh]; omega)
  rw [sh] at nf1
  obtain ⟨t2, ht2, nt2⟩ := addU64_spec m w2.toUInt64 p2.toUInt64 (by rw [c64, c64]; omega)
  rw [c64, c64] at nt2
  obtain ⟨f2, hf2, nf2⟩ := addU64_spec m t2 (f1 >>> 32) (by rw [sh]; omega)
  rw [sh] at nf2
  obtain ⟨t3, ht3, nt3⟩ := addU64_spec m w3.toUInt64 p3.toUInt64 (by rw [c64, c64]; omega)
  rw [c64, c64] at nt3
  obtain ⟨f3, hf3, nf3⟩ := addU64_spec m t3 (f2 >>> 32) (by rw [sh]; omega)
  rw [sh] at nf3
  refine ⟨f0, f1, f2, f3, t1, t2, t3, hf0, ht1, hf1, ht2, hf2, ht3, hf3, ?_⟩
  apply leNat_inj (by simp)
  simp only [leNat_append, List.length_append, leBytes_length, leNat_leBytes, UInt64.toNat_toUInt32]
  norm_num
  omega

theorem finalize_spec (m : Mode) (st : State) (hst : Bounded st) :
    finalize m st = .ok (leBytes 16 (st.H % Spec.Poly1305.P + st.pad)) := by
  obtain ⟨-, -, -, -, -, bh0, bh1, bh2, bh3, bh4⟩ := hst
  have sh : ∀ x : UInt32, (x >>> 26).toNat = x.toNat / 2 ^ 26 := fun x => u32_shr x 26 (by omega)
  unfold finalize
  obtain ⟨x2, hx2, nx2⟩ := addU32_spec m st.h2 (st.h1 >>> 26) (by rw [sh]; omega)
  rw [sh] at nx2
  simp only [hx2, Res.bind_ok]
  obtain ⟨x3, hx3, nx3⟩ := addU32_spec m st.h3 (x2 >>> 26) (by rw [sh]; omega)
  rw [sh] at nx3
  simp only [hx3, Res.bind_ok]
  obtain ⟨x4, hx4, nx4⟩ := addU32_spec m st.h4 (x3 >>> 26) (by rw [sh]; omega)
  rw [sh] at nx4
  simp only [hx4, Res.bind_ok]
  have c5 : UInt32.toNat 5 = 5 := rfl
  obtain ⟨c, hc, nc⟩ := mulU32_spec m (x4 >>> 26) 5 (by rw [sh, c5]; omega)
  rw [sh, c5] at nc
  simp only [hc, Res.bind_ok]
  obtain ⟨x0, hx0, nx0⟩ := addU32_spec m st.h0 c (by omega)
  simp only [hx0, Res.bind_ok]
  obtain ⟨y1, hy1, ny1⟩ := addU32_spec m (st.h1 &&& 0x3ffffff) (x0 >>> 26) (by rw [sh, u32_mask]; omega)
  rw [sh, u32_mask] at ny1
  simp only [hy1, Res.bind_ok]
  -- the fully carried limbs
  have ny0 := u32_mask x0
  have ny2 := u32_mask x2
  have ny3 := u32_mask x3
  have ny4 := u32_mask x4
  generalize x0 &&& 0x3ffffff = y0 at *
  generalize x2 &&& 0x3ffffff = y2 at *
  generalize x3 &&& 0x3ffffff = y3 at *
  generalize x4 &&& 0x3ffffff = y4 at *
  have by0 : y0.toNat < 2 ^ 26 := by omega
  have by1 : y1.toNat < 2 ^ 26 := by omega
  have by2 : y2.toNat < 2 ^ 26 := by omega
  have by3 : y3.toNat < 2 ^ 26 := by omega
  have by4 : y4.toNat < 2 ^ 26 := by omega
  have hY : st.H = val5 y0.toNat y1.toNat y2.toNat y3.toNat y4.toNat + (2 ^ 130 - 5) * (x4.toNat / 2 ^ 26) := by
    simp only [State.H, val5]
    omega
  have hYmod : st.H % Spec.Poly1305.P = val5 y0.toNat y1.toNat y2.toNat y3.toNat y4.toNat % Spec.Poly1305.P := by
    rw [hY, Spec.Poly1305.P, Nat.add_mul_mod_self_left]
  rw [hYmod]
  clear hYmod hY ny0 ny1 ny2 ny3 ny4 nx0 nx2 nx3 nx4 nc hx0 hx2 hx3 hx4 hc hy1 bh0 bh1 bh2 bh3 bh4 c x0 x2 x3 x4
  -- the limbs of h + 5
  have add_nat : ∀ a b : UInt32, a.toNat + b.toNat < 2 ^ 32 → (a + b).toNat = a.toNat + b.toNat := by
    intro a b h
    rw [UInt32.toNat_add, Nat.mod_eq_of_lt h]
  have n0 : (y0 + 5).toNat = y0.toNat + 5 := add_nat _ _ (by rw [c5]; omega)
  generalize y0 + 5 = z0 at *
  have n1 : (y1 + z0 >>> 26).toNat = y1.toNat + z0.toNat / 2 ^ 26 := by rw [add_nat _ _ (by rw [sh]; omega), sh]
  generalize y1 + z0 >>> 26 = z1 at *
  have n2 : (y2 + z1 >>> 26).toNat = y2.toNat + z1.toNat / 2 ^ 26 := by rw [add_nat _ _ (by rw [sh]; omega), sh]
  generalize y2 + z1 >>> 26 = z2 at *
  have n3 : (y3 + z2 >>> 26).toNat = y3.toNat + z2.toNat / 2 ^ 26 := by rw [add_nat _ _ (by rw [sh]; omega), sh]
  generalize y3 + z2 >>> 26 = z3 at *
  have n4 : (y4 + z3 >>> 26).toNat = y4.toNat + z3.toNat / 2 ^ 26 := by rw [add_nat _ _ (by rw [sh]; omega), sh]
  generalize y4 + z3 >>> 26 = z4 at *
  have k26 : ((1 : UInt32) <<< (26 : UInt32)).toNat = 2 ^ 26 := rfl
  have n5 : (z4 - (1 : UInt32) <<< (26 : UInt32)).toNat = (2 ^ 32 - 2 ^ 26 + z4.toNat) % 2 ^ 32 := by
    rw [UInt32.toNat_sub, k26]
  have n31 : ((z4 - (1 : UInt32) <<< (26 : UInt32)) >>> 31).toNat = ((2 ^ 32 - 2 ^ 26 + z4.toNat) % 2 ^ 32) / 2 ^ 31 := by
    rw [show (31 : UInt32) = UInt32.ofNat 31 from rfl, u32_shr _ _ (by omega), n5]
  by_cases hge : 2 ^ 26 ≤ z4.toNat
  · have e : (z4 - (1 : UInt32) <<< (26 : UInt32)) >>> 31 = 0 := by
      apply UInt32.toNat_inj.mp
      rw [n31]
      show _ = 0
      omega
    have n5' : (z4 - (1 : UInt32) <<< (26 : UInt32)).toNat = z4.toNat - 2 ^ 26 := by rw [n5]; omega
    simp only [e, select_hi]
    obtain ⟨f0, f1, f2, f3, t1, t2, t3, q0, q1, q2, q3, q4, q5, q6, hq⟩ := addPad_spec m
      ((z0 &&& 0x3ffffff) ||| (z1 &&& 0x3ffffff) <<< (26 : UInt32)) (((z1 &&& 0x3ffffff) >>> (6 : UInt32)) ||| (z2 &&& 0x3ffffff) <<< (20 : UInt32))
      (((z2 &&& 0x3ffffff) >>> (12 : UInt32)) ||| (z3 &&& 0x3ffffff) <<< (14 : UInt32)) (((z3 &&& 0x3ffffff) >>> (18 : UInt32)) ||| (z4 - (1 : UInt32) <<< (26 : UInt32)) <<< (8 : UInt32))
      st.pad0 st.pad1 st.pad2 st.pad3
    simp only [q0, q1, q2, q3, q4, q5, q6, Res.bind_ok, Res.pure_def, hq]
    rw [pack_words _ _ _ _ _ (by rw [u32_mask]; omega) (by rw [u32_mask]; omega) (by rw [u32_mask]; omega) (by rw [u32_mask]; omega)]
    congr 1
    apply leBytes_mod
    have : val5 y0.toNat y1.toNat y2.toNat y3.toNat y4.toNat % Spec.Poly1305.P =
        val5 (z0 &&& 0x3ffffff).toNat (z1 &&& 0x3ffffff).toNat (z2 &&& 0x3ffffff).toNat (z3 &&& 0x3ffffff).toNat
          (z4 - (1 : UInt32) <<< (26 : UInt32)).toNat := by
      rw [u32_mask, u32_mask, u32_mask, u32_mask, n5', Spec.Poly1305.P]
      simp only [val5]
      omega
    rw [this, State.pad]
    norm_num
  · have e : (z4 - (1 : UInt32) <<< (26 : UInt32)) >>> 31 = 1 := by
      apply UInt32.toNat_inj.mp
      rw [n31]
      show _ = 1
      omega
    simp only [e, select_lo]
    obtain ⟨f0, f1, f2, f3, t1, t2, t3, q0, q1, q2, q3, q4, q5, q6, hq⟩ := addPad_spec m
      (y0 ||| y1 <<< (26 : UInt32)) ((y1 >>> (6 : UInt32)) ||| y2 <<< (20 : UInt32)) ((y2 >>> (12 : UInt32)) ||| y3 <<< (14 : UInt32)) ((y3 >>> (18 : UInt32)) ||| y4 <<< (8 : UInt32))
      st.pad0 st.pad1 st.pad2 st.pad3
    simp only [q0, q1, q2, q3, q4, q5, q6, Res.bind_ok, Res.pure_def, hq]
    rw [pack_words _ _ _ _ _ by0 by1 by2 by3]
    congr 1
    apply leBytes_mod
    have : val5 y0.toNat y1.toNat y2.toNat y3.toNat y4.toNat % Spec.Poly1305.P = val5 y0.toNat y1.toNat y2.toNat y3.toNat y4.toNat := by
      apply Nat.mod_eq_of_lt
      rw [Spec.Poly1305.P]
      simp only [val5]
      omega
    rw [this, State.pad]
    norm_num

theorem new_bounded (r s : Bytes) (hr : r.length = 16) : Bounded (new r s) := by
  obtain ⟨_, h0, h1, h2, h3, h4⟩ := new_r r s hr
  refine ⟨h0, h1, h2, h3, h4, ?_, ?_, ?_, ?_, ?_⟩ <;> simp [new]

theorem new_pad (r s : Bytes) (hs : s.length = 16) : (new r s).pad = leNat s := by
  have hN : leNat s < 2 ^ 128 := by
    have := leNat_lt s
    rw [hs] at this
    exact this
  simp only [State.pad, new, le32_toNat s 0 (by omega), le32_toNat s 4 (by omega), le32_toNat s 8 (by omega), le32_toNat s 12 (by omega)]
  norm_num
  omega

theorem absorb_spec (m : Mode) (st : State) (b : Bytes) (hb : b.length ≤ 16) (hst : Bounded st) :
    ∃ st', absorb m st b = .ok st' ∧ Bounded st' ∧ st'.R = st.R ∧ st'.pad = st.pad ∧
      st'.H % Spec.Poly1305.P = (st.H + Spec.Poly1305.blockNum b) * st.R % Spec.Poly1305.P := by
  unfold absorb Spec.Poly1305.blockNum
  by_cases h : b.length = 16
  · simp only [h, beq_self_eq_true, if_true]
    obtain ⟨st', h1, h2, h3, h4, h5⟩ := computeBlock_spec m st b h false hst
    exact ⟨st', h1, h2, h3, h4, by simpa using h5⟩
  · have hbeq : (b.length == 16) = false := by simpa using h
    simp only [hbeq, Bool.false_eq_true, if_false]
    obtain ⟨st', h1, h2, h3, h4, h5⟩ := computeBlock_spec m st (b ++ [1] ++ List.replicate (15 - b.length) 0) (by simp; omega) true hst
    refine ⟨st', h1, h2, h3, h4, ?_⟩
    have hz : ∀ n, leNat (List.replicate n 0) = 0 := by
      intro n
      induction n with
      | zero => rfl
      | succ n ih => simp [List.replicate_succ, leNat, ih]
    rw [h5]
    simp only [leNat_append, hz, if_true, leNat]
    rw [show (256 : Nat) = 2 ^ 8 from rfl, ← Nat.pow_mul]
    simp

theorem absorbAll_spec (m : Mode) (bs : List Bytes) (hbs : ∀ b ∈ bs, b.length ≤ 16) (r acc : Nat) (st : State) (hst : Bounded st)
    (hr : st.R = r) (hacc : st.H % Spec.Poly1305.P = acc) :
    ∃ st', absorbAll m bs st = .ok st' ∧ Bounded st' ∧ st'.pad = st.pad ∧
      st'.H % Spec.Poly1305.P = bs.foldl (fun acc b => (acc + Spec.Poly1305.blockNum b) * r % Spec.Poly1305.P) acc := by
  induction bs generalizing st acc with
  | nil => exact ⟨st, rfl, hst, rfl, hacc⟩
  | cons b bs ih =>
    obtain ⟨st1, h1, h2, h3, h4, h5⟩ := absorb_spec m st b (hbs b (by simp)) hst
    have hacc1 : st1.H % Spec.Poly1305.P = (acc + Spec.Poly1305.blockNum b) * r % Spec.Poly1305.P := by
      rw [h5, ← hacc, hr]
      exact Nat.ModEq.mul_right _ (Nat.ModEq.add_right _ (Nat.mod_modEq _ _).symm)
    obtain ⟨st2, g1, g2, g3, g4⟩ := ih (fun b hb => hbs b (by simp [hb])) _ st1 h2 (h3.trans hr) hacc1
    exact ⟨st2, by simp only [absorbAll, h1, Res.bind_ok, g1], g2, g3.trans h4, g4⟩

theorem authenticate_spec (m : Mode) (msg r s : Bytes) (hr : r.length = 16) (hs : s.length = 16) :
    authenticate m msg r s = .ok (Spec.Poly1305.mac msg r s) := by
  obtain ⟨st, h1, h2, h3, h4⟩ := absorbAll_spec m (chunks 16 msg) (chunks_length_le (by omega) msg) _ 0 (new r s)
    (new_bounded r s hr) (new_r r s hr).1 rfl
  unfold authenticate
  simp only [h1, Res.bind_ok, finalize_spec m st h2]
  rw [h4, h3, new_pad r s hs]
  rfl

end Husk.Poly1305
