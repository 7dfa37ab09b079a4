import Verif.Proofs.Ecdhe
import Mathlib.Data.Set.Card
/-! C51-C55, C57, C58: the ECDHE key exchange (src/cipher/ecdhe.rs). -/

namespace Husk

open Spec.P256 (p F curve p_eq)
open Int256
open WeierstrassCurve.Affine
open Ecdhe

/-! ### helpers -/

theorem b_ne_zero : (Spec.P256.b : F) ≠ 0 := by
  rw [Ne, ZMod.natCast_eq_zero_iff]
  exact fun h => absurd (Nat.mod_eq_zero_of_dvd h) (by decide)

theorem not_onCurve_zero : ¬ OnCurve 0 0 := by decide

theorem beBytes32_inj {a b : Nat} (ha : a < 2 ^ 256) (hb : b < 2 ^ 256) (h : beBytes 32 a = beBytes 32 b) : a = b := by
  have := congrArg beNat h
  rw [beNat_beBytes, beNat_beBytes] at this
  have e : 256 ^ 32 = 2 ^ 256 := by decide
  rw [e, Nat.mod_eq_of_lt ha, Nat.mod_eq_of_lt hb] at this
  exact this

theorem val_lt_256 (x : F) : x.val < 2 ^ 256 := by
  have := ZMod.val_lt x
  have h := p_eq
  omega

theorem encode_pair_inj {a b c d : F} (h : 4 :: (beBytes 32 a.val ++ beBytes 32 b.val) = (4 : UInt8) :: (beBytes 32 c.val ++ beBytes 32 d.val)) :
    a = c ∧ b = d := by
  have h := (List.cons.inj h).2
  obtain ⟨h1, h2⟩ := List.append_inj h (by simp)
  exact ⟨ZMod.val_injective _ (beBytes32_inj (val_lt_256 a) (val_lt_256 c) h1),
    ZMod.val_injective _ (beBytes32_inj (val_lt_256 b) (val_lt_256 d) h2)⟩

/-- Different points have different encodings (infinity included, because (0, 0) is not on the curve). -/
theorem encode_inj {P Q : curve.Point} (h : Spec.P256.encode P = Spec.P256.encode Q) : P = Q := by
  have h0 : ∀ x y : F, curve.Nonsingular x y → ¬ (x = 0 ∧ y = 0) := by
    rintro x y hn ⟨rfl, rfl⟩
    rw [Spec.P256.nonsingular_iff] at hn
    exact b_ne_zero (by linear_combination -hn)
  have hz : beBytes 32 0 = beBytes 32 (0 : F).val := by rw [ZMod.val_zero]
  cases P with
  | zero =>
    cases Q with
    | zero => rfl
    | some x y hn =>
      simp only [Spec.P256.encode] at h
      rw [hz] at h
      obtain ⟨h1, h2⟩ := encode_pair_inj h
      exact absurd ⟨h1.symm, h2.symm⟩ (h0 x y hn)
  | some x y hn =>
    cases Q with
    | zero =>
      simp only [Spec.P256.encode] at h
      rw [hz] at h
      exact absurd (encode_pair_inj h) (h0 x y hn)
    | some x' y' hn' =>
      obtain ⟨rfl, rfl⟩ := encode_pair_inj h
      rfl

theorem effective_lt_n (x : Int256) : Point256.effective x < Spec.P256.n := lt_trans (Point256.effective_lt x) (by decide)

theorem effective_inj_iff (a b : Int256) :
    Point256.effective a = Point256.effective b ↔ ∀ i < 7, (a.val / 2 ^ (32 * i)) % 256 = (b.val / 2 ^ (32 * i)) % 256 := by
  rw [effective_sum, effective_sum]
  obtain ⟨f, hf⟩ : ∃ f : Nat → Nat, ∀ i, f i = (a.val / 2 ^ (32 * i)) % 256 := ⟨_, fun _ => rfl⟩
  obtain ⟨g, hg⟩ : ∃ g : Nat → Nat, ∀ i, g i = (b.val / 2 ^ (32 * i)) % 256 := ⟨_, fun _ => rfl⟩
  simp only [← hf, ← hg]
  have hf' : ∀ i, f i < 256 := fun i => by rw [hf]; exact Nat.mod_lt _ (by decide)
  have hg' : ∀ i, g i < 256 := fun i => by rw [hg]; exact Nat.mod_lt _ (by decide)
  constructor
  · intro h
    simp only [Finset.sum_range_succ, Finset.sum_range_zero] at h
    have := hf' 0; have := hf' 1; have := hf' 2; have := hf' 3; have := hf' 4; have := hf' 5; have := hf' 6
    have := hg' 0; have := hg' 1; have := hg' 2; have := hg' 3; have := hg' 4; have := hg' 5; have := hg' 6
    intro i hi
    match i, hi with
    | 0, _ => omega
    | 1, _ => omega
    | 2, _ => omega
    | 3, _ => omega
    | 4, _ => omega
    | 5, _ => omega
    | 6, _ => omega
  · intro h
    exact Finset.sum_congr rfl fun i hi => by rw [h i (Finset.mem_range.mp hi)]

/-- Every number below 2^56 is the effective scalar of one of the candidates. -/
theorem effective_surj (k : Nat) (hk : k < 2 ^ 56) : ∃ x : Int256, x.val < p ∧ Point256.effective x = k := by
  have hp := p_eq
  have hb : ∀ j, (UInt32.ofNat (k / 256 ^ j % 256)).toNat = k / 256 ^ j % 256 := by
    intro j
    rw [UInt32.toNat_ofNat', Nat.mod_eq_of_lt]
    have := Nat.mod_lt (k / 256 ^ j) (show 256 > 0 by decide)
    omega
  refine ⟨⟨[UInt32.ofNat (k / 256 ^ 0 % 256), UInt32.ofNat (k / 256 ^ 1 % 256), UInt32.ofNat (k / 256 ^ 2 % 256), UInt32.ofNat (k / 256 ^ 3 % 256),
    UInt32.ofNat (k / 256 ^ 4 % 256), UInt32.ofNat (k / 256 ^ 5 % 256), UInt32.ofNat (k / 256 ^ 6 % 256), 0], rfl⟩, ?_, ?_⟩
  · simp only [val, lval, hb, UInt32.toNat_zero]
    omega
  · simp only [Point256.effective, List.getD_cons_zero, List.getD_cons_succ, hb]
    omega

/-! ### C51 -/

/-- The public key of a secret scalar: what `compute_keys` sends, src/cipher/ecdhe.rs:150. -/
def publicKey (m : Mode) (x : Int256) : Res Bytes := do
  let q ← Point256.G.multScalar m x
  let q ← q.normalize m
  return q.toUncompressedBytes

theorem publicKey_eq (m : Mode) (x : Int256) : publicKey m x = .ok (Spec.P256.encode (Point256.effective x • Spec.P256.G)) := by
  obtain ⟨g, hg, hgr⟩ := Point256.multScalar_rep m _ _ Point256.G_rep x
  obtain ⟨gn, hgn, he, _⟩ := normalize_rep m g _ hgr
  simp only [publicKey, hg, Res.bind_ok, hgn, he]
  rfl

/-- C51, the full statement: distinct secrets in [1, n) have distinct public keys. -/
def DistinctKeys (m : Mode) : Prop :=
  ∀ a b : Int256, 1 ≤ a.val → a.val < Spec.P256.n → 1 ≤ b.val → b.val < Spec.P256.n → a.val ≠ b.val → publicKey m a ≠ publicKey m b

/-- Two secrets have the same public key exactly when they agree in the low byte of each of the seven low 32-bit limbs. -/
theorem C51_same_key_iff (m : Mode) (a b : Int256) :
    publicKey m a = publicKey m b ↔ ∀ i < 7, (a.val / 2 ^ (32 * i)) % 256 = (b.val / 2 ^ (32 * i)) % 256 := by
  rw [publicKey_eq, publicKey_eq, ← effective_inj_iff]
  constructor
  · intro h
    exact Spec.P256.smul_G_inj (effective_lt_n a) (effective_lt_n b) (encode_inj (Res.ok.inj h))
  · intro h; rw [h]

/-- The statement is false: 256 and 512 have the same public key. -/
theorem C51_not_distinct (m : Mode) : ¬ DistinctKeys m := by
  intro h
  have h1 : (ofNat 256).val = 256 := val_ofNat (by decide)
  have h2 : (ofNat 512).val = 512 := val_ofNat (by decide)
  refine h (ofNat 256) (ofNat 512) (by rw [h1]; decide) (by rw [h1]; decide) (by rw [h2]; decide) (by rw [h2]; decide) (by rw [h1, h2]; decide) ?_
  rw [C51_same_key_iff, h1, h2]
  decide

/-- Part of the statement that holds: secrets below 256 have distinct public keys. -/
theorem C51_distinct_below_256_partial (m : Mode) (a b : Int256) (ha : a.val < 256) (hb : b.val < 256) (h : a.val ≠ b.val) :
    publicKey m a ≠ publicKey m b := by
  intro hc
  have := (C51_same_key_iff m a b).mp hc 0 (by decide)
  simp at this
  omega

/-- The size of the key space: the secrets `get_random_x` can return have exactly 2^56 public keys. -/
theorem C51_key_space (m : Mode) : Set.ncard {k : Bytes | ∃ x : Int256, x.val < p ∧ publicKey m x = .ok k} = 2 ^ 56 := by
  have e : {k : Bytes | ∃ x : Int256, x.val < p ∧ publicKey m x = .ok k} =
      (fun k : Nat => Spec.P256.encode (k • Spec.P256.G)) '' (Set.Iio (2 ^ 56)) := by
    ext k
    simp only [Set.mem_setOf_eq, Set.mem_image, Set.mem_Iio]
    constructor
    · rintro ⟨x, _, hx⟩
      rw [publicKey_eq] at hx
      exact ⟨_, Point256.effective_lt x, Res.ok.inj hx⟩
    · rintro ⟨j, hj, rfl⟩
      obtain ⟨x, hx, he⟩ := effective_surj j hj
      exact ⟨x, hx, by rw [publicKey_eq, he]⟩
  rw [e, Set.ncard_image_of_injOn]
  · rw [← Finset.coe_Iio, Set.ncard_coe_finset, Nat.card_Iio]
  · intro a ha b hb h
    have hlt : (2 : Nat) ^ 56 < Spec.P256.n := by decide
    exact Spec.P256.smul_G_inj (lt_trans ha hlt) (lt_trans hb hlt) (encode_inj h)

/-! ### C55: the random scalar -/

/-- The scalar is the first of the 32-byte candidates (read little endian) that is below p; exactly the bytes up to it are consumed. -/
theorem C55_first_below_p (m : Mode) (blocks : List Bytes) (block rest : Bytes) (hb : ∀ b ∈ blocks, b.length = 32 ∧ p ≤ leNat b)
    (hl : block.length = 32) (hlt : leNat block < p) :
    ∃ x : Int256, x.val = leNat block ∧ (getRandomX m).run { bytes := blocks.flatten ++ block ++ rest } = (.ok x, { bytes := rest }) := by
  refine randomLoop_first m blocks block rest ((blocks.flatten ++ block ++ rest).length + 1) ?_ hb hl hlt
  have h2 : blocks.length ≤ blocks.flatten.length := by
    clear hl hlt
    induction blocks with
    | nil => simp
    | cons b bs ih =>
      have := ih (fun c hc => hb c (List.mem_cons_of_mem _ hc))
      have h := (hb b (List.mem_cons_self ..)).1
      simp only [List.length_cons, List.flatten_cons, List.length_append]
      omega
  simp only [List.length_append]
  omega

/-- Nothing else happens: `get_random_x` asks for more bytes than the script has, or returns such a scalar. -/
theorem C55_only (m : Mode) (r : Rng) :
    (∃ s, (getRandomX m).run r = (.diverge, s)) ∨
    ∃ (blocks : List Bytes) (block rest : Bytes) (x : Int256), r.bytes = blocks.flatten ++ block ++ rest ∧ (∀ b ∈ blocks, b.length = 32 ∧ p ≤ leNat b) ∧
      block.length = 32 ∧ leNat block < p ∧ x.val = leNat block ∧ (getRandomX m).run r = (.ok x, { bytes := rest }) :=
  randomLoop_inv m (r.bytes.length + 1) r

/-- In particular the scalar is reduced. -/
theorem C55_reduced (m : Mode) (r s : Rng) (x : Int256) (h : (getRandomX m).run r = (.ok x, s)) : x.val < p := by
  rcases C55_only m r with ⟨s', h'⟩ | ⟨_, block, rest, y, _, _, _, hlt, hy, h'⟩
  · rw [h] at h'; cases h'
  · rw [h] at h'
    cases h'
    omega

/-- A script that begins with a candidate that is too large (all bits set). -/
example (m : Mode) : ∃ x : Int256, x.val = 5 ∧
    (getRandomX m).run { bytes := List.replicate 32 255 ++ (5 :: List.replicate 31 0) ++ [1, 2] } = (.ok x, { bytes := [1, 2] }) := by
  have := C55_first_below_p m [List.replicate 32 255] (5 :: List.replicate 31 0) [1, 2] (by
    intro b hb
    rw [List.mem_singleton.mp hb]
    exact ⟨rfl, by decide⟩) rfl (by decide)
  simpa [leNat] using this

/-! ### `compute_keys` step by step -/

theorem computeKeys_reject (m : Mode) (data rest : Bytes) (k : TlsErrorKind) (rng : Rng)
    (h : (TlsItem.read (α := EcdheServerKeyExchange)).run data = (.err k, rest)) : (computeKeys m data).run rng = (.err k, rng) := by
  rw [computeKeys, h]
  exact St.bind_of_err rfl

theorem computeKeys_point (m : Mode) (data rest : Bytes) (ps : EcdheServerKeyExchange) (rng : Rng)
    (h : (TlsItem.read (α := EcdheServerKeyExchange)).run data = (.ok ps, rest)) :
    (computeKeys m data).run rng = match NPoint256.fromUncompressedBytes m ps.params.pub.items with
      | .ok (some q) => (getRandomX m >>= fun x => St.lift (keysFrom m q.toPoint x)).run rng
      | .ok none => (.err .IllegalParameter, rng)
      | .err k => (.err k, rng)
      | .panic => (.panic, rng)
      | .diverge => (.diverge, rng) := by
  rw [computeKeys, h, St.bind_of_ok (St.lift_run _ _)]
  rcases hq : NPoint256.fromUncompressedBytes m ps.params.pub.items with (_ | q) | k | _ | _
  · rw [St.bind_of_ok (St.lift_run _ _)]; rfl
  · rw [St.bind_of_ok (St.lift_run _ _)]
  · rw [St.bind_of_err (St.lift_run _ _)]
  · rw [St.bind_of_panic (St.lift_run _ _)]
  · rw [St.bind_of_diverge (St.lift_run _ _)]

theorem fromUncompressed_no_err (m : Mode) (d : Bytes) :
    (∃ r, NPoint256.fromUncompressedBytes m d = .ok r) ∨ (m = .debug ∧ NPoint256.fromUncompressedBytes m d = .panic) := by
  have hadd : ∀ a b, (∃ r, addN m a b = .ok r) ∨ (m = .debug ∧ addN m a b = .panic) := by
    intro a b
    rw [addN.eq_def]
    split
    · exact Or.inl ⟨_, rfl⟩
    · cases m
      · exact Or.inr ⟨rfl, rfl⟩
      · exact Or.inl ⟨_, rfl⟩
  rcases fromUncompressed_parts m d with ⟨_, h⟩ | ⟨x, y, _, h⟩
  · exact Or.inl ⟨_, h⟩
  · rw [h, C48_check, checkCurveN]
    rcases hadd x.val x.val with ⟨r, hr⟩ | ⟨hm, hr⟩
    · rcases hadd r x.val with ⟨r2, hr2⟩ | ⟨hm, hr2⟩
      · rcases hadd (y.val * y.val % p) r2 with ⟨r3, hr3⟩ | ⟨hm, hr3⟩
        · rw [hr]; simp only [Res.bind]; rw [hr2]; simp only []; rw [hr3]; exact Or.inl ⟨_, rfl⟩
        · rw [hr]; simp only [Res.bind]; rw [hr2]; simp only []; rw [hr3]; exact Or.inr ⟨hm, rfl⟩
      · rw [hr]; simp only [Res.bind]; rw [hr2]; exact Or.inr ⟨hm, rfl⟩
    · rw [hr]; exact Or.inr ⟨hm, rfl⟩

/-- After the server's point is accepted, `compute_keys` waits for a good candidate and returns. -/
theorem keys_run (m : Mode) (q : NPoint256) (rng : Rng) :
    (∃ s, (getRandomX m >>= fun x => St.lift (keysFrom m q.toPoint x)).run rng = (.diverge, s)) ∨
    ∃ x s, (getRandomX m).run rng = (.ok x, s) ∧
      (getRandomX m >>= fun x => St.lift (keysFrom m q.toPoint x)).run rng = (keysFrom m q.toPoint x, s) := by
  rcases C55_only m rng with ⟨s, h⟩ | ⟨_, _, rest, x, _, _, _, _, _, h⟩
  · exact Or.inl ⟨s, St.bind_of_diverge h⟩
  · exact Or.inr ⟨x, _, h, by rw [St.bind_of_ok h, St.lift_run]⟩

/-- Whatever `compute_keys` returns when it succeeds: the server's data decoded, its point was accepted, a scalar was drawn. -/
theorem computeKeys_ok {m : Mode} {data : Bytes} {rng rng' : Rng} {r : Bytes × Bytes} (h : (computeKeys m data).run rng = (.ok r, rng')) :
    ∃ ps rest q x, (TlsItem.read (α := EcdheServerKeyExchange)).run data = (.ok ps, rest) ∧
      NPoint256.fromUncompressedBytes m ps.params.pub.items = .ok (some q) ∧ (getRandomX m).run rng = (.ok x, rng') ∧
      keysFrom m q.toPoint x = .ok r := by
  rcases hr : (TlsItem.read (α := EcdheServerKeyExchange)).run data with ⟨ps | k | _ | _, rest⟩
  · rw [computeKeys_point m data rest ps rng hr] at h
    rcases hq : NPoint256.fromUncompressedBytes m ps.params.pub.items with (_ | q) | k | _ | _
    · rw [hq] at h; cases h
    · rw [hq] at h
      rcases keys_run m q rng with ⟨s, hs⟩ | ⟨x, s, hx, hs⟩
      · exact absurd (h.symm.trans hs) (by intro hc; cases hc)
      · have := hs.symm.trans h
        simp only [Prod.mk.injEq] at this
        obtain ⟨h1, rfl⟩ := this
        exact ⟨ps, rest, q, x, rfl, hq, hx, h1⟩
    · rw [hq] at h; cases h
    · rw [hq] at h; cases h
    · rw [hq] at h; cases h
  · rw [computeKeys_reject m data rest k rng hr] at h; cases h
  · have := LawfulItem.read_returns (α := EcdheServerKeyExchange) data
    rw [hr] at this; exact absurd this (by simp [Res.Returns])
  · have := LawfulItem.read_returns (α := EcdheServerKeyExchange) data
    rw [hr] at this; exact absurd this (by simp [Res.Returns])

/-! ### C52 -/

theorem encode_decodes (m : Mode) (x y : F) (hn : curve.Nonsingular x y) :
    ∃ q, NPoint256.fromUncompressedBytes m (Spec.P256.encode (.some x y hn)) = .ok (some q) ∧ q.toPoint.Rep (.some x y hn) := by
  have ho : OnCurve x.val y.val := by
    rw [onCurve_nonsingular, ZMod.natCast_zmod_val, ZMod.natCast_zmod_val]; exact hn
  obtain ⟨q, hq, hx, hy, _⟩ := C48_accepts_curve_points m x.val y.val (ZMod.val_lt x) (ZMod.val_lt y) ho
  refine ⟨q, hq, ?_⟩
  obtain ⟨hn', hrep⟩ := toPoint_rep q (by rw [hx, hy]; exact ho)
  have e1 : q.x.toF = x := by rw [toF, hx, ZMod.natCast_zmod_val]
  have e2 : q.y.toF = y := by rw [toF, hy, ZMod.natCast_zmod_val]
  subst e1 e2
  exact hrep

/-- For every server point Q of the curve: the client sends (the encoding of) kG and the secret is the x-coordinate of kQ, where k is
the effective scalar of the x that was drawn. -/
theorem C52_keys (m : Mode) (data rest : Bytes) (ps : EcdheServerKeyExchange) (Q : curve.Point) (hQ : Q ≠ 0)
    (hread : (TlsItem.read (α := EcdheServerKeyExchange)).run data = (.ok ps, rest)) (hpub : ps.params.pub.items = Spec.P256.encode Q)
    (rng rng' : Rng) (x : Int256) (hx : (getRandomX m).run rng = (.ok x, rng')) :
    (computeKeys m data).run rng =
      (.ok (65 :: Spec.P256.encode (Point256.effective x • Spec.P256.G), Spec.P256.xBytes (Point256.effective x • Q)), rng') := by
  cases Q with
  | zero => exact absurd rfl hQ
  | some X Y hn =>
    obtain ⟨q, hq, hrep⟩ := encode_decodes m X Y hn
    rw [computeKeys_point m data rest ps rng hread, hpub, hq]
    show (getRandomX m >>= fun x => St.lift (keysFrom m q.toPoint x)).run rng = _
    rw [St.bind_of_ok hx, St.lift_run, keysFrom_rep m _ _ hrep]

/-- C52: if the server's point is yG, the secret is the x-coordinate of y times the point the client sent. -/
theorem C52_agreement (m : Mode) (data rest : Bytes) (ps : EcdheServerKeyExchange) (y : Nat) (hQ : y • Spec.P256.G ≠ 0)
    (hread : (TlsItem.read (α := EcdheServerKeyExchange)).run data = (.ok ps, rest))
    (hpub : ps.params.pub.items = Spec.P256.encode (y • Spec.P256.G)) (rng rng' : Rng) (pub pms : Bytes)
    (h : (computeKeys m data).run rng = (.ok (pub, pms), rng')) :
    ∃ P : curve.Point, pub = 65 :: Spec.P256.encode P ∧ (∀ P', pub = 65 :: Spec.P256.encode P' → P' = P) ∧ pms = Spec.P256.xBytes (y • P) := by
  obtain ⟨ps', rest', q, x, hr, _, hx, _⟩ := computeKeys_ok h
  rw [C52_keys m data rest ps _ hQ hread hpub rng rng' x hx] at h
  simp only [Prod.mk.injEq, Res.ok.injEq, and_true] at h
  obtain ⟨h1, h2⟩ := h
  refine ⟨Point256.effective x • Spec.P256.G, h1.symm, fun P' hP' => ?_, ?_⟩
  · rw [← h1] at hP'
    exact (encode_inj (List.cons.inj hP').2).symm
  · rw [← h2, ← mul_nsmul, ← mul_nsmul, Nat.mul_comm]

/-! A ServerKeyExchange to test with. -/

/-- A ServerKeyExchange body: curve, public key, an empty rsa/sha256 signature. -/
def serverKeyExchange (c : NamedCurve) (pub : Bytes) : EcdheServerKeyExchange :=
  { params := { curve_params := .named_curve c, pub := ⟨pub⟩ },
    signed_params := { algorithm := { hash := .sha256, signature := .rsa }, signature := ⟨[]⟩ } }

/-- Its bytes. -/
def serverKeyExchangeBytes (c : NamedCurve) (pub : Bytes) : Bytes :=
  [3] ++ beBytes 2 (TlsEnum.code c) ++ [UInt8.ofNat pub.length] ++ pub ++ [4, 1, 0, 0]

theorem serverKeyExchange_read (c : NamedCurve) (pub junk : Bytes) (h : pub.length = 65) :
    (TlsItem.read (α := EcdheServerKeyExchange)).run (serverKeyExchangeBytes c pub ++ junk) = (.ok (serverKeyExchange c pub), junk) := by
  apply LawfulItem.read_write
  · refine ⟨⟨fun _ _ => trivial, ?_⟩, ⟨fun _ _ => trivial, Nat.le_refl 0, Nat.zero_le _⟩⟩
    show 1 ≤ TlsVec.sizes pub ∧ TlsVec.sizes pub ≤ 255
    rw [sizes_bytes, h]; decide
  · simp only [TlsItem.write, serverKeyExchange, Res.bind_ok, write_bytes, sizes_bytes, h, serverKeyExchangeBytes]
    rfl

/-- The hypotheses of C52 are met: the server's secret is 1, the client draws 5. -/
example (m : Mode) : ∃ pub pms rng', (computeKeys m (serverKeyExchangeBytes .secp256r1 (Spec.P256.encode (1 • Spec.P256.G)))).run
    { bytes := 5 :: List.replicate 31 0 } = (.ok (pub, pms), rng') := by
  obtain ⟨x, _, hx⟩ := C55_first_below_p m [] (5 :: List.replicate 31 0) [] (by simp) rfl (by decide)
  have hr := serverKeyExchange_read .secp256r1 (Spec.P256.encode (1 • Spec.P256.G)) [] (encode_length _)
  rw [List.append_nil] at hr
  exact ⟨_, _, _, C52_keys m _ _ _ (1 • Spec.P256.G) (by rw [one_nsmul]; exact Spec.P256.G_ne_zero) hr rfl _ _ x hx⟩

/-! ### C53 -/

/-- C53, the full statement. -/
def PublicKeyValid (m : Mode) : Prop :=
  ∀ (data : Bytes) (rng rng' : Rng) (pub pms : Bytes), (computeKeys m data).run rng = (.ok (pub, pms), rng') →
    ∃ X Y, pub = 65 :: 4 :: (beBytes 32 X ++ beBytes 32 Y) ∧ X < p ∧ Y < p ∧ OnCurve X Y

theorem encode_valid (P : curve.Point) (h : P ≠ 0) :
    ∃ X Y, Spec.P256.encode P = 4 :: (beBytes 32 X ++ beBytes 32 Y) ∧ X < p ∧ Y < p ∧ OnCurve X Y := by
  cases P with
  | zero => exact absurd rfl h
  | some x y hn =>
    refine ⟨x.val, y.val, rfl, ZMod.val_lt x, ZMod.val_lt y, ?_⟩
    rw [onCurve_nonsingular, ZMod.natCast_zmod_val, ZMod.natCast_zmod_val]; exact hn

/-- The shape always holds, whatever the server sent: 66 bytes, a length byte, 04, two reduced coordinates. -/
theorem C53_shape (m : Mode) (data : Bytes) (rng rng' : Rng) (pub pms : Bytes) (h : (computeKeys m data).run rng = (.ok (pub, pms), rng')) :
    (∃ X Y, pub = 65 :: 4 :: (beBytes 32 X ++ beBytes 32 Y) ∧ X < p ∧ Y < p) ∧ pms.length = 32 := by
  obtain ⟨ps, rest, q, x, _, _, _, hk⟩ := computeKeys_ok h
  obtain ⟨pms', hk', hl⟩ := keysFrom_returns m q x
  rw [hk] at hk'
  cases hk'
  refine ⟨?_, hl⟩
  have hp := p_eq
  generalize Point256.effective x • Spec.P256.G = P
  cases P with
  | zero => exact ⟨0, 0, rfl, by omega, by omega⟩
  | some X Y _ => exact ⟨X.val, Y.val, rfl, ZMod.val_lt X, ZMod.val_lt Y⟩

/-- Partial C53: the public key is a point of the curve unless the bytes of the scalar that `mult_scalar` uses are all zero. -/
theorem C53_valid_partial (m : Mode) (data : Bytes) (rng rng' : Rng) (pub pms : Bytes) (h : (computeKeys m data).run rng = (.ok (pub, pms), rng'))
    (x : Int256) (hx : (getRandomX m).run rng = (.ok x, rng')) (hne : ∃ i < 7, (x.val / 2 ^ (32 * i)) % 256 ≠ 0) :
    ∃ X Y, pub = 65 :: 4 :: (beBytes 32 X ++ beBytes 32 Y) ∧ X < p ∧ Y < p ∧ OnCurve X Y := by
  obtain ⟨ps, rest, q, x', _, _, hx', hk⟩ := computeKeys_ok h
  rw [hx] at hx'
  cases hx'
  obtain ⟨pms', hk', _⟩ := keysFrom_returns m q x
  rw [hk] at hk'
  cases hk'
  have h0 : Point256.effective x ≠ 0 := by
    intro h0
    obtain ⟨i, hi, hd⟩ := hne
    rw [effective_sum, Finset.sum_eq_zero_iff] at h0
    have := h0 i (Finset.mem_range.mpr hi)
    rcases Nat.mul_eq_zero.mp this with h | h
    · exact hd h
    · exact absurd h (by positivity)
  obtain ⟨X, Y, e, h1, h2, h3⟩ := encode_valid (Point256.effective x • Spec.P256.G) (fun hz => by
    have := Nat.le_of_dvd (Nat.pos_of_ne_zero h0) (Spec.P256.smul_G_eq_zero hz)
    have := effective_lt_n x
    omega)
  exact ⟨X, Y, by rw [e], h1, h2, h3⟩

/-- The statement is false: if the drawn scalar is 0 (or 256, …) the public key is (0, 0), which is not on the curve. -/
theorem C53_not_valid (m : Mode) : ¬ PublicKeyValid m := by
  intro h
  obtain ⟨x, hv, hx⟩ := C55_first_below_p m [] (0 :: 1 :: List.replicate 30 0) [] (by simp) rfl (by decide)
  have hr := serverKeyExchange_read .secp256r1 (Spec.P256.encode Spec.P256.G) [] (encode_length _)
  rw [List.append_nil] at hr
  have hk := C52_keys m _ _ _ Spec.P256.G Spec.P256.G_ne_zero hr rfl _ _ x hx
  have h0 : Point256.effective x = 0 := by
    rw [effective_sum, hv]
    decide
  rw [h0, zero_nsmul] at hk
  obtain ⟨X, Y, e, h1, h2, h3⟩ := h _ _ _ _ _ hk
  have e' : beBytes 32 0 ++ beBytes 32 0 = beBytes 32 X ++ beBytes 32 Y := (List.cons.inj (List.cons.inj e).2).2
  obtain ⟨e1, e2⟩ := List.append_inj e' (by simp)
  have hp := p_eq
  have hX := beBytes32_inj (by decide) (by omega) e1
  have hY := beBytes32_inj (by decide) (by omega) e2
  rw [← hX, ← hY] at h3
  exact not_onCurve_zero h3

/-! ### C54 -/

/-- C54, the full statement (for one build mode). -/
def KeyExchangeNeverPanics (m : Mode) : Prop := ∀ (data : Bytes) (rng : Rng), ((computeKeys m data).run rng).1 ≠ .panic

/-- When it panics. -/
theorem computeKeys_panic {m : Mode} {data : Bytes} {rng : Rng} (h : ((computeKeys m data).run rng).1 = .panic) :
    ∃ ps rest, (TlsItem.read (α := EcdheServerKeyExchange)).run data = (.ok ps, rest) ∧
      NPoint256.fromUncompressedBytes m ps.params.pub.items = .panic := by
  rcases hr : (TlsItem.read (α := EcdheServerKeyExchange)).run data with ⟨ps | k | _ | _, rest⟩
  · rw [computeKeys_point m data rest ps rng hr] at h
    rcases hq : NPoint256.fromUncompressedBytes m ps.params.pub.items with (_ | q) | k | _ | _
    · rw [hq] at h; cases h
    · rw [hq] at h
      rcases keys_run m q rng with ⟨s, hs⟩ | ⟨x, s, hx, hs⟩
      · exact absurd (h.symm.trans (congrArg Prod.fst hs)) (by intro hc; cases hc)
      · obtain ⟨pms, hk, _⟩ := keysFrom_returns m q x
        rw [hk] at hs
        exact absurd (h.symm.trans (congrArg Prod.fst hs)) (by intro hc; cases hc)
    · rw [hq] at h; cases h
    · exact ⟨ps, rest, rfl, hq⟩
    · rw [hq] at h; cases h
  · rw [computeKeys_reject m data rest k rng hr] at h; cases h
  · have := LawfulItem.read_returns (α := EcdheServerKeyExchange) data
    rw [hr] at this; exact absurd this (by simp [Res.Returns])
  · have := LawfulItem.read_returns (α := EcdheServerKeyExchange) data
    rw [hr] at this; exact absurd this (by simp [Res.Returns])

/-- In release builds the key exchange never panics. -/
theorem C54_release : KeyExchangeNeverPanics .release := by
  intro data rng h
  obtain ⟨ps, rest, _, hq⟩ := computeKeys_panic h
  rcases fromUncompressed_no_err .release ps.params.pub.items with ⟨r, hr⟩ | ⟨hm, _⟩
  · rw [hq] at hr; cases hr
  · cases hm

/-- Partial C54: in debug builds it does not panic when the x-coordinate the server sent is reduced (or the data is malformed). -/
theorem C54_debug_partial (data : Bytes) (rng : Rng)
    (hx : ∀ ps rest, (TlsItem.read (α := EcdheServerKeyExchange)).run data = (.ok ps, rest) → beNat ((ps.params.pub.items.take 33).drop 1) < p) :
    ((computeKeys .debug data).run rng).1 ≠ .panic := by
  intro h
  obtain ⟨ps, rest, hr, hq⟩ := computeKeys_panic h
  obtain ⟨r, hr', _⟩ := C48_exact_for_reduced_x_partial .debug ps.params.pub.items (hx ps rest hr)
  rw [hq] at hr'; cases hr'

/-- Exactly when a debug build panics: the data decodes, and the point is 65 bytes that begin with 4 and have an x-coordinate of which three times reaches
`2 ^ 256 + 2 * p` (the upper third of the numbers from p to 2^256). -/
theorem C54_debug_exact (data : Bytes) (rng : Rng) : ((computeKeys .debug data).run rng).1 = .panic ↔
    ∃ ps rest X Y, (TlsItem.read (α := EcdheServerKeyExchange)).run data = (.ok ps, rest) ∧ ps.params.pub.items = 4 :: (beBytes 32 X ++ beBytes 32 Y) ∧
      2 ^ 256 + 2 * p ≤ 3 * X ∧ X < 2 ^ 256 := by
  constructor
  · intro h
    obtain ⟨ps, rest, hr, hq⟩ := computeKeys_panic h
    rcases fromUncompressed_parts .debug ps.params.pub.items with ⟨_, h3⟩ | ⟨x, y, he, _⟩
    · rw [h3] at hq; cases hq
    rw [toBytes_eq, toBytes_eq] at he
    refine ⟨ps, rest, x.val, y.val, hr, he, ?_, x.val_lt⟩
    rw [he, C48_debug_exact x.val y.val x.val_lt y.val_lt] at hq
    by_contra hn
    rw [if_neg hn] at hq
    cases hq
  · rintro ⟨ps, rest, X, Y, hr, he, h1, h2⟩
    rw [computeKeys_point .debug _ _ _ _ hr, he, C48_debug_panics X Y h1 h2]

/-- In debug builds a server can make the client panic: `debug_assert` in `reduce_once` fails for an x-coordinate close to 2^256. -/
theorem C54_debug_panics : ¬ KeyExchangeNeverPanics .debug := by
  intro h
  have hd := C48_debug_panics (2 ^ 256 - 1) 0 (by decide) (by decide)
  have hr := serverKeyExchange_read .secp256r1 (4 :: (beBytes 32 (2 ^ 256 - 1) ++ beBytes 32 0)) [] (by simp)
  refine h (serverKeyExchangeBytes .secp256r1 (4 :: (beBytes 32 (2 ^ 256 - 1) ++ beBytes 32 0)) ++ []) { bytes := [] } ?_
  rw [computeKeys_point .debug _ _ _ _ hr, show (serverKeyExchange .secp256r1 (4 :: (beBytes 32 (2 ^ 256 - 1) ++ beBytes 32 0))).params.pub.items =
    4 :: (beBytes 32 (2 ^ 256 - 1) ++ beBytes 32 0) from rfl, hd]

/-- With enough random bytes the call returns `Ok` or `Err` (it panics or returns). -/
theorem C54_returns (m : Mode) (data : Bytes) (rng rng' : Rng) (x : Int256) (hx : (getRandomX m).run rng = (.ok x, rng'))
    (h : ((computeKeys m data).run rng).1 ≠ .panic) : ((computeKeys m data).run rng).1.Returns := by
  rcases hr : (TlsItem.read (α := EcdheServerKeyExchange)).run data with ⟨ps | k | _ | _, rest⟩
  · rw [computeKeys_point m data rest ps rng hr] at h ⊢
    rcases hq : NPoint256.fromUncompressedBytes m ps.params.pub.items with (_ | q) | k | _ | _
    · trivial
    · show ((getRandomX m >>= fun x => St.lift (keysFrom m q.toPoint x)).run rng).1.Returns
      obtain ⟨pms, hk, _⟩ := keysFrom_returns m q x
      rw [St.bind_of_ok hx, St.lift_run, hk]
      trivial
    · trivial
    · rw [hq] at h; exact absurd rfl h
    · rcases fromUncompressed_no_err m ps.params.pub.items with ⟨r, hr⟩ | ⟨_, hr⟩
      · rw [hq] at hr; cases hr
      · rw [hq] at hr; cases hr
  · rw [computeKeys_reject m data rest k rng hr]; trivial
  · have := LawfulItem.read_returns (α := EcdheServerKeyExchange) data
    rw [hr] at this; exact absurd this (by simp [Res.Returns])
  · have := LawfulItem.read_returns (α := EcdheServerKeyExchange) data
    rw [hr] at this; exact absurd this (by simp [Res.Returns])

/-! ### C57: the curve the server names -/

/-- C57, the full statement: keys are only computed when the server named secp256r1 (the only curve the client offered). -/
def OnlyOfferedCurve (m : Mode) : Prop :=
  ∀ (data rest : Bytes) (ps : EcdheServerKeyExchange) (rng rng' : Rng) (r : Bytes × Bytes),
    (TlsItem.read (α := EcdheServerKeyExchange)).run data = (.ok ps, rest) → (computeKeys m data).run rng = (.ok r, rng') →
    ps.params.curve_params = .named_curve .secp256r1

/-- The statement is false: the name of the curve has no influence at all. -/
theorem C57_curve_ignored (m : Mode) (c c' : NamedCurve) (pub : Bytes) (h : pub.length = 65) (rng : Rng) :
    (computeKeys m (serverKeyExchangeBytes c pub)).run rng = (computeKeys m (serverKeyExchangeBytes c' pub)).run rng := by
  have h1 := serverKeyExchange_read c pub [] h
  have h2 := serverKeyExchange_read c' pub [] h
  rw [List.append_nil] at h1 h2
  rw [computeKeys_point m _ _ _ rng h1, computeKeys_point m _ _ _ rng h2]
  rfl

theorem C57_not_only_offered (m : Mode) : ¬ OnlyOfferedCurve m := by
  intro h
  obtain ⟨x, _, hx⟩ := C55_first_below_p m [] (5 :: List.replicate 31 0) [] (by simp) rfl (by decide)
  have hr := serverKeyExchange_read .secp384r1 (Spec.P256.encode Spec.P256.G) [] (encode_length _)
  rw [List.append_nil] at hr
  have hk := C52_keys m _ _ _ Spec.P256.G Spec.P256.G_ne_zero hr rfl _ _ x hx
  have := h _ _ _ _ _ _ hr hk
  simp [serverKeyExchange] at this

/-- Partial C57: explicit curves (and any other curve type than named_curve) are refused with DecodeError, whatever follows. -/
theorem C57_named_curve_only_partial (m : Mode) (t : UInt8) (rest : Bytes) (ht : t ≠ 3) (rng : Rng) :
    (computeKeys m (t :: rest)).run rng = (.err .DecodeError, rng) := by
  apply computeKeys_reject m _ rest
  have ht' : t.toNat ≠ 3 := fun h => ht (UInt8.toNat_inj.mp h)
  have h1 : (Item.readNum 1).run (t :: rest) = (.ok t.toNat, rest) := by
    have := Item.readNum_append 1 t.toNat rest (by simpa using t.toNat_lt)
    simpa [Item.writeNum, beBytes, leBytes] using this
  have h2 : (TlsItem.read (α := EcParameters)).run (t :: rest) = (.err .DecodeError, rest) := by
    show (Item.readNum 1 >>= _ : P _).run _ = _
    rw [St.bind_of_ok h1, if_neg ht', St.err_run]
  have h3 : (TlsItem.read (α := ServerEcdhParams)).run (t :: rest) = (.err .DecodeError, rest) := by
    show (TlsItem.read (α := EcParameters) >>= _ : P _).run _ = _
    rw [St.bind_of_err h2]
  show (TlsItem.read (α := ServerEcdhParams) >>= _ : P _).run _ = _
  rw [St.bind_of_err h3]

/-! ### C58: bytes after the signature -/

/-- C58, the full statement: a ServerKeyExchange with bytes after the signature is refused. -/
def RefusesTrailingBytes (m : Mode) : Prop :=
  ∀ (data rest : Bytes) (ps : EcdheServerKeyExchange) (rng rng' : Rng) (r : Bytes × Bytes),
    (TlsItem.read (α := EcdheServerKeyExchange)).run data = (.ok ps, rest) → (computeKeys m data).run rng = (.ok r, rng') → rest = []

/-- The statement is false: whatever follows the signature is ignored. -/
theorem C58_trailing_ignored (m : Mode) (data junk : Bytes) (ps : EcdheServerKeyExchange)
    (h : (TlsItem.read (α := EcdheServerKeyExchange)).run data = (.ok ps, [])) (h' : TlsItem.write ps = .ok data) (rng : Rng) :
    (computeKeys m (data ++ junk)).run rng = (computeKeys m data).run rng := by
  obtain ⟨hw, _⟩ := LawfulItem.write_read _ _ _ h
  have := LawfulItem.read_write ps data junk hw h'
  rw [computeKeys_point m _ _ _ rng h, computeKeys_point m _ _ _ rng this]

theorem C58_not_refused (m : Mode) : ¬ RefusesTrailingBytes m := by
  intro h
  obtain ⟨x, _, hx⟩ := C55_first_below_p m [] (5 :: List.replicate 31 0) [] (by simp) rfl (by decide)
  have hr := serverKeyExchange_read .secp256r1 (Spec.P256.encode Spec.P256.G) [1, 2, 3] (encode_length _)
  have hk := C52_keys m _ _ _ Spec.P256.G Spec.P256.G_ne_zero hr rfl _ _ x hx
  exact absurd (h _ _ _ _ _ _ hr hk) (by simp)

end Husk
