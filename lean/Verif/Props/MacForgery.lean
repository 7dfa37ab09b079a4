import Verif.Proofs.PolyHash
import Verif.Props.Aead
import Mathlib.Data.Finset.Prod
import Mathlib.Order.Interval.Finset.Basic
import Mathlib.Data.Int.Interval
/-! C77: how many one-time keys let a forged message through. -/

namespace Husk

open Finset Spec.Poly1305

/-! ### Specification -/

/-- The numbers of 128 bits. -/
@[irreducible] def words : Finset Nat := range (2 ^ 128)

theorem mem_words {n : Nat} : n ∈ words ↔ n < 2 ^ 128 := by rw [words, mem_range]
theorem card_words : words.card = 2 ^ 128 := by rw [words, card_range]

/-- All one-time keys `(r, s)`. -/
def oneTimeKeys : Finset (Bytes × Bytes) := (words ×ˢ words).image fun k => (leBytes 16 k.1, leBytes 16 k.2)

/-- Each pair of two 16-byte strings is one of them. -/
theorem mem_oneTimeKeys (k : Bytes × Bytes) : k ∈ oneTimeKeys ↔ k.1.length = 16 ∧ k.2.length = 16 := by
  simp only [oneTimeKeys, mem_image, mem_product, mem_words]
  constructor
  · rintro ⟨⟨a, b⟩, -, rfl⟩
    simp
  · rintro ⟨h1, h2⟩
    have e1 := leNat_lt k.1
    have e2 := leNat_lt k.2
    rw [h1] at e1
    rw [h2] at e2
    refine ⟨(leNat k.1, leNat k.2), ⟨e1, e2⟩, ?_⟩
    have e3 := leBytes_leNat k.1
    have e4 := leBytes_leNat k.2
    rw [h1] at e3
    rw [h2] at e4
    rw [e3, e4]

open Classical in
/-- The keys under which `authenticate` gives the message this tag. -/
noncomputable def keysFor (m : Mode) (msg t : Bytes) : Finset (Bytes × Bytes) := oneTimeKeys.filter fun k => Poly1305.authenticate m msg k.1 k.2 = .ok t

/-! ### Proofs -/

namespace Poly1305

theorem testBit_part {x y a n i : Nat} (hg : x / 2 ^ a % 2 ^ n = y / 2 ^ a % 2 ^ n) (h1 : a ≤ i) (h2 : i < a + n) : x.testBit i = y.testBit i := by
  have := congrArg (fun z => Nat.testBit z (i - a)) hg
  clear hg
  simp only [Nat.testBit_mod_two_pow, Nat.testBit_div_two_pow] at this
  have e : i - a + a = i := by clear this; omega
  have l : i - a < n := by clear this; omega
  rw [e, decide_eq_true l] at this
  simpa using this

/-- Few numbers become the same by `clamp`: it clears 22 bits. -/
theorem clamp_fiber (c : Nat) : (words.filter fun r => clamp r = c).card ≤ 2 ^ 22 := by
  have hcard : (range 64 ×ˢ (range 64 ×ˢ (range 64 ×ˢ range 16))).card = 2 ^ 22 := by
    rw [card_product, card_product, card_product, card_range, card_range]
    norm_num
  refine le_of_le_of_eq (card_le_card_of_injOn (t := range 64 ×ˢ (range 64 ×ˢ (range 64 ×ˢ range 16))) (fun r => (r / 2 ^ 28 % 2 ^ 6, r / 2 ^ 60 % 2 ^ 6, r / 2 ^ 92 % 2 ^ 6, r / 2 ^ 124 % 2 ^ 4)) ?_ ?_) hcard
  · intro r _
    simp only [coe_product, Set.mem_prod, mem_coe, mem_range]
    exact ⟨Nat.mod_lt _ (by decide), Nat.mod_lt _ (by decide), Nat.mod_lt _ (by decide), Nat.mod_lt _ (by decide)⟩
  · intro x hx y hy h
    simp only [coe_filter, mem_words, Set.mem_ofPred_eq] at hx hy
    simp only [Prod.mk.injEq] at h
    obtain ⟨g1, g2, g3, g4⟩ := h
    have hm : ∀ i < 128, Nat.testBit 0x0ffffffc0ffffffc0ffffffc0fffffff i = true ∨ (28 ≤ i ∧ i < 34) ∨ (60 ≤ i ∧ i < 66) ∨ (92 ≤ i ∧ i < 98) ∨ (124 ≤ i ∧ i < 128) := by
      decide +kernel
    apply Nat.eq_of_testBit_eq
    intro i
    by_cases hi : i < 128
    · rcases hm i hi with h | h | h | h | h
      · have := congrArg (fun z => Nat.testBit z i) (hx.2.trans hy.2.symm)
        simp only [clamp, Nat.testBit_and, h, Bool.and_true] at this
        exact this
      · exact testBit_part g1 h.1 h.2
      · exact testBit_part g2 h.1 h.2
      · exact testBit_part g3 h.1 h.2
      · exact testBit_part g4 h.1 h.2
    · have h2 : 2 ^ 128 ≤ 2 ^ i := Nat.pow_le_pow_right (by decide) (Nat.le_of_not_lt hi)
      rw [Nat.testBit_lt_two_pow (x := x) (i := i) (lt_of_lt_of_le hx.1 h2), Nat.testBit_lt_two_pow (x := y) (i := i) (lt_of_lt_of_le hy.1 h2)]

theorem clamp_lt (r : Nat) : clamp r < P := by
  have : clamp r ≤ 0x0ffffffc0ffffffc0ffffffc0fffffff := Nat.and_le_right
  have h : P = 2 ^ 130 - 5 := rfl
  omega

theorem chunk_le (msg : Bytes) : ∀ b ∈ chunks 16 msg, b.length ≤ 16 := by
  induction msg using chunks_induction (n := 16) (by decide) with
  | nil => simp
  | step msg hne ih =>
    rw [chunks_of_ne_nil (by decide) hne]
    intro b hb
    rcases List.mem_cons.mp hb with rfl | hb
    · simp
    · exact ih b hb

/-- The value of the hash. -/
def hash (msg : Bytes) (r : Nat) : Nat := accumulate (clamp r) (chunks 16 msg)

theorem hash_few {msg msg' : Bytes} (h : msg ≠ msg') (d : Nat) :
    (words.filter fun r => ((hash msg r : ℤ) - hash msg' r) % 2 ^ 128 = d).card ≤ 8 * max (chunks 16 msg).length (chunks 16 msg').length * 2 ^ 22 := by
  classical
  let R := words.filter fun r => ((hash msg r : ℤ) - hash msg' r) % 2 ^ 128 = d
  let q : Nat → ℤ := fun r => ((hash msg r : ℤ) - hash msg' r) / 2 ^ 128
  have hq : ∀ r ∈ R, q r ∈ Icc (-4 : ℤ) 3 := by
    intro r _
    have h1 : hash msg r < P := Poly1305.accumulate_lt _ _
    have h2 : hash msg' r < P := Poly1305.accumulate_lt _ _
    have h3 : P = 2 ^ 130 - 5 := rfl
    simp only [q, mem_Icc]
    omega
  have hne : chunks 16 msg ≠ chunks 16 msg' := by
    intro he
    apply h
    rw [← chunks_flatten (n := 16) (by decide) msg, he, chunks_flatten (by decide)]
  have hfib : ∀ k ∈ Icc (-4 : ℤ) 3, (R.filter fun r => q r = k).card ≤ max (chunks 16 msg).length (chunks 16 msg').length * 2 ^ 22 := by
    intro k _
    let f : Nat → ZMod P := fun r => (clamp r : ZMod P)
    have himg : ((R.filter fun r => q r = k).image f).card ≤ max (chunks 16 msg).length (chunks 16 msg').length := by
      refine Poly1305.few_roots (chunk_le msg) (chunk_le msg') hne ((d + k * 2 ^ 128 : ℤ) : ZMod P) _ ?_
      intro x hx
      simp only [mem_image, mem_filter, R, q] at hx
      obtain ⟨r, ⟨⟨-, e1⟩, e2⟩, rfl⟩ := hx
      simp only [f]
      rw [eval_poly, eval_poly]
      have e3 : (hash msg r : ℤ) - hash msg' r = d + k * 2 ^ 128 := by
        rw [← e1, ← e2]
        omega
      rw [← e3]
      simp [hash]
    have := card_le_mul_card_image (s := R.filter fun r => q r = k) (f := f) (2 ^ 22) (by
      intro x hx
      simp only [mem_image] at hx
      obtain ⟨r, -, rfl⟩ := hx
      refine le_trans (card_le_card ?_) (clamp_fiber (clamp r))
      intro y hy
      simp only [mem_filter, R] at hy ⊢
      refine ⟨hy.1.1.1, ?_⟩
      have hc := hy.2
      simp only [f] at hc
      rw [ZMod.natCast_eq_natCast_iff', Nat.mod_eq_of_lt (clamp_lt _), Nat.mod_eq_of_lt (clamp_lt _)] at hc
      exact hc)
    refine this.trans ?_
    rw [Nat.mul_comm]
    exact Nat.mul_le_mul_right _ himg
  have hsum := card_eq_sum_card_fiberwise (s := R) (t := Icc (-4 : ℤ) 3) (f := q) hq
  change R.card ≤ _
  rw [hsum]
  refine (sum_le_sum hfib).trans ?_
  simp
  omega

/-- What a tag says about the key. -/
theorem authenticate_iff (m : Mode) (msg r s t : Bytes) (hr : r.length = 16) (hs : s.length = 16) (ht : t.length = 16) :
    authenticate m msg r s = .ok t ↔ (hash msg (leNat r) + leNat s) % 2 ^ 128 = leNat t := by
  rw [C36_poly1305 m msg r s hr hs, mac]
  have e := leBytes_leNat t
  rw [ht] at e
  constructor
  · intro h
    rw [← Res.ok.inj h, leNat_leBytes]
    rfl
  · intro h
    rw [← e]
    congr 1
    apply leBytes_mod
    have := leNat_lt t
    rw [ht] at this
    rw [Nat.mod_eq_of_lt this]
    exact h

end Poly1305

theorem keysFor_inj {m : Mode} {msg t : Bytes} (ht : t.length = 16) {k k' : Bytes × Bytes} (h : k ∈ keysFor m msg t) (h' : k' ∈ keysFor m msg t) (e : leNat k.1 = leNat k'.1) : k = k' := by
  simp only [keysFor, mem_filter, mem_oneTimeKeys] at h h'
  obtain ⟨⟨h1, h2⟩, h3⟩ := h
  obtain ⟨⟨h1', h2'⟩, h3'⟩ := h'
  rw [Poly1305.authenticate_iff m msg _ _ t h1 h2 ht] at h3
  rw [Poly1305.authenticate_iff m msg _ _ t h1' h2' ht, ← e] at h3'
  have l1 := leNat_lt k.2
  have l2 := leNat_lt k'.2
  rw [h2] at l1
  rw [h2'] at l2
  have : leNat k.2 = leNat k'.2 := by omega
  exact Prod.ext (leNat_inj (h1.trans h1'.symm) e) (leNat_inj (h2.trans h2'.symm) this)

/-! ### C77 -/

/-- Every tag of every message belongs to exactly 2^128 of the 2^256 keys: a tag alone says nothing. -/
theorem C77_tags_uniform (m : Mode) (msg t : Bytes) (ht : t.length = 16) : (keysFor m msg t).card = 2 ^ 128 := by
  rw [← card_words]
  refine card_bij (fun k _ => leNat k.1) ?_ (fun k h k' h' e => keysFor_inj ht h h' e) ?_
  · intro k hk
    simp only [keysFor, mem_filter, mem_oneTimeKeys] at hk
    have := leNat_lt k.1
    rw [hk.1.1] at this
    exact mem_words.mpr this
  · intro r hr
    have hr := mem_words.mp hr
    have hl := leNat_lt t
    rw [ht] at hl
    refine ⟨(leBytes 16 r, leBytes 16 ((leNat t + 4 * 2 ^ 128 - Poly1305.hash msg r) % 2 ^ 128)), ?_, ?_⟩
    · simp only [keysFor, mem_filter, mem_oneTimeKeys]
      refine ⟨⟨by simp, by simp⟩, ?_⟩
      rw [Poly1305.authenticate_iff m msg _ _ t (by simp) (by simp) ht, leNat_leBytes, leNat_leBytes, show 256 ^ 16 = 2 ^ 128 from rfl, Nat.mod_eq_of_lt hr]
      have h1 : Poly1305.hash msg r < P := Poly1305.accumulate_lt _ _
      have h2 : P = 2 ^ 130 - 5 := rfl
      omega
    · dsimp only
      rw [leNat_leBytes, show 256 ^ 16 = 2 ^ 128 from rfl, Nat.mod_eq_of_lt hr]

/-- C77: of the keys that give a message its tag, a forger who knows both and answers with any other message and any tag is right for a part of at most
8 * (number of blocks of the longer message) / 2^106. -/
theorem C77_forgery_bound (m m' : Mode) (msg t msg' t' : Bytes) (ht : t.length = 16) (h : msg' ≠ msg) :
    ((keysFor m msg t) ∩ keysFor m' msg' t').card * 2 ^ 106 ≤ 8 * ((max msg.length msg'.length + 15) / 16) * (keysFor m msg t).card := by
  rw [C77_tags_uniform m msg t ht]
  by_cases ht' : t'.length = 16
  · have hl := leNat_lt t
    have hl' := leNat_lt t'
    rw [ht] at hl
    rw [ht'] at hl'
    have hle : ((keysFor m msg t) ∩ keysFor m' msg' t').card ≤ 8 * max (chunks 16 msg).length (chunks 16 msg').length * 2 ^ 22 := by
      refine le_trans ?_ (Poly1305.hash_few (Ne.symm h) ((leNat t + 2 ^ 128 - leNat t') % 2 ^ 128))
      refine card_le_card_of_injOn (fun k => leNat k.1) ?_ fun k hk k' hk' e => keysFor_inj ht (mem_inter.mp hk).1 (mem_inter.mp hk').1 e
      intro k hk
      obtain ⟨h1, h2⟩ := mem_inter.mp hk
      simp only [keysFor, mem_filter, mem_oneTimeKeys] at h1 h2
      obtain ⟨⟨g1, g2⟩, g3⟩ := h1
      have g4 := h2.2
      rw [Poly1305.authenticate_iff m msg _ _ t g1 g2 ht] at g3
      rw [Poly1305.authenticate_iff m' msg' _ _ t' g1 g2 ht'] at g4
      have g5 := leNat_lt k.1
      rw [g1] at g5
      simp only [coe_filter, mem_words, Set.mem_ofPred_eq]
      refine ⟨g5, ?_⟩
      omega
    rw [chunks_count (by decide), chunks_count (by decide)] at hle
    have hm : max ((msg.length + 16 - 1) / 16) ((msg'.length + 16 - 1) / 16) ≤ (max msg.length msg'.length + 15) / 16 := by omega
    calc _ ≤ 8 * max ((msg.length + 16 - 1) / 16) ((msg'.length + 16 - 1) / 16) * 2 ^ 22 * 2 ^ 106 := Nat.mul_le_mul_right _ hle
      _ ≤ _ := by
        rw [Nat.mul_assoc, show 2 ^ 22 * 2 ^ 106 = 2 ^ 128 from rfl]
        exact Nat.mul_le_mul_right _ (Nat.mul_le_mul_left _ hm)
  · have : keysFor m' msg' t' = ∅ := by
      apply Finset.eq_empty_of_forall_notMem
      intro k hk
      simp only [keysFor, mem_filter, mem_oneTimeKeys] at hk
      obtain ⟨⟨g1, g2⟩, g3⟩ := hk
      rw [C36_poly1305 m' msg' _ _ g1 g2] at g3
      exact ht' (by rw [← Res.ok.inj g3, Spec.Poly1305.mac_length])
    rw [this]
    simp

/-- The same for any number of attempts. -/
theorem C77_attempts (m m' : Mode) (msg t : Bytes) (ht : t.length = 16) (attempts : Finset (Bytes × Bytes)) (n : Nat)
    (h : ∀ a ∈ attempts, a.1 ≠ msg ∧ max msg.length a.1.length ≤ 16 * n) :
    ((keysFor m msg t) ∩ attempts.biUnion fun a => keysFor m' a.1 a.2).card * 2 ^ 106 ≤ attempts.card * (8 * n) * (keysFor m msg t).card := by
  classical
  rw [inter_biUnion]
  refine (Nat.mul_le_mul_right _ card_biUnion_le).trans ?_
  rw [sum_mul]
  refine (sum_le_sum (g := fun _ => 8 * n * (keysFor m msg t).card) ?_).trans ?_
  · intro a ha
    obtain ⟨h1, h2⟩ := h a ha
    refine (C77_forgery_bound m m' msg t a.1 a.2 ht h1).trans ?_
    exact Nat.mul_le_mul_right _ (Nat.mul_le_mul_left _ (by omega))
  · rw [sum_const, smul_eq_mul, Nat.mul_assoc, Nat.mul_assoc, Nat.mul_assoc]

/-- The one-time key of a record, RFC 8439 section 2.6. -/
def recordKey (key nonce : Bytes) : Bytes × Bytes := ((Spec.ChaCha20.block key 0 nonce).take 16, ((Spec.ChaCha20.block key 0 nonce).drop 16).take 16)

/-- `decrypt` accepts a ciphertext with a tag exactly if the one-time key of the record is one of those that give this tag. -/
theorem C77_decrypt_iff (m m' : Mode) (key nonce c t ad : Bytes) (hk : key.length = 32) (hn : nonce.length = 12) (hl : c.length ≤ 2 ^ 38 - 144) (ht : t.length = 16) :
    (∃ p, Aead.decrypt m key nonce (c ++ t) ad = .ok p) ↔ recordKey key nonce ∈ keysFor m' (Aead.macInput c ad) t := by
  have hb : (Spec.ChaCha20.block key 0 nonce).length = 64 := ChaCha20.block_length ..
  have h1 : (recordKey key nonce).1.length = 16 := by simp [recordKey, hb]
  have h2 : (recordKey key nonce).2.length = 16 := by simp [recordKey, hb]
  have htag : Spec.Aead.tag key nonce ad c = Spec.Poly1305.mac (Aead.macInput c ad) (recordKey key nonce).1 (recordKey key nonce).2 := by
    simp only [Spec.Aead.tag, recordKey, Aead.macInput_eq, List.take_take, List.drop_take]
    rfl
  have lt : ∀ c, (Spec.Aead.tag key nonce ad c).length = 16 := fun c => Spec.Poly1305.mac_length _ _ _
  simp only [keysFor, mem_filter, mem_oneTimeKeys, h1, h2, true_and, and_self]
  rw [C36_poly1305 m' _ _ _ h1 h2, ← htag]
  constructor
  · rintro ⟨p, h⟩
    obtain ⟨c', e, -⟩ := (C38_accepts_iff_tag m key nonce _ ad p hk hn (by rw [List.length_append]; omega)).mp h
    obtain ⟨e1, e2⟩ := List.append_inj' e (by rw [ht, lt])
    rw [e1, e2]
  · intro h
    exact ⟨_, (C38_accepts_iff_tag m key nonce _ ad _ hk hn (by rw [List.length_append]; omega)).mpr ⟨c, by rw [Res.ok.inj h], rfl⟩⟩

theorem Aead.macInput_length (c ad : Bytes) : (Aead.macInput c ad).length ≤ c.length + ad.length + 46 := by
  have : ∀ x : Bytes, (Aead.padding x).length ≤ 15 := by
    intro x
    simp only [Aead.padding]
    split
    · rw [List.length_replicate]; omega
    · simp
  have h1 := this c
  have h2 := this ad
  simp only [Aead.macInput, List.length_append, leBytes_length]
  omega

/-- C77 for records: of the one-time keys under which a record has its tag, any other additional data or ciphertext of record size, with any tag, is accepted for at
most one in 2^92. -/
theorem C77_records (m m' : Mode) (c ad t c' ad' t' : Bytes) (ht : t.length = 16) (hc : c.length ≤ 2 ^ 14 + 2048) (hc' : c'.length ≤ 2 ^ 14 + 2048) (ha : ad.length = 13) (ha' : ad'.length = 13)
    (h : (c', ad') ≠ (c, ad)) : ((keysFor m (Aead.macInput c ad) t) ∩ keysFor m' (Aead.macInput c' ad') t').card * 2 ^ 92 ≤ (keysFor m (Aead.macInput c ad) t).card := by
  have hne : Aead.macInput c' ad' ≠ Aead.macInput c ad := by
    intro he
    obtain ⟨e1, e2⟩ := C39_macInput_injective ad' ad c' c (by omega) (by omega) (by omega) (by omega) he
    exact h (by rw [e1, e2])
  have hb := C77_forgery_bound m m' (Aead.macInput c ad) t (Aead.macInput c' ad') t' ht hne
  have l1 := Aead.macInput_length c ad
  have l2 := Aead.macInput_length c' ad'
  have hq : 8 * ((max (Aead.macInput c ad).length (Aead.macInput c' ad').length + 15) / 16) ≤ 2 ^ 14 := by omega
  have hb := hb.trans (Nat.mul_le_mul_right _ hq)
  generalize ((keysFor m (Aead.macInput c ad) t) ∩ keysFor m' (Aead.macInput c' ad') t').card = x at hb ⊢
  generalize (keysFor m (Aead.macInput c ad) t).card = y at hb ⊢
  rw [show 2 ^ 106 = 2 ^ 92 * 2 ^ 14 from rfl, ← Nat.mul_assoc, Nat.mul_comm] at hb
  exact Nat.le_of_mul_le_mul_left hb (by decide)

/-- A forgery against which the bound says something: the first byte of a record changed in transit, the tag kept. -/
example (m : Mode) (t ad c : Bytes) (x y : UInt8) (hxy : y ≠ x) (ht : t.length = 16) (ha : ad.length = 13) (hc : c.length = 100) :
    ((keysFor m (Aead.macInput (x :: c) ad) t) ∩ keysFor m (Aead.macInput (y :: c) ad) t).card * 2 ^ 92 ≤ (keysFor m (Aead.macInput (x :: c) ad) t).card :=
  C77_records m m _ _ t _ _ t ht (by simp [hc]) (by simp [hc]) ha ha (by simp [hxy])

end Husk
