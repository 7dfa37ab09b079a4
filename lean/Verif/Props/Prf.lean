import Verif.Model.Prf
import Verif.Spec.Hmac
import Verif.Props.Sha256
/-! C41 (HMAC) and C42 (PRF stream). -/

namespace Husk

open Prf

/-- HMAC-SHA256 as a function. -/
noncomputable abbrev hmacSpec : Bytes → Bytes → Bytes := Spec.hmac Spec.Sha256.sha256

theorem xorPad_eq (x : UInt8) (key : Bytes) (h : key.length ≤ 64) :
    List.zipWith (· ^^^ ·) (List.replicate 64 x) key ++ List.replicate (64 - key.length) x =
      (key ++ List.replicate (64 - key.length) 0).map (· ^^^ x) := by
  have : ∀ n, key.length ≤ n → List.zipWith (· ^^^ ·) (List.replicate n x) key = key.map (· ^^^ x) := by
    induction key with
    | nil => simp
    | cons k key ih =>
      intro n hn
      cases n with
      | zero => simp at hn
      | succ n =>
        simp only [List.replicate_succ, List.zipWith_cons_cons, List.map_cons]
        rw [ih (by simp at h; omega) n (by simpa using hn), UInt8.xor_comm]
  rw [this 64 h]
  simp

/-- C41, the part that holds: for keys of at most 64 bytes the code computes RFC 2104 HMAC-SHA256. Missing: keys longer than
64 bytes, for which the claim is false of the code (`C41_hmac_long_key_panics`). -/
theorem C41_hmac_is_rfc2104_partial (m : Mode) (key msg : Bytes) (hk : key.length ≤ 64) (hm : msg.length < 2 ^ 60) :
    hmacSha256 m key msg = .ok (hmacSpec key msg) := by
  have hk' : ¬ key.length > 64 := by omega
  have e0 : Spec.hmacKey Spec.Sha256.sha256 key = key ++ List.replicate (64 - key.length) 0 := by
    simp [Spec.hmacKey, hk]
  have l0 : (key ++ List.replicate (64 - key.length) (0 : UInt8)).length = 64 := by simp; omega
  unfold hmacSha256
  simp only [hk', if_false, xorPad_eq _ _ hk]
  rw [C40_sha256_eq m _ (by simp only [List.length_append, List.length_map]; simp at l0 ⊢; omega), Res.bind_ok,
    C40_sha256_eq m]
  · simp only [hmacSpec, Spec.hmac, e0]
  · rw [List.length_append, sha256_length _ (by rw [List.length_append, List.length_map, l0]; omega), List.length_map, l0]
    omega

/-- C41 is false of the code for long keys: `hmac_sha256` panics (`unimplemented!()`), in every build mode. -/
theorem C41_hmac_long_key_panics (m : Mode) (key msg : Bytes) (hk : 64 < key.length) : hmacSha256 m key msg = .panic := by
  simp [hmacSha256, hk]

/-- Hence the full claim C41 fails. -/
theorem C41_hmac_full_claim_false :
    ¬ ∀ (m : Mode) (key msg : Bytes), msg.length < 2 ^ 60 → key.length < 2 ^ 60 → hmacSha256 m key msg = .ok (hmacSpec key msg) := by
  intro h
  have := h .debug (List.replicate 65 0) [] (by simp) (by simp)
  rw [C41_hmac_long_key_panics _ _ _ (by simp)] at this
  cases this

theorem hmacSpec_length (key msg : Bytes) (hk : key.length ≤ 64) (hm : msg.length < 2 ^ 60) : (hmacSpec key msg).length = 32 := by
  have e0 : (Spec.hmacKey Spec.Sha256.sha256 key).length = 64 := by
    simp [Spec.hmacKey, hk]
  unfold hmacSpec Spec.hmac
  apply sha256_length
  rw [List.length_append, List.length_map, e0, sha256_length]
  · omega
  · rw [List.length_append, List.length_map, e0]; omega

/-- Non-vacuity of C41: a 20-byte key and an 8-byte message satisfy the hypotheses. -/
example : (List.replicate 20 (0x0b : UInt8)).length ≤ 64 ∧ ([0x48, 0x69] : Bytes).length < 2 ^ 60 := by simp

section stream

variable (mac : Bytes → Bytes) (seed : Bytes)

theorem prfStream_succ (n : Nat) : Spec.prfStream mac seed (n + 1) = Spec.prfStream mac seed n ++ Spec.prfBlock mac seed n := by
  simp [Spec.prfStream, List.range_succ]

theorem prfStream_length (h : ∀ i, (Spec.prfBlock mac seed i).length = 32) (n : Nat) :
    (Spec.prfStream mac seed n).length = 32 * n := by
  induction n with
  | zero => rfl
  | succ n ih => rw [prfStream_succ, List.length_append, ih, h]; omega

theorem prfStream_prefix (n k : Nat) : ∃ t, Spec.prfStream mac seed (n + k) = Spec.prfStream mac seed n ++ t := by
  induction k with
  | zero => exact ⟨[], by simp⟩
  | succ k ih =>
    obtain ⟨t, ht⟩ := ih
    exact ⟨t ++ Spec.prfBlock mac seed (n + k), by rw [← Nat.add_assoc, prfStream_succ, ht, List.append_assoc]⟩

/-- The first bytes do not depend on how many blocks are computed. -/
theorem prfStream_take (h : ∀ i, (Spec.prfBlock mac seed i).length = 32) {n n' len : Nat} (h1 : len ≤ 32 * n) (h2 : len ≤ 32 * n') :
    (Spec.prfStream mac seed n).take len = (Spec.prfStream mac seed n').take len := by
  rcases Nat.le_total n n' with hle | hle
  · obtain ⟨t, ht⟩ := prfStream_prefix mac seed n (n' - n)
    rw [show n + (n' - n) = n' by omega] at ht
    rw [ht, List.take_append_of_le_length (by rw [prfStream_length mac seed h]; exact h1)]
  · obtain ⟨t, ht⟩ := prfStream_prefix mac seed n' (n - n')
    rw [show n' + (n - n') = n by omega] at ht
    rw [ht, List.take_append_of_le_length (by rw [prfStream_length mac seed h]; exact h2)]

end stream

/-- State of the generator after `n` bytes were handed out. -/
structure PrfInv (secret seed : Bytes) (n : Nat) (p : Prf) : Prop where
  hsecret : p.secret = secret
  hseed : p.seed = seed
  hinv : ∃ i, 32 * i = n + p.buf.length ∧ p.a = Spec.prfA (hmacSpec secret) seed (i + 1) ∧
    p.buf = (Spec.prfStream (hmacSpec secret) seed i).drop n

section
variable {secret seed : Bytes} (hs : secret.length ≤ 64) (hd : seed.length < 2 ^ 59)
include hs hd

theorem prfA_length (i : Nat) : (Spec.prfA (hmacSpec secret) seed i).length < 2 ^ 59 := by
  induction i with
  | zero => exact hd
  | succ i ih => rw [Spec.prfA, hmacSpec_length _ _ hs (by omega)]; omega

theorem prfBlock_length (i : Nat) : (Spec.prfBlock (hmacSpec secret) seed i).length = 32 := by
  apply hmacSpec_length _ _ hs
  have := prfA_length hs hd (i + 1)
  rw [List.length_append]
  omega

theorem nextBlock_spec (m : Mode) (p : Prf) (i : Nat) (h1 : p.secret = secret) (h2 : p.seed = seed)
    (h3 : p.a = Spec.prfA (hmacSpec secret) seed (i + 1)) :
    nextBlock m p = .ok (Spec.prfBlock (hmacSpec secret) seed i, { p with a := Spec.prfA (hmacSpec secret) seed (i + 2) }) := by
  have hl := prfA_length hs hd (i + 1)
  unfold nextBlock
  rw [h1, h2, h3, C41_hmac_is_rfc2104_partial m _ _ hs (by rw [List.length_append]; omega), Res.bind_ok,
    C41_hmac_is_rfc2104_partial m _ _ hs (by omega)]
  rfl

/-- Bytes `n .. n + size` of the stream. -/
theorem seg_eq {n size i : Nat} (h : n + size ≤ 32 * i) :
    ((Spec.prfStream (hmacSpec secret) seed i).drop n).take size = (Spec.pHash (hmacSpec secret) seed (n + size)).drop n := by
  have hbl := prfBlock_length hs hd
  rw [Spec.pHash, ← prfStream_take _ _ hbl h (by omega), List.take_add, List.drop_append_of_le_length, List.drop_take]
  · simp
  · rw [List.length_take, prfStream_length _ _ hbl]; omega

theorem getLoop_spec (m : Mode) (size n : Nat) (fuel : Nat) (ret : Bytes) (p : Prf) (i : Nat)
    (h1 : p.secret = secret) (h2 : p.seed = seed) (h3 : p.a = Spec.prfA (hmacSpec secret) seed (i + 1)) (hbuf : p.buf = [])
    (hlt : ret.length < size) (hlen : 32 * i = n + ret.length) (hret : ret = (Spec.prfStream (hmacSpec secret) seed i).drop n)
    (hfuel : size ≤ ret.length + fuel) :
    ∃ p', getLoop m size fuel ret p = .ok ((Spec.pHash (hmacSpec secret) seed (n + size)).drop n, p') ∧
      PrfInv secret seed (n + size) p' := by
  have hbl := prfBlock_length hs hd
  have hsl := prfStream_length _ _ hbl
  induction fuel generalizing ret p i with
  | zero => omega
  | succ fuel ih =>
    unfold getLoop
    rw [if_pos hlt]
    simp only [nextBlock_spec hs hd m p i h1 h2 h3, Res.bind_ok]
    have hnext : ret ++ Spec.prfBlock (hmacSpec secret) seed i = (Spec.prfStream (hmacSpec secret) seed (i + 1)).drop n := by
      rw [prfStream_succ, List.drop_append_of_le_length (by rw [hsl]; omega), hret]
    split
    · have hl2 : (ret ++ Spec.prfBlock (hmacSpec secret) seed i).length = ret.length + 32 := by rw [List.length_append, hbl]
      exact ih _ _ (i + 1) h1 h2 rfl hbuf (by omega) (by omega) hnext (by omega)
    · rename_i hsmall
      refine ⟨{ p with a := Spec.prfA (hmacSpec secret) seed (i + 2), buf := (Spec.prfBlock (hmacSpec secret) seed i).drop (size - ret.length) }, ?_, ?_⟩
      · rw [← seg_eq hs hd (i := i + 1) (by omega), ← hnext, List.take_append, List.take_of_length_le (show ret.length ≤ size by omega)]
        rfl
      · refine ⟨h1, h2, i + 1, ?_, rfl, ?_⟩
        · simp only [List.length_drop, hbl]; omega
        · have : n + size = n + (ret.length + (size - ret.length)) := by omega
          rw [this, ← List.drop_drop, ← hnext, ← List.drop_drop, List.drop_append_of_le_length (Nat.le_refl _), List.drop_length, List.nil_append]

theorem getBytes_spec (m : Mode) (size n : Nat) (p : Prf) (hp : PrfInv secret seed n p) :
    ∃ p', getBytes m p size = .ok ((Spec.pHash (hmacSpec secret) seed (n + size)).drop n, p') ∧ PrfInv secret seed (n + size) p' := by
  have hbl := prfBlock_length hs hd
  have hsl := prfStream_length _ _ hbl
  obtain ⟨h1, h2, i, hi, ha, hb⟩ := hp
  unfold getBytes
  by_cases h0 : p.buf.length > 0
  · simp only [h0, if_true]
    by_cases h4 : p.buf.length ≤ size
    · simp only [h4, if_true]
      rcases Nat.lt_or_eq_of_le h4 with h5 | h5
      · exact getLoop_spec hs hd m size n size p.buf { p with buf := [] } i h1 h2 ha rfl h5 hi hb (by omega)
      · unfold getLoop
        rw [if_neg (by omega)]
        refine ⟨{ p with buf := [] }, ?_, h1, h2, i, ?_, ha, ?_⟩
        · rw [← seg_eq hs hd (i := i) (by omega), ← hb, List.take_of_length_le (by omega)]
        · simp; omega
        · simp only
          rw [List.drop_eq_nil_of_le]; rw [hsl]; omega
    · simp only [h4, if_false]
      unfold getLoop
      have h6 : (p.buf.take size).length = size := by rw [List.length_take]; omega
      rw [if_neg (by omega)]
      refine ⟨{ p with buf := p.buf.drop size }, ?_, h1, h2, i, ?_, ha, ?_⟩
      · rw [← seg_eq hs hd (i := i) (by omega), ← hb]
      · simp only [List.length_drop]; omega
      · simp only
        rw [hb, List.drop_drop]
  · simp only [h0, if_false]
    have hbn : p.buf = [] := by
      cases hq : p.buf with
      | nil => rfl
      | cons x xs => rw [hq] at h0; simp at h0
    have hin : 32 * i = n := by rw [hbn] at hi; simpa using hi
    rcases Nat.eq_zero_or_pos size with hz | hz
    · subst hz
      unfold getLoop
      rw [if_neg (by simp)]
      refine ⟨p, ?_, h1, h2, i, hi, ha, hb⟩
      rw [← seg_eq hs hd (i := i) (by omega)]
      simp
    · exact getLoop_spec hs hd m size n size [] p i h1 h2 ha hbn (by simpa using hz) (by simpa using hin) (by rw [← hb, hbn]) (by simp)

theorem new_spec (m : Mode) : ∃ p, Prf.new m secret seed = .ok p ∧ PrfInv secret seed 0 p := by
  unfold Prf.new
  rw [C41_hmac_is_rfc2104_partial m _ _ hs (by omega)]
  exact ⟨_, rfl, rfl, rfl, 0, rfl, rfl, rfl⟩

end

/-- A caller asking for the given sizes in turn; returns all results. -/
def getMany (m : Mode) : List Nat → Prf → Res (List Bytes)
  | [], _ => .ok []
  | n :: ns, p => do
    let (r, p) ← getBytes m p n
    let rs ← getMany m ns p
    return r :: rs

theorem getMany_spec {secret seed : Bytes} (hs : secret.length ≤ 64) (hd : seed.length < 2 ^ 59) (m : Mode) (sizes : List Nat)
    (n : Nat) (p : Prf) (hp : PrfInv secret seed n p) :
    ∃ rs, getMany m sizes p = .ok rs ∧ rs.map List.length = sizes ∧
      rs.flatten = (Spec.pHash (hmacSpec secret) seed (n + sizes.sum)).drop n := by
  have hbl := prfBlock_length hs hd
  have hpl : ∀ len, (Spec.pHash (hmacSpec secret) seed len).length = len := by
    intro len
    rw [Spec.pHash, List.length_take, prfStream_length _ _ hbl]
    omega
  induction sizes generalizing n p with
  | nil => exact ⟨[], rfl, rfl, by simp [hpl]⟩
  | cons k sizes ih =>
    obtain ⟨p', h1, h2⟩ := getBytes_spec hs hd m k n p hp
    obtain ⟨rs, h3, h4, h5⟩ := ih (n + k) p' h2
    simp only [getMany, h1, h3, Res.bind_ok, Res.pure_def]
    refine ⟨_, rfl, ?_, ?_⟩
    · simp [h4, hpl]
    · rw [List.flatten_cons, h5, List.sum_cons, ← Nat.add_assoc]
      have e : Spec.pHash (hmacSpec secret) seed (n + k) = (Spec.pHash (hmacSpec secret) seed (n + k + sizes.sum)).take (n + k) := by
        unfold Spec.pHash
        rw [List.take_take, Nat.min_eq_left (by omega)]
        exact prfStream_take _ _ hbl (by omega) (by omega)
      generalize hX : Spec.pHash (hmacSpec secret) seed (n + k + sizes.sum) = X at *
      rw [e, List.drop_take, ← List.drop_drop, Nat.add_sub_cancel_left, List.take_append_drop]

/-- C42: for any sequence of request sizes the results have the requested lengths and concatenate to the RFC 5246
`P_SHA256(secret, seed)` stream (no panic, no endless loop), in both build modes. -/
theorem C42_prf_stream (m : Mode) (secret seed : Bytes) (hs : secret.length ≤ 64) (hd : seed.length < 2 ^ 59) (sizes : List Nat) :
    ∃ rs, (Prf.new m secret seed >>= getMany m sizes) = .ok rs ∧ rs.map List.length = sizes ∧
      rs.flatten = Spec.pHash (hmacSpec secret) seed sizes.sum := by
  obtain ⟨p, h1, h2⟩ := new_spec hs hd m
  obtain ⟨rs, h3, h4, h5⟩ := getMany_spec hs hd m sizes 0 p h2
  refine ⟨rs, by rw [h1]; exact h3, h4, ?_⟩
  rw [h5]
  simp

/-- The form used by the handshake: one request on a fresh generator. -/
theorem prf_once (m : Mode) (secret seed : Bytes) (hs : secret.length ≤ 64) (hd : seed.length < 2 ^ 59) (len : Nat) :
    ∃ p p', Prf.new m secret seed = .ok p ∧ getBytes m p len = .ok (Spec.pHash (hmacSpec secret) seed len, p') ∧
      PrfInv secret seed len p' := by
  obtain ⟨p, h1, h2⟩ := new_spec hs hd m
  obtain ⟨p', h3, h4⟩ := getBytes_spec hs hd m len 0 p h2
  exact ⟨p, p', h1, by simpa using h3, by simpa using h4⟩

/-- Non-vacuity of C42: the handshake's own uses (48-byte master secret, 13+64-byte seed; sizes 32, 32, 12, 12). -/
example : (List.replicate 48 (1 : UInt8)).length ≤ 64 ∧ (List.replicate 77 (2 : UInt8)).length < 2 ^ 59 ∧ [32, 32, 12, 12].sum = 88 := by
  simp

end Husk
