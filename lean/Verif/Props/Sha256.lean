import Verif.Proofs.Sha2
/-! C40: SHA-256. -/

namespace Husk

open Spec.Sha256

/-- `⌊∛p · 2^32⌋` for the first 64 primes (checked below, not trusted). -/
def cubeRoots : List Nat := [5411319704, 6194414737, 7344290767, 8215976869, 9551921755, 10098905585, 11043570340, 11460697813, 12214315672, 13195500289, 13492127166, 14311783875, 14809980276, 15046980094, 15499789991, 16133124468, 16720292289, 16907126662, 17444216262, 17784676812, 17950125167, 18429019306, 18734950876, 19175934170, 19734090066, 20001703533, 20132865992, 20390182855, 20516441075, 20764397895, 21588763473, 21813078375, 22141143685, 22248366392, 22769593852, 22871018771, 23170020180, 23461497531, 23651862830, 23931792517, 24205322401, 24295138891, 24734567280, 24820601251, 24990902297, 25075189284, 25569408389, 26045227120, 26200031510, 26276752392, 26428864332, 26653801653, 26727943347, 27092625994, 27306805839, 27517677555, 27725365998, 27793908591, 27997534228, 28131656200, 28198240250, 28526537963, 28973835255, 29099129074]

/-- `⌊√p · 2^32⌋` for the first 8 primes (checked below, not trusted). -/
def squareRoots : List Nat := [6074000999, 7439101573, 9603838834, 11363415354, 14244795007, 15485724812, 17708603819, 18721328409]

theorem primes_length : primes.length = 64 := by decide +kernel

theorem roundConstants_ok : ∀ t : Fin 64, IsRoot 3 (primes.getD t 0 * 2 ^ 96) (cubeRoots.getD t 0) ∧
    (Sha2.Kfun t).toNat = cubeRoots.getD t 0 % 2 ^ 32 := by decide +kernel

theorem initVector_ok : ∀ i : Fin 8, IsRoot 2 ([2, 3, 5, 7, 11, 13, 17, 19].getD i 0 * 2 ^ 64) (squareRoots.getD i 0) ∧
    ((Sha2.INIT_VECTOR.map UInt32.toBitVec).getD i 0).toNat = squareRoots.getD i 0 % 2 ^ 32 := by decide +kernel

/-- C40: for every message shorter than 2^61 bytes, in both build modes, `sha256` returns the FIPS 180-4 digest. -/
theorem C40_sha256_is_fips180 (m : Mode) (msg : Bytes) (h : msg.length < 2 ^ 61) :
    ∃ d, Sha2.sha256 m msg = .ok d ∧ IsSha256 msg d ∧ d.length = 32 := by
  obtain ⟨p, hp, hpad⟩ := Sha2.pad_spec m msg h
  simp only [Sha2.sha256, hp, Res.bind_ok, Res.pure_def]
  refine ⟨_, rfl, ?_, ?_⟩
  · refine ⟨Sha2.Kfun, Sha2.toState Sha2.INIT_VECTOR, p, ?_, ?_, hpad, ?_⟩
    · intro t ht
      obtain ⟨h1, h2⟩ := roundConstants_ok ⟨t, by rw [primes_length] at ht; exact ht⟩
      refine ⟨cubeRoots.getD t 0, ?_, h2⟩
      rw [List.getD_eq_getElem?_getD, List.getElem?_eq_getElem ht] at h1
      exact h1
    · intro i hi
      obtain ⟨h1, h2⟩ := initVector_ok ⟨i, hi⟩
      refine ⟨squareRoots.getD i 0, ?_, ?_⟩
      · rw [List.getD_eq_getElem?_getD, List.getElem?_eq_getElem (by exact hi)] at h1
        exact h1
      · rw [List.getD_eq_getElem?_getD, List.getElem?_eq_getElem (by exact hi)] at h2
        exact h2
    · rw [Sha2.write_eq_digest _ (Sha2.fold_length _ _), Sha2.fold_toState _ _ (by omega)]
  · rw [Sha2.write_eq_digest _ (Sha2.fold_length _ _)]
    simp [digest]

/-- A 32-bit constant is determined by its defining property. -/
theorem FracRoot_unique {k p : Nat} {v w : Word} (hk : k ≠ 0) (h1 : FracRoot k p v) (h2 : FracRoot k p w) : v = w := by
  obtain ⟨r, ⟨hr1, hr2⟩, hv⟩ := h1
  obtain ⟨s, ⟨hs1, hs2⟩, hw⟩ := h2
  have : r = s := by
    have a1 : r < s + 1 := (Nat.pow_lt_pow_iff_left hk).mp (Nat.lt_of_le_of_lt hr1 hs2)
    have a2 : s < r + 1 := (Nat.pow_lt_pow_iff_left hk).mp (Nat.lt_of_le_of_lt hs1 hr2)
    omega
  apply BitVec.eq_of_toNat_eq
  rw [hv, hw, this]

/-- The specification determines the digest: `IsSha256` is a function. -/
theorem IsSha256_functional {msg d d' : Bytes} (h : IsSha256 msg d) (h' : IsSha256 msg d') : d = d' := by
  obtain ⟨K, H, p, hK, hH, ⟨k, hp, hp0, hmin⟩, hd⟩ := h
  obtain ⟨K', H', p', hK', hH', ⟨k', hp', hp0', hmin'⟩, hd'⟩ := h'
  have hkk : k = k' := by
    have l1 : p.length = msg.length + 1 + k + 8 := by rw [hp]; simp; omega
    have l2 : p'.length = msg.length + 1 + k' + 8 := by rw [hp']; simp; omega
    rcases Nat.lt_trichotomy k k' with hlt | heq | hgt
    · exact absurd (l1 ▸ hp0) (hmin' k hlt)
    · exact heq
    · exact absurd (l2 ▸ hp0') (hmin k' hgt)
  have hpp : p = p' := by rw [hp, hp', hkk]
  have hHH : H = H' := by
    cases H; cases H'
    have := fun i hi => FracRoot_unique (by decide) (hH i hi) (hH' i hi)
    simp only [State.mk.injEq]
    exact ⟨this 0 (by decide), this 1 (by decide), this 2 (by decide), this 3 (by decide), this 4 (by decide),
      this 5 (by decide), this 6 (by decide), this 7 (by decide)⟩
  have hKK : ∀ t < 64, K t = K' t := fun t ht =>
    FracRoot_unique (by decide) (hK t (by rw [primes_length]; exact ht)) (hK' t (by rw [primes_length]; exact ht))
  have hV : ∀ M s n, n ≤ 64 → vars K M s n = vars K' M s n := by
    intro M s n hn
    induction n with
    | zero => rfl
    | succ n ih => simp only [vars]; rw [ih (by omega), hKK n (by omega)]
  have hh : ∀ n, Spec.Sha256.hash K H p n = Spec.Sha256.hash K' H p n := by
    intro n
    induction n with
    | zero => rfl
    | succ n ih => simp only [Spec.Sha256.hash, compress]; rw [ih, hV _ _ _ (Nat.le_refl _)]
  rw [hd, hd', ← hpp, ← hHH, hh]

/-- Any FIPS 180-4 digest of the message is what the code returns. -/
theorem C40_sha256_unique (m : Mode) (msg d : Bytes) (h : msg.length < 2 ^ 61) (hd : IsSha256 msg d) :
    Sha2.sha256 m msg = .ok d := by
  obtain ⟨d', h1, h2, _⟩ := C40_sha256_is_fips180 m msg h
  rw [h1, IsSha256_functional h2 hd]

/-- Non-vacuity: the hypothesis holds of a two-block message, and the digest of "abc" is the published one. -/
example : (List.replicate 100 (7 : UInt8)).length < 2 ^ 61 := by simp
example : IsSha256 [97, 98, 99] [0xba, 0x78, 0x16, 0xbf, 0x8f, 0x01, 0xcf, 0xea, 0x41, 0x41, 0x40, 0xde, 0x5d, 0xae, 0x22, 0x23,
    0xb0, 0x03, 0x61, 0xa3, 0x96, 0x17, 0x7a, 0x9c, 0xb4, 0x10, 0xff, 0x61, 0xf2, 0x00, 0x15, 0xad] := by
  obtain ⟨d, h1, h2, _⟩ := C40_sha256_is_fips180 .debug [97, 98, 99] (by simp)
  have : Sha2.sha256 .debug [97, 98, 99] = .ok [0xba, 0x78, 0x16, 0xbf, 0x8f, 0x01, 0xcf, 0xea, 0x41, 0x41, 0x40, 0xde, 0x5d, 0xae,
    0x22, 0x23, 0xb0, 0x03, 0x61, 0xa3, 0x96, 0x17, 0x7a, 0x9c, 0xb4, 0x10, 0xff, 0x61, 0xf2, 0x00, 0x15, 0xad] := by decide +kernel
  rw [this] at h1
  cases h1
  exact h2

/-- C40, functional form: the code computes the FIPS 180-4 function. -/
theorem C40_sha256_eq (m : Mode) (msg : Bytes) (h : msg.length < 2 ^ 61) :
    Sha2.sha256 m msg = .ok (Spec.Sha256.sha256 msg) := by
  obtain ⟨d, h1, h2, _⟩ := C40_sha256_is_fips180 m msg h
  have hex : ∃ d, IsSha256 msg d := ⟨d, h2⟩
  rw [h1, Spec.Sha256.sha256, dif_pos hex, IsSha256_functional h2 hex.choose_spec]

theorem sha256_length (msg : Bytes) (h : msg.length < 2 ^ 61) : (Spec.Sha256.sha256 msg).length = 32 := by
  obtain ⟨d, h1, _, h3⟩ := C40_sha256_is_fips180 .release msg h
  rw [C40_sha256_eq _ _ h] at h1
  cases h1
  exact h3

end Husk
