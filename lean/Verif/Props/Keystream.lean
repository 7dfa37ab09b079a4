import Verif.Props.ChaCha20
/-! C98: the key stream of a `ChaCha20` object over any history of calls. -/

namespace Husk

/-- A call on a `ChaCha20` object (src/crypto/chacha20.rs:81-109). -/
inductive CipherCall where
  | next
  | encrypt (data : Bytes)

/-- A history of calls on one object and what they return. -/
def runCipher (m : Mode) : List CipherCall → ChaCha20.ChaCha20 → Res (List Bytes × ChaCha20.ChaCha20)
  | [], s => .ok ([], s)
  | .next :: calls, s => do
    let (out, s) ← ChaCha20.next m s
    let (outs, s) ← runCipher m calls s
    return (out :: outs, s)
  | .encrypt data :: calls, s => do
    let (out, s) ← ChaCha20.encrypt m s data
    let (outs, s) ← runCipher m calls s
    return (out :: outs, s)

/-! ### Specification -/

/-- The number of blocks a call uses. -/
def CipherCall.blocks : CipherCall → Nat
  | .next => 1
  | .encrypt data => (data.length + 63) / 64

/-- What a call returns when `k` blocks have been used before: RFC 8439 with the counter starting from `k` (the counter of the RFC has 32 bits). -/
def CipherCall.output (key nonce : Bytes) (k : Nat) : CipherCall → Bytes
  | .next => Spec.ChaCha20.block key k nonce
  | .encrypt data => Spec.ChaCha20.encrypt key k nonce data

def Spec.cipherOutputs (key nonce : Bytes) : Nat → List CipherCall → List Bytes
  | _, [] => []
  | k, c :: calls => c.output key nonce k :: cipherOutputs key nonce (k + c.blocks) calls

/-! ### Proofs -/

theorem initState_mod (key nonce : Bytes) (k i : Nat) : Spec.ChaCha20.initState key (k % 2 ^ 32) nonce i = Spec.ChaCha20.initState key k nonce i := by
  have : BitVec.ofNat 32 (k % 2 ^ 32) = BitVec.ofNat 32 k := by apply BitVec.eq_of_toNat_eq; simp
  simp only [Spec.ChaCha20.initState, this]

theorem block_mod (key nonce : Bytes) (k : Nat) : Spec.ChaCha20.block key (k % 2 ^ 32) nonce = Spec.ChaCha20.block key k nonce := by
  have : Spec.ChaCha20.initState key (k % 2 ^ 32) nonce = Spec.ChaCha20.initState key k nonce := funext (initState_mod key nonce k)
  simp only [Spec.ChaCha20.block, this]

theorem ChaCha20.At.counter {key nonce : Bytes} {k : Nat} {s : ChaCha20.ChaCha20} (h : ChaCha20.At key nonce k s) : (s.vals.getD 12 0).toNat = k := by
  have h1 := h.vals 12 (by omega)
  have h2 := congrArg BitVec.toNat h1
  simp only [Spec.ChaCha20.initState] at h2
  simp [ChaCha20.toFun] at h2
  rw [List.getD_eq_getElem?_getD, h2]
  exact Nat.mod_eq_of_lt h.ctr

/-- Release builds: the counter is taken modulo 2^32. -/
theorem next_release {key nonce : Bytes} {k : Nat} {s : ChaCha20.ChaCha20} (h : ChaCha20.At key nonce (k % 2 ^ 32) s) :
    ∃ s', ChaCha20.next .release s = .ok (Spec.ChaCha20.block key k nonce, s') ∧ ChaCha20.At key nonce ((k + 1) % 2 ^ 32) s' := by
  by_cases hk : k % 2 ^ 32 + 1 < 2 ^ 32
  · obtain ⟨s', h1, h2⟩ := ChaCha20.next_spec .release h hk
    rw [block_mod] at h1
    exact ⟨s', h1, by rw [show (k + 1) % 2 ^ 32 = k % 2 ^ 32 + 1 by omega]; exact h2⟩
  · have hc := h.counter
    have h1 : (1 : UInt32).toNat = 1 := rfl
    have hadd : addU32 .release (s.vals.getD 12 0) 1 = .ok (s.vals.getD 12 0 + 1) := by
      unfold addU32
      split <;> rfl
    have hv : (s.vals.getD 12 0 + 1).toNat = 0 := by
      rw [UInt32.toNat_add, hc, h1]; omega
    refine ⟨{ vals := s.vals.set 12 (s.vals.getD 12 0 + 1) }, ?_, by simp [h.len], by omega, ?_⟩
    · simp only [ChaCha20.next, hadd, Res.bind_ok, ChaCha20.round20_spec h, block_mod, Res.pure_def]
    · intro i hi
      rw [ChaCha20.toFun_set _ _ _ (by rw [h.len]; omega), show (k + 1) % 2 ^ 32 = 0 by omega]
      unfold Spec.ChaCha20.upd
      by_cases h12 : i = 12
      · subst h12
        rw [if_pos rfl]
        apply BitVec.eq_of_toNat_eq
        simp only [Spec.ChaCha20.initState]
        rw [UInt32.toNat_toBitVec, hv]
        simp
      · rw [if_neg h12, h.vals i hi]
        simp [Spec.ChaCha20.initState, h12]

theorem encrypt_split (key nonce data : Bytes) (k : Nat) :
    List.zipWith (· ^^^ ·) (Spec.ChaCha20.block key k nonce) (data.take 64) ++ Spec.ChaCha20.encrypt key (k + 1) nonce (data.drop 64) =
      Spec.ChaCha20.encrypt key k nonce data := by
  rw [ChaCha20.zipWith_getD_eq_mapIdx _ _ (by rw [ChaCha20.block_length]; simp; omega)]
  conv => rhs; rw [← List.take_append_drop 64 data]
  unfold Spec.ChaCha20.encrypt
  rw [List.mapIdx_append]
  have app : ∀ {a b c d : Bytes}, a = c → b = d → a ++ b = c ++ d := by rintro _ _ _ _ rfl rfl; rfl
  refine app ?_ ?_
  · apply List.ext_getElem
    · simp
    · intro i hi1 hi2
      have : i < 64 := by simp at hi1; omega
      simp [Spec.ChaCha20.keystream, Nat.div_eq_of_lt this, Nat.mod_eq_of_lt this]
  · apply List.ext_getElem
    · simp
    · intro i hi1 hi2
      have h64 : (data.take 64).length = 64 := by simp at hi1 ⊢; omega
      simp only [List.getElem_mapIdx, h64]
      unfold Spec.ChaCha20.keystream
      rw [show k + (i + 64) / 64 = k + 1 + i / 64 by omega, show (i + 64) % 64 = i % 64 by omega]

theorem encryptChunks_release {key nonce : Bytes} (data : Bytes) : ∀ {k : Nat} {s : ChaCha20.ChaCha20}, ChaCha20.At key nonce (k % 2 ^ 32) s →
    ∃ s', ChaCha20.encryptChunks .release (chunks 64 data) s = .ok (Spec.ChaCha20.encrypt key k nonce data, s') ∧
      ChaCha20.At key nonce ((k + (data.length + 63) / 64) % 2 ^ 32) s' := by
  induction data using chunks_induction (show 0 < 64 by omega) with
  | nil => intro k s h; exact ⟨s, rfl, by simpa using h⟩
  | step data hne ih =>
    intro k s h
    have hpos : 0 < data.length := List.length_pos_iff.mpr hne
    obtain ⟨s1, h1, h2⟩ := next_release h
    have hcount : (data.length + 63) / 64 = 1 + ((data.drop 64).length + 63) / 64 := by
      rw [List.length_drop]; omega
    obtain ⟨s2, h3, h4⟩ := ih h2
    refine ⟨s2, ?_, by rw [hcount, ← Nat.add_assoc]; exact h4⟩
    rw [chunks_of_ne_nil (by omega) hne, ChaCha20.encryptChunks]
    simp only [h1, h3, Res.bind_ok, Res.pure_def]
    rw [encrypt_split]

theorem runCipher_release {key nonce : Bytes} (calls : List CipherCall) {k : Nat} {s : ChaCha20.ChaCha20} (h : ChaCha20.At key nonce (k % 2 ^ 32) s) :
    ∃ s', runCipher .release calls s = .ok (Spec.cipherOutputs key nonce k calls, s') := by
  induction calls generalizing k s with
  | nil => exact ⟨s, rfl⟩
  | cons c calls ih =>
    cases c with
    | next =>
      obtain ⟨s1, h1, h2⟩ := next_release h
      obtain ⟨s', h3⟩ := ih h2
      exact ⟨s', by simp only [runCipher, h1, Res.bind_ok, h3, Res.pure_def]; rfl⟩
    | encrypt data =>
      obtain ⟨s1, h1, h2⟩ := encryptChunks_release data h
      obtain ⟨s', h3⟩ := ih h2
      exact ⟨s', by simp only [runCipher, ChaCha20.encrypt, h1, Res.bind_ok, h3, Res.pure_def]; rfl⟩

theorem runCipher_below {m : Mode} {key nonce : Bytes} (calls : List CipherCall) {k : Nat} {s : ChaCha20.ChaCha20} (h : ChaCha20.At key nonce k s)
    (hn : k + (calls.map CipherCall.blocks).sum < 2 ^ 32) : ∃ s', runCipher m calls s = .ok (Spec.cipherOutputs key nonce k calls, s') := by
  induction calls generalizing k s with
  | nil => exact ⟨s, rfl⟩
  | cons c calls ih =>
    rw [List.map_cons, List.sum_cons] at hn
    cases c with
    | next =>
      simp only [CipherCall.blocks] at hn
      obtain ⟨s1, h1, h2⟩ := ChaCha20.next_spec m h (by omega)
      obtain ⟨s', h3⟩ := ih h2 (by omega)
      exact ⟨s', by simp only [runCipher, h1, Res.bind_ok, h3, Res.pure_def]; rfl⟩
    | encrypt data =>
      simp only [CipherCall.blocks] at hn
      obtain ⟨s1, h1, h2⟩ := ChaCha20.encryptChunks_spec m data h (by omega)
      obtain ⟨s', h3⟩ := ih h2 (by omega)
      exact ⟨s', by simp only [runCipher, ChaCha20.encrypt, h1, Res.bind_ok, h3, Res.pure_def]; rfl⟩

theorem encryptChunks_debug {key nonce : Bytes} (data : Bytes) : ∀ {k : Nat} {s : ChaCha20.ChaCha20}, ChaCha20.At key nonce k s → 2 ^ 32 ≤ k + (data.length + 63) / 64 →
    ChaCha20.encryptChunks .debug (chunks 64 data) s = .panic := by
  induction data using chunks_induction (show 0 < 64 by omega) with
  | nil => intro k s h hk; have := h.ctr; simp at hk; omega
  | step data hne ih =>
    intro k s h hk
    have hpos : 0 < data.length := List.length_pos_iff.mpr hne
    have hcount : (data.length + 63) / 64 = 1 + ((data.drop 64).length + 63) / 64 := by
      rw [List.length_drop]; omega
    rw [chunks_of_ne_nil (by omega) hne, ChaCha20.encryptChunks]
    by_cases h1 : k + 1 < 2 ^ 32
    · obtain ⟨s1, g1, g2⟩ := ChaCha20.next_spec .debug h h1
      simp only [g1, Res.bind_ok, ih g2 (by omega)]
      rfl
    · have hk' : k = 2 ^ 32 - 1 := by have := h.ctr; omega
      subst hk'
      rw [ChaCha20.next_exhausted_debug h]
      rfl

theorem runCipher_debug {key nonce : Bytes} (calls : List CipherCall) {k : Nat} {s : ChaCha20.ChaCha20} (h : ChaCha20.At key nonce k s)
    (hn : 2 ^ 32 ≤ k + (calls.map CipherCall.blocks).sum) : runCipher .debug calls s = .panic := by
  induction calls generalizing k s with
  | nil => have := h.ctr; simp at hn; omega
  | cons c calls ih =>
    rw [List.map_cons, List.sum_cons] at hn
    cases c with
    | next =>
      simp only [CipherCall.blocks] at hn
      rw [runCipher]
      by_cases h1 : k + 1 < 2 ^ 32
      · obtain ⟨s1, g1, g2⟩ := ChaCha20.next_spec .debug h h1
        simp only [g1, Res.bind_ok, ih g2 (by omega)]
        rfl
      · have hk' : k = 2 ^ 32 - 1 := by have := h.ctr; omega
        subst hk'
        rw [ChaCha20.next_exhausted_debug h]
        rfl
    | encrypt data =>
      simp only [CipherCall.blocks] at hn
      rw [runCipher]
      by_cases h1 : k + (data.length + 63) / 64 < 2 ^ 32
      · obtain ⟨s1, g1, g2⟩ := ChaCha20.encryptChunks_spec .debug data h h1
        simp only [ChaCha20.encrypt, g1, Res.bind_ok, ih g2 (by omega)]
        rfl
      · rw [ChaCha20.encrypt, encryptChunks_debug data h (by omega)]
        rfl

/-! ### C98 -/

/-- C98, below the limit, in both build modes: for every history of `next` and `encrypt` that uses fewer than 2^32 blocks, each call returns what RFC 8439 says with
the counter where the calls before left it, and all blocks used come from different states. The suffix says what is missing: the limit is not kept (`C98_reused`). -/
theorem C98_below_partial (m : Mode) (key nonce : Bytes) (hk : key.length = 32) (hn : nonce.length = 12) (calls : List CipherCall)
    (hb : (calls.map CipherCall.blocks).sum < 2 ^ 32) :
    (∃ s s', ChaCha20.new key nonce = .ok s ∧ runCipher m calls s = .ok (Spec.cipherOutputs key nonce 0 calls, s')) ∧
      ∀ i j, i < (calls.map CipherCall.blocks).sum → j < (calls.map CipherCall.blocks).sum →
        Spec.ChaCha20.initState key i nonce = Spec.ChaCha20.initState key j nonce → i = j := by
  obtain ⟨s, h1, h2⟩ := ChaCha20.new_at key nonce hk hn
  obtain ⟨s', h3⟩ := runCipher_below (m := m) calls h2 (by omega)
  refine ⟨⟨s, s', h1, h3⟩, fun i j hi hj e => ?_⟩
  have := congrArg BitVec.toNat (congrFun e 12)
  simp [Spec.ChaCha20.initState] at this
  omega

/-- C98, release builds: every history of calls succeeds, and the counter goes round. -/
theorem C98_release (key nonce : Bytes) (hk : key.length = 32) (hn : nonce.length = 12) (calls : List CipherCall) :
    ∃ s s', ChaCha20.new key nonce = .ok s ∧ runCipher .release calls s = .ok (Spec.cipherOutputs key nonce 0 calls, s') := by
  obtain ⟨s, h1, h2⟩ := ChaCha20.new_at key nonce hk hn
  obtain ⟨s', h3⟩ := runCipher_release (k := 0) calls (by simpa using h2)
  exact ⟨s, s', h1, h3⟩

/-- C98, debug builds: the call that uses the last block panics. -/
theorem C98_debug_panics (key nonce : Bytes) (hk : key.length = 32) (hn : nonce.length = 12) (calls : List CipherCall) (hb : 2 ^ 32 ≤ (calls.map CipherCall.blocks).sum) :
    ∃ s, ChaCha20.new key nonce = .ok s ∧ runCipher .debug calls s = .panic := by
  obtain ⟨s, h1, h2⟩ := ChaCha20.new_at key nonce hk hn
  exact ⟨s, h1, runCipher_debug calls h2 (by omega)⟩

/-- C98 is false in release builds: the comment allows 2^70 bytes, but the key stream repeats after 2^38 bytes. In one `encrypt` call of more than 2^38 bytes, bytes
at a distance of 2^38 are encrypted with the same byte of the key stream: the ciphertext tells their xor. -/
theorem C98_reused (key nonce : Bytes) (hk : key.length = 32) (hn : nonce.length = 12) (data : Bytes) :
    ∃ s s' out, ChaCha20.new key nonce = .ok s ∧ ChaCha20.encrypt .release s data = .ok (out, s') ∧ out.length = data.length ∧
      ∀ i, i + 2 ^ 38 < data.length → out.getD i 0 ^^^ out.getD (i + 2 ^ 38) 0 = data.getD i 0 ^^^ data.getD (i + 2 ^ 38) 0 := by
  obtain ⟨s, h1, h2⟩ := ChaCha20.new_at key nonce hk hn
  obtain ⟨s', h3, -⟩ := encryptChunks_release (k := 0) data (by simpa using h2)
  refine ⟨s, s', _, h1, h3, by simp [Spec.ChaCha20.encrypt], fun i hi => ?_⟩
  have hks : Spec.ChaCha20.keystream key 0 nonce (i + 2 ^ 38) = Spec.ChaCha20.keystream key 0 nonce i := by
    unfold Spec.ChaCha20.keystream
    rw [← block_mod key nonce (0 + (i + 2 ^ 38) / 64), ← block_mod key nonce (0 + i / 64)]
    have e1 : (0 + (i + 2 ^ 38) / 64) % 2 ^ 32 = (0 + i / 64) % 2 ^ 32 := by omega
    have e2 : (i + 2 ^ 38) % 64 = i % 64 := by omega
    rw [e1, e2]
  have get : ∀ j, j < data.length → (Spec.ChaCha20.encrypt key 0 nonce data).getD j 0 = data.getD j 0 ^^^ Spec.ChaCha20.keystream key 0 nonce j := by
    intro j hj
    simp [Spec.ChaCha20.encrypt, List.getD_eq_getElem?_getD, hj]
  rw [get i (by omega), get _ hi, hks, UInt8.xor_assoc, ← UInt8.xor_assoc _ (data.getD (i + 2 ^ 38) 0), UInt8.xor_comm _ (data.getD (i + 2 ^ 38) 0), UInt8.xor_assoc,
    UInt8.xor_self, UInt8.xor_zero]

/-- C98, pieces: encrypting in two calls is encrypting at once if the first piece is a multiple of 64 bytes long. -/
theorem C98_pieces (key nonce a b : Bytes) (k : Nat) (h : 64 ∣ a.length) :
    Spec.cipherOutputs key nonce k [.encrypt a, .encrypt b] = [Spec.ChaCha20.encrypt key k nonce a, Spec.ChaCha20.encrypt key (k + a.length / 64) nonce b] ∧
      (Spec.cipherOutputs key nonce k [.encrypt a, .encrypt b]).flatten = Spec.ChaCha20.encrypt key k nonce (a ++ b) := by
  obtain ⟨n, hn⟩ := h
  have e : (a.length + 63) / 64 = a.length / 64 := by omega
  constructor
  · simp [Spec.cipherOutputs, CipherCall.output, CipherCall.blocks, e]
  · simp only [Spec.cipherOutputs, CipherCall.output, CipherCall.blocks, e, List.flatten_cons, List.flatten_nil, List.append_nil]
    unfold Spec.ChaCha20.encrypt
    rw [List.mapIdx_append]
    have app : ∀ {a b d : Bytes}, b = d → a ++ b = a ++ d := by rintro _ _ _ rfl; rfl
    apply app
    apply List.ext_getElem
    · simp
    · intro i h1 h2
      simp only [List.getElem_mapIdx]
      unfold Spec.ChaCha20.keystream
      rw [show k + a.length / 64 + i / 64 = k + (i + a.length) / 64 by omega, show (i + a.length) % 64 = i % 64 by omega]

/-- The hypotheses: three blocks are below the limit, and 2^32 calls of `next` reach it. -/
example : ([CipherCall.next, .encrypt (List.replicate 70 0)].map CipherCall.blocks).sum = 3 ∧ ((List.replicate (2 ^ 32) CipherCall.next).map CipherCall.blocks).sum = 2 ^ 32 := by
  constructor
  · simp [CipherCall.blocks]
  · rw [List.map_replicate, List.sum_replicate_nat]; rfl

end Husk
