import Verif.Proofs.ChaCha20
/-! C34 (ChaCha20 is RFC 8439) and C35 (block counter). -/

namespace Husk

/-- `k` calls of `next`, dropping the blocks. -/
def ChaCha20.advance (m : Mode) : Nat → ChaCha20.ChaCha20 → Res ChaCha20.ChaCha20
  | 0, s => .ok s
  | k + 1, s => do
    let (_, s) ← ChaCha20.next m s
    advance m k s

theorem ChaCha20.advance_spec (m : Mode) {key nonce : Bytes} (k : Nat) : ∀ {i : Nat} {s : ChaCha20.ChaCha20}, ChaCha20.At key nonce i s →
    i + k < 2 ^ 32 → ∃ s', ChaCha20.advance m k s = .ok s' ∧ ChaCha20.At key nonce (i + k) s' := by
  induction k with
  | zero => intro i s h _; exact ⟨s, rfl, h⟩
  | succ k ih =>
    intro i s h hk
    obtain ⟨s1, h1, h2⟩ := ChaCha20.next_spec m h (by omega)
    obtain ⟨s2, h3, h4⟩ := ih h2 (by omega)
    refine ⟨s2, by simp only [ChaCha20.advance, h1, Res.bind_ok, h3], ?_⟩
    rw [show i + (k + 1) = i + 1 + k by omega]
    exact h4

/-- C34: after `k` block calls, `encrypt` is the XOR with the RFC 8439 key stream from block `k` on, in both build modes, as long as
the 32-bit block counter suffices; the output has the length of the input. -/
theorem C34_chacha20_is_rfc8439 (m : Mode) (key nonce data : Bytes) (k : Nat) (hk : key.length = 32) (hn : nonce.length = 12)
    (hc : k + (data.length + 63) / 64 < 2 ^ 32) :
    ∃ s s1 s2, ChaCha20.new key nonce = .ok s ∧ ChaCha20.advance m k s = .ok s1 ∧
      ChaCha20.encrypt m s1 data = .ok (Spec.ChaCha20.encrypt key k nonce data, s2) ∧
      (Spec.ChaCha20.encrypt key k nonce data).length = data.length := by
  obtain ⟨s, h1, h2⟩ := ChaCha20.new_at key nonce hk hn
  obtain ⟨s1, h3, h4⟩ := ChaCha20.advance_spec m k h2 (by omega)
  obtain ⟨s2, h5, _⟩ := ChaCha20.encryptChunks_spec m data h4 (by omega)
  rw [Nat.zero_add] at h5
  exact ⟨s, s1, s2, h1, h3, h5, by simp [Spec.ChaCha20.encrypt]⟩

/-- C34: each single `next` call returns the RFC 8439 block with the current counter. -/
theorem C34_next_is_block (m : Mode) (key nonce : Bytes) (k : Nat) (hk : key.length = 32) (hn : nonce.length = 12)
    (hc : k + 1 < 2 ^ 32) :
    ∃ s s1 s2, ChaCha20.new key nonce = .ok s ∧ ChaCha20.advance m k s = .ok s1 ∧
      ChaCha20.next m s1 = .ok (Spec.ChaCha20.block key k nonce, s2) := by
  obtain ⟨s, h1, h2⟩ := ChaCha20.new_at key nonce hk hn
  obtain ⟨s1, h3, h4⟩ := ChaCha20.advance_spec m k h2 (by omega)
  rw [Nat.zero_add] at h4
  obtain ⟨s2, h5, _⟩ := ChaCha20.next_spec m h4 hc
  exact ⟨s, s1, s2, h1, h3, h5⟩

/-- C34: wrong key or nonce lengths are refused by the assertions (a panic), never processed. -/
theorem C34_new_wrong_length (key nonce : Bytes) (h : key.length ≠ 32 ∨ nonce.length ≠ 12) : ChaCha20.new key nonce = .panic := by
  unfold ChaCha20.new
  rcases h with h | h
  · rw [if_pos h]
  · by_cases h' : key.length ≠ 32
    · rw [if_pos h']
    · rw [if_neg h', if_pos h]

theorem Spec.ChaCha20.encrypt_encrypt (key nonce data : Bytes) (k : Nat) :
    Spec.ChaCha20.encrypt key k nonce (Spec.ChaCha20.encrypt key k nonce data) = data := by
  unfold Spec.ChaCha20.encrypt
  apply List.ext_getElem
  · simp
  · intro i h1 h2
    simp [UInt8.xor_assoc]

/-- C34: encrypting twice at the same position restores the data. -/
theorem C34_encrypt_involutive (m : Mode) (key nonce data out : Bytes) (k : Nat) (hk : key.length = 32) (hn : nonce.length = 12)
    (hc : k + (data.length + 63) / 64 < 2 ^ 32) {s s1 s2 : ChaCha20.ChaCha20} (h1 : ChaCha20.new key nonce = .ok s)
    (h2 : ChaCha20.advance m k s = .ok s1) (h3 : ChaCha20.encrypt m s1 data = .ok (out, s2)) :
    out.length = data.length ∧ ∃ s3, ChaCha20.encrypt m s1 out = .ok (data, s3) := by
  obtain ⟨t, t1, t2, e1, e2, e3, e4⟩ := C34_chacha20_is_rfc8439 m key nonce data k hk hn hc
  rw [h1] at e1; cases e1
  rw [h2] at e2; cases e2
  rw [h3] at e3; cases e3
  refine ⟨e4, ?_⟩
  obtain ⟨t, u1, u2, e1, e2, e3, _⟩ := C34_chacha20_is_rfc8439 m key nonce (Spec.ChaCha20.encrypt key k nonce data) k hk hn (by rw [e4]; exact hc)
  rw [h1] at e1; cases e1
  rw [h2] at e2; cases e2
  exact ⟨u2, by rw [e3, Spec.ChaCha20.encrypt_encrypt]⟩

/-- C35: in the AEAD's use (one block for the Poly1305 key, then the data) a fragment of up to 2^38 - 128 bytes never exhausts the
counter: no panic in debug builds, and in release builds every block of the key stream has its own counter value. -/
theorem C35_counter_no_overflow (m : Mode) (key nonce data : Bytes) (hk : key.length = 32) (hn : nonce.length = 12)
    (hl : data.length ≤ 2 ^ 38 - 128) :
    ∃ s s1 s2, ChaCha20.new key nonce = .ok s ∧ ChaCha20.next m s = .ok (Spec.ChaCha20.block key 0 nonce, s1) ∧
      ChaCha20.encrypt m s1 data = .ok (Spec.ChaCha20.encrypt key 1 nonce data, s2) ∧
      (s2.vals.getD 12 0).toNat = 1 + (data.length + 63) / 64 := by
  obtain ⟨s, h1, h2⟩ := ChaCha20.new_at key nonce hk hn
  obtain ⟨s1, h3, h4⟩ := ChaCha20.next_spec m h2 (by omega)
  obtain ⟨s2, h5, h6⟩ := ChaCha20.encryptChunks_spec m data h4 (by omega)
  rw [Nat.zero_add] at h5
  refine ⟨s, s1, s2, h1, h3, h5, ?_⟩
  have h7 := congrArg BitVec.toNat (h6.vals 12 (by omega))
  simp only [Spec.ChaCha20.initState, ChaCha20.toFun, UInt32.toNat_toBitVec] at h7
  rw [h7]
  simp
  omega

/-- C35: the bound is sharp: with the counter at 2^32 - 1 the next block panics in debug builds. -/
theorem C35_bound_sharp (key nonce : Bytes) (s : ChaCha20.ChaCha20) (h : ChaCha20.At key nonce (2 ^ 32 - 1) s) :
    ChaCha20.next .debug s = .panic := ChaCha20.next_exhausted_debug h

/-- Non-vacuity: a full TLS record is far below the bound; `k = 1` and 2^14 + 2048 bytes satisfy C34. -/
example : (List.replicate (2 ^ 14 + 2048) (0 : UInt8)).length ≤ 2 ^ 38 - 128 ∧ 1 + (2 ^ 14 + 2048 + 63) / 64 < 2 ^ 32 := by
  rw [List.length_replicate]; decide

end Husk
