import Verif.Proofs.Transport
/-! C43 (constant-time compare is equality) and C56 (integer/byte conversions). -/

namespace Husk

namespace Util

theorem or_zero (a b : UInt8) : a ||| b = 0 ↔ a = 0 ∧ b = 0 := by
  constructor
  · intro h
    have h' := congrArg UInt8.toNat h
    rw [UInt8.toNat_or] at h'
    have := Nat.or_eq_zero_iff.mp h'
    exact ⟨UInt8.toNat_inj.mp this.1, UInt8.toNat_inj.mp this.2⟩
  · rintro ⟨rfl, rfl⟩; rfl

theorem diffLoop_spec (a b : Bytes) (acc : UInt8) (h : a.length = b.length) :
    ∃ d, diffLoop a b acc = .ok d ∧ (d = 0 ↔ acc = 0 ∧ a = b) := by
  induction a generalizing b acc with
  | nil =>
    have : b = [] := List.length_eq_zero_iff.mp h.symm
    exact ⟨acc, rfl, by simp [this]⟩
  | cons x a ih =>
    cases b with
    | nil => simp at h
    | cons y b =>
      obtain ⟨d, h1, h2⟩ := ih b (acc ||| (x ^^^ y)) (by simpa using h)
      refine ⟨d, h1, ?_⟩
      rw [h2, or_zero, UInt8.xor_eq_zero_iff]
      simp [and_assoc]

/-- The folding of all eight bits into the lowest one. -/
theorem fold_bits (d : UInt8) :
    (let e := d ||| (d >>> 4); let e := e ||| (e >>> 2); let e := e ||| (e >>> 1); (e &&& 1) == 0) = (d == 0) := by
  have h : ∀ n : Fin 256, (let d := UInt8.ofNat n.val; let e := d ||| (d >>> 4); let e := e ||| (e >>> 2); let e := e ||| (e >>> 1);
      (e &&& 1) == 0) = (UInt8.ofNat n.val == 0) := by decide +kernel
  have := h ⟨d.toNat, d.toNat_lt⟩
  simpa using this

end Util

/-- C43: for slices of equal length `crypto_compare` returns (in both build modes, without panic) `true` iff they are equal. -/
theorem C43_crypto_compare_is_equality (m : Mode) (a b : Bytes) (h : a.length = b.length) :
    Util.cryptoCompare m a b = .ok (decide (a = b)) := by
  obtain ⟨d, h1, h2⟩ := Util.diffLoop_spec a b 0 h
  have hd : debugAssert m (a.length == b.length) = .ok () := by
    rw [h]; cases m <;> simp [debugAssert]
  unfold Util.cryptoCompare
  simp only [hd, h1, Res.bind_ok, Res.pure_def]
  rw [Util.fold_bits d]
  have h3 : d = 0 ↔ a = b := by simpa using h2
  congr 1
  by_cases e : a = b
  · simp [h3.mpr e, e]
  · have : d ≠ 0 := fun h => e (h3.mp h)
    simp [this, e]

/-- C43, both directions as the caller sees it. -/
theorem C43_true_iff (m : Mode) (a b : Bytes) (h : a.length = b.length) : Util.cryptoCompare m a b = .ok true ↔ a = b := by
  rw [C43_crypto_compare_is_equality m a b h]; simp

/-- Non-vacuity: equal lengths, contents differing in one bit of the last byte. -/
example : Util.cryptoCompare .debug [1, 2, 3] [1, 2, 0x83] = .ok false ∧ Util.cryptoCompare .release [1, 2, 3] [1, 2, 3] = .ok true := by
  decide

/-! ### C56 -/

/-- C56: the big-endian arrays are the big-endian digits, the little-endian arrays the little-endian digits. -/
theorem C56_arrays (x : UInt64) (y : UInt32) :
    Util.u64BeArray x = beBytes 8 x.toNat ∧ Util.u64LeArray x = leBytes 8 x.toNat ∧
    Util.u32BeArray y = beBytes 4 y.toNat ∧ Util.u32LeArray y = leBytes 4 y.toNat :=
  ⟨Util.toBe_transmute 8 _, rfl, Util.toBe_transmute 4 _, rfl⟩

/-- C56: digits determine the number, most significant first: `Σ d_i 256^(7-i)`. -/
theorem C56_be_digits (x : UInt64) : ∀ i < 8, (Util.u64BeArray x).getD i 0 = UInt8.ofNat (x.toNat / 256 ^ (7 - i)) := by
  intro i hi
  rw [(C56_arrays x 0).1]
  match i, hi with
  | 0, _ | 1, _ | 2, _ | 3, _ | 4, _ | 5, _ | 6, _ | 7, _ => simp [beBytes, leBytes, Nat.div_div_eq_div_mul]

theorem Util.toBe_leNat (k : Nat) (b : Bytes) (h : b.length = k) : Util.toBe k (leNat b) = beNat b := by
  subst h
  simp [Util.toBe, leBytes_leNat, beNat]

open Spec (Sym ofBytes)

/-- C56: `read_be_u16` / `u32` / `u64` return the number whose big-endian digits are the next bytes and consume exactly those, for any
chunking of the transport. -/
theorem C56_read_be (r : Reader) (l : List Sym) :
    (∀ x : UInt16, r.stream = ofBytes (beBytes 2 x.toNat) ++ l → ∃ r', Reader.readBeU16.run r = (.ok x, r') ∧ r'.stream = l) ∧
    (∀ x : UInt32, r.stream = ofBytes (beBytes 4 x.toNat) ++ l → ∃ r', Reader.readBeU32.run r = (.ok x, r') ∧ r'.stream = l) ∧
    (∀ x : UInt64, r.stream = ofBytes (beBytes 8 x.toNat) ++ l → ∃ r', Reader.readBeU64.run r = (.ok x, r') ∧ r'.stream = l) := by
  refine ⟨?_, ?_, ?_⟩ <;> intro x h <;> obtain ⟨r', h1, h2⟩ := Reader.readExact_ok (beBytes_length _ _) h <;> refine ⟨r', ?_, h2⟩
  · unfold Reader.readBeU16
    rw [St.bind_of_ok h1, St.pure_run, Util.toBe_leNat _ _ (by simp), beNat_beBytes, Nat.mod_eq_of_lt x.toNat_lt]
    simp
  · unfold Reader.readBeU32
    rw [St.bind_of_ok h1, St.pure_run, Util.toBe_leNat _ _ (by simp), beNat_beBytes, Nat.mod_eq_of_lt x.toNat_lt]
    simp
  · unfold Reader.readBeU64
    rw [St.bind_of_ok h1, St.pure_run, Util.toBe_leNat _ _ (by simp), beNat_beBytes, Nat.mod_eq_of_lt x.toNat_lt]
    simp

/-- C56: the same for the little-endian reads. -/
theorem C56_read_le (r : Reader) (l : List Sym) :
    (∀ x : UInt16, r.stream = ofBytes (leBytes 2 x.toNat) ++ l → ∃ r', Reader.readLeU16.run r = (.ok x, r') ∧ r'.stream = l) ∧
    (∀ x : UInt32, r.stream = ofBytes (leBytes 4 x.toNat) ++ l → ∃ r', Reader.readLeU32.run r = (.ok x, r') ∧ r'.stream = l) ∧
    (∀ x : UInt64, r.stream = ofBytes (leBytes 8 x.toNat) ++ l → ∃ r', Reader.readLeU64.run r = (.ok x, r') ∧ r'.stream = l) := by
  refine ⟨?_, ?_, ?_⟩ <;> intro x h <;> obtain ⟨r', h1, h2⟩ := Reader.readExact_ok (leBytes_length _ _) h <;> refine ⟨r', ?_, h2⟩
  · unfold Reader.readLeU16
    rw [St.bind_of_ok h1, St.pure_run, Util.toLe, leNat_leBytes, Nat.mod_eq_of_lt x.toNat_lt]
    simp
  · unfold Reader.readLeU32
    rw [St.bind_of_ok h1, St.pure_run, Util.toLe, leNat_leBytes, Nat.mod_eq_of_lt x.toNat_lt]
    simp
  · unfold Reader.readLeU64
    rw [St.bind_of_ok h1, St.pure_run, Util.toLe, leNat_leBytes, Nat.mod_eq_of_lt x.toNat_lt]
    simp

/-- C56: the writes put the corresponding digits on the wire. -/
theorem C56_write (w : Writer) (hf : w.faults = []) (a : UInt16) (b : UInt32) (c : UInt64) (d : UInt8) :
    (Writer.writeU8 d).run w = (.ok (), { w with wire := w.wire ++ [d] }) ∧
    (Writer.writeBeU16 a).run w = (.ok (), { w with wire := w.wire ++ beBytes 2 a.toNat }) ∧
    (Writer.writeBeU32 b).run w = (.ok (), { w with wire := w.wire ++ beBytes 4 b.toNat }) ∧
    (Writer.writeBeU64 c).run w = (.ok (), { w with wire := w.wire ++ beBytes 8 c.toNat }) ∧
    (Writer.writeLeU16 a).run w = (.ok (), { w with wire := w.wire ++ leBytes 2 a.toNat }) ∧
    (Writer.writeLeU32 b).run w = (.ok (), { w with wire := w.wire ++ leBytes 4 b.toNat }) ∧
    (Writer.writeLeU64 c).run w = (.ok (), { w with wire := w.wire ++ leBytes 8 c.toNat }) := by
  have key : ∀ x : Bytes, x ≠ [] → (Writer.writeAll x).run w = (.ok (), { w with wire := w.wire ++ x }) := by
    intro x hx
    simp [Writer.writeAll, hx, hf]
  have keyL : ∀ k n, (Writer.writeAll (Util.transmute (k + 1) n)).run w = (.ok (), { w with wire := w.wire ++ leBytes (k + 1) n }) :=
    fun k n => key _ (fun h => by simpa [Util.transmute] using congrArg List.length h)
  have keyB : ∀ k n, (Writer.writeAll (Util.transmute (k + 1) (Util.toBe (k + 1) n))).run w =
      (.ok (), { w with wire := w.wire ++ beBytes (k + 1) n }) := by
    intro k n
    rw [Util.toBe_transmute]
    exact key _ (fun h => by simpa using congrArg List.length h)
  refine ⟨?_, keyB 1 _, keyB 3 _, keyB 7 _, keyL 1 _, keyL 3 _, keyL 7 _⟩
  have := keyL 0 d.toNat
  rw [show leBytes (0 + 1) d.toNat = [d] by simp [leBytes]] at this
  exact this

/-- C56: `write_be_u16` then `read_be_u16` is the identity, for any chunking in between. -/
theorem C56_be_u16_roundtrip (a : UInt16) (r : Reader) (hr : r.stream = ofBytes ((Writer.writeBeU16 a).run {}).2.wire) :
    (Reader.readBeU16.run r).1 = .ok a := by
  rw [(C56_write {} rfl a 0 0 0).2.1] at hr
  obtain ⟨r', h, _⟩ := (C56_read_be r []).1 a (by simpa using hr)
  rw [h]

/-- Non-vacuity: a stream cut in the middle of the number. -/
example : (Reader.readBeU16.run ⟨[.data [0x12], .data [0x34, 0x56]]⟩) = (.ok 0x1234, ⟨[.data [0x56]]⟩) := by decide

end Husk
