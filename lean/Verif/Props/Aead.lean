import Verif.Model.AeadChaCha
import Verif.Spec.Aead
import Verif.Props.ChaCha20
import Verif.Props.Poly1305
/-! C37 (round trip), C38 (accepts only the right tag), C39 (RFC 8439 construction, unambiguous MAC input). -/

namespace Husk

namespace Aead

/-- Longest text (in bytes) for which the 32-bit block counter suffices; records have at most 2^14 + 2048. -/
def maxLen : Nat := 2 ^ 38 - 128

theorem padding_eq (x : Bytes) : padding x = Spec.Aead.pad16 x := by
  unfold padding Spec.Aead.pad16
  have h : x.length % 16 < 16 := Nat.mod_lt _ (by omega)
  by_cases h0 : x.length % 16 = 0
  · simp [h0]
  · rw [Nat.mod_eq_of_lt (show 16 - x.length % 16 < 16 by omega)]
    simp only [ne_eq]
    rw [if_pos (by omega)]

theorem macInput_eq (enc ad : Bytes) : macInput enc ad = Spec.Aead.macData ad enc := by
  simp [macInput, Spec.Aead.macData, padding_eq]

theorem computeMac_eq (m : Mode) (key nonce enc ad : Bytes) :
    computeMac m (Spec.ChaCha20.block key 0 nonce) enc ad = .ok (Spec.Aead.tag key nonce ad enc) := by
  have hl := ChaCha20.block_length key nonce 0
  unfold computeMac Spec.Aead.tag
  rw [C36_poly1305 _ _ _ _ (by simp [hl]) (by simp [hl]), macInput_eq]
  simp [List.take_take, List.drop_take]

theorem or_eq_zero (a b : UInt8) : a ||| b = 0 ↔ a = 0 ∧ b = 0 := by
  constructor
  · intro h
    have h' := congrArg UInt8.toNat h
    rw [UInt8.toNat_or] at h'
    have := Nat.or_eq_zero_iff.mp h'
    exact ⟨UInt8.toNat_inj.mp this.1, UInt8.toNat_inj.mp this.2⟩
  · rintro ⟨rfl, rfl⟩; rfl

theorem macDiff_zero (a b : Bytes) (h : a.length = b.length) : macDiff a b = 0 ↔ a = b := by
  have gen : ∀ (a b : Bytes) (acc : UInt8), a.length = b.length →
      ((List.zipWith (· ^^^ ·) a b).foldl (· ||| ·) acc = 0 ↔ acc = 0 ∧ a = b) := by
    intro a
    induction a with
    | nil =>
      intro b acc h
      have : b = [] := List.length_eq_zero_iff.mp h.symm
      simp [this]
    | cons x a ih =>
      intro b acc h
      cases b with
      | nil => simp at h
      | cons y b =>
        simp only [List.zipWith_cons_cons, List.foldl_cons]
        rw [ih b _ (by simpa using h), or_eq_zero, UInt8.xor_eq_zero_iff]
        simp [and_assoc]
  unfold macDiff
  rw [gen a b 0 h]
  simp

theorem encrypt_spec (m : Mode) (key nonce data ad : Bytes) (hk : key.length = 32) (hn : nonce.length = 12) (hl : data.length ≤ maxLen) :
    encrypt m key nonce data ad = .ok (Spec.Aead.sealMsg key nonce ad data) := by
  obtain ⟨s, s1, s2, h1, h2, h3, _⟩ := C35_counter_no_overflow m key nonce data hk hn hl
  simp only [encrypt, h1, h2, h3, Res.bind_ok, computeMac_eq, Res.pure_def, Spec.Aead.sealMsg]

theorem decrypt_spec (m : Mode) (key nonce data ad : Bytes) (hk : key.length = 32) (hn : nonce.length = 12) (hl : data.length ≤ maxLen) :
    decrypt m key nonce data ad = match Spec.Aead.openMsg key nonce ad data with
      | some p => .ok p
      | none => .err .BadRecordMac := by
  unfold decrypt Spec.Aead.openMsg
  rw [show MAC_LEN = 16 from rfl]
  by_cases h : data.length < 16
  · simp [h]
  · rw [if_neg h, if_neg h]
    obtain ⟨s, s1, s2, h1, h2, h3, _⟩ := C35_counter_no_overflow m key nonce (data.take (data.length - 16)) hk hn (by unfold maxLen at hl; simp; omega)
    simp only [h1, h2, h3, Res.bind_ok, computeMac_eq, ne_eq]
    have hd := macDiff_zero (Spec.Aead.tag key nonce ad (data.take (data.length - 16))) (data.drop (data.length - 16))
      (by simp [Spec.Aead.tag, Spec.Poly1305.mac_length]; omega)
    by_cases e : data.drop (data.length - 16) = Spec.Aead.tag key nonce ad (data.take (data.length - 16))
    · rw [if_neg (by simpa using hd.mpr e.symm), if_pos e]
    · rw [if_pos (fun h => e (hd.mp h).symm), if_neg e]

end Aead

/-- C39: `encrypt` is the RFC 8439 section 2.8 construction. -/
theorem C39_encrypt_is_rfc8439 (m : Mode) (key nonce data ad : Bytes) (hk : key.length = 32) (hn : nonce.length = 12)
    (hl : data.length ≤ 2 ^ 38 - 128) : Aead.encrypt m key nonce data ad = .ok (Spec.Aead.sealMsg key nonce ad data) :=
  Aead.encrypt_spec m key nonce data ad hk hn hl

/-- C39: `decrypt` is the RFC 8439 section 2.8 opening. -/
theorem C39_decrypt_is_rfc8439 (m : Mode) (key nonce data ad : Bytes) (hk : key.length = 32) (hn : nonce.length = 12)
    (hl : data.length ≤ 2 ^ 38 - 128) : Aead.decrypt m key nonce data ad =
      match Spec.Aead.openMsg key nonce ad data with
      | some p => .ok p
      | none => .err .BadRecordMac := Aead.decrypt_spec m key nonce data ad hk hn hl

/-- C39: the MAC input determines additional data and ciphertext. -/
theorem C39_macInput_injective (ad ad' enc enc' : Bytes) (h1 : ad.length < 2 ^ 64) (h2 : ad'.length < 2 ^ 64) (h3 : enc.length < 2 ^ 64)
    (h4 : enc'.length < 2 ^ 64) (h : Aead.macInput enc ad = Aead.macInput enc' ad') : ad = ad' ∧ enc = enc' := by
  unfold Aead.macInput at h
  have e1 := List.append_inj_right' h (by simp)
  have e2 := List.append_inj_left' h (by simp)
  have e3 := List.append_inj_right' e2 (by simp)
  have e4 := List.append_inj_left' e2 (by simp)
  have la : ad.length = ad'.length := by
    have := congrArg leNat e3
    simp only [leNat_leBytes] at this
    rwa [show 256 ^ 8 = 2 ^ 64 from rfl, Nat.mod_eq_of_lt h1, Nat.mod_eq_of_lt h2] at this
  have le : enc.length = enc'.length := by
    have := congrArg leNat e1
    simp only [leNat_leBytes] at this
    rwa [show 256 ^ 8 = 2 ^ 64 from rfl, Nat.mod_eq_of_lt h3, Nat.mod_eq_of_lt h4] at this
  have lp : ∀ x y : Bytes, x.length = y.length → (Aead.padding x).length = (Aead.padding y).length := by
    intro x y h
    simp [Aead.padding, h]
  have e5 := List.append_inj_left' e4 (lp _ _ le)
  have e6 := List.append_inj_right' e5 le
  have e7 := List.append_inj_left' e5 le
  exact ⟨List.append_inj_left e7 la, e6⟩

/-- C37: what `encrypt` returned is opened by `decrypt` to the plaintext; it is 16 bytes longer. -/
theorem C37_roundtrip (m m' : Mode) (key nonce plain ad : Bytes) (hk : key.length = 32) (hn : nonce.length = 12)
    (hl : plain.length ≤ 2 ^ 38 - 144) :
    ∃ c, Aead.encrypt m key nonce plain ad = .ok c ∧ c.length = plain.length + 16 ∧ Aead.decrypt m' key nonce c ad = .ok plain := by
  have lt : ∀ c, (Spec.Aead.tag key nonce ad c).length = 16 := fun c => Spec.Poly1305.mac_length _ _ _
  have le : (Spec.ChaCha20.encrypt key 1 nonce plain).length = plain.length := by simp [Spec.ChaCha20.encrypt]
  have ls : (Spec.Aead.sealMsg key nonce ad plain).length = plain.length + 16 := by simp [Spec.Aead.sealMsg, lt, le]
  refine ⟨_, C39_encrypt_is_rfc8439 m key nonce plain ad hk hn (by omega), ls, ?_⟩
  rw [C39_decrypt_is_rfc8439 m' key nonce _ ad hk hn (by omega)]
  have ho : Spec.Aead.openMsg key nonce ad (Spec.Aead.sealMsg key nonce ad plain) = some plain := by
    unfold Spec.Aead.openMsg
    rw [if_neg (by omega), ls]
    have t : (Spec.Aead.sealMsg key nonce ad plain).take (plain.length + 16 - 16) = Spec.ChaCha20.encrypt key 1 nonce plain := by
      simp only [Spec.Aead.sealMsg]
      rw [List.take_append_of_le_length (by omega), List.take_of_length_le (by omega)]
    have d : (Spec.Aead.sealMsg key nonce ad plain).drop (plain.length + 16 - 16) =
        Spec.Aead.tag key nonce ad (Spec.ChaCha20.encrypt key 1 nonce plain) := by
      simp only [Spec.Aead.sealMsg]
      rw [List.drop_append_of_le_length (by omega), List.drop_of_length_le (by omega), List.nil_append]
    simp only [t, d, if_true, Spec.ChaCha20.encrypt_encrypt]
  rw [ho]

/-- C38: `decrypt` returns `Ok` exactly when the input is a ciphertext followed by its tag; then the plaintext is the decryption of it. -/
theorem C38_accepts_iff_tag (m : Mode) (key nonce data ad p : Bytes) (hk : key.length = 32) (hn : nonce.length = 12)
    (hl : data.length ≤ 2 ^ 38 - 128) :
    Aead.decrypt m key nonce data ad = .ok p ↔
      ∃ c, data = c ++ Spec.Aead.tag key nonce ad c ∧ p = Spec.ChaCha20.encrypt key 1 nonce c := by
  have lt : ∀ c, (Spec.Aead.tag key nonce ad c).length = 16 := fun c => Spec.Poly1305.mac_length _ _ _
  rw [C39_decrypt_is_rfc8439 m key nonce data ad hk hn hl]
  unfold Spec.Aead.openMsg
  by_cases h : data.length < 16
  · simp only [h, if_true]
    constructor
    · intro h; cases h
    · rintro ⟨c, rfl, _⟩
      simp [lt] at h
  · rw [if_neg h]
    simp only
    by_cases e : data.drop (data.length - 16) = Spec.Aead.tag key nonce ad (data.take (data.length - 16))
    · rw [if_pos e]
      constructor
      · intro h; cases h
        exact ⟨data.take (data.length - 16), by rw [← e, List.take_append_drop], rfl⟩
      · rintro ⟨c, rfl, rfl⟩
        simp [lt]
    · rw [if_neg e]
      constructor
      · intro h; cases h
      · rintro ⟨c, rfl, rfl⟩
        exact absurd (by simp [lt]) e

/-- C38: everything that is not accepted yields `BadRecordMac` and nothing else (in particular no panic and no plaintext). -/
theorem C38_rejects_with_BadRecordMac (m : Mode) (key nonce data ad : Bytes) (hk : key.length = 32) (hn : nonce.length = 12)
    (hl : data.length ≤ 2 ^ 38 - 128) (hno : ¬ ∃ c, data = c ++ Spec.Aead.tag key nonce ad c) :
    Aead.decrypt m key nonce data ad = .err .BadRecordMac := by
  have h := fun p => C38_accepts_iff_tag m key nonce data ad p hk hn hl
  rw [C39_decrypt_is_rfc8439 m key nonce data ad hk hn hl] at h ⊢
  cases e : Spec.Aead.openMsg key nonce ad data with
  | none => rfl
  | some p =>
    obtain ⟨c, hc, _⟩ := (h p).mp (by rw [e])
    exact absurd ⟨c, hc⟩ hno

/-- C38: inputs shorter than a tag are refused. -/
theorem C38_short_rejected (m : Mode) (key nonce data ad : Bytes) (h : data.length < 16) :
    Aead.decrypt m key nonce data ad = .err .BadRecordMac := by
  simp [Aead.decrypt, Aead.MAC_LEN, h]

/-- C38: replacing the tag of a sealed message by any other 16 bytes makes `decrypt` fail. -/
theorem C38_wrong_tag_rejected (m m' : Mode) (key nonce plain ad c t t' : Bytes) (hk : key.length = 32) (hn : nonce.length = 12)
    (hl : plain.length ≤ 2 ^ 38 - 144) (ht : t.length = 16) (ht' : t'.length = 16)
    (he : Aead.encrypt m key nonce plain ad = .ok (c ++ t)) (hne : t' ≠ t) :
    Aead.decrypt m' key nonce (c ++ t') ad = .err .BadRecordMac := by
  rw [C39_encrypt_is_rfc8439 m key nonce plain ad hk hn (by omega)] at he
  have he := Res.ok.inj he
  have lt : ∀ c, (Spec.Aead.tag key nonce ad c).length = 16 := fun c => Spec.Poly1305.mac_length _ _ _
  have le : (Spec.ChaCha20.encrypt key 1 nonce plain).length = plain.length := by simp [Spec.ChaCha20.encrypt]
  unfold Spec.Aead.sealMsg at he
  have e1 := List.append_inj_right' he (by rw [lt, ht])
  have e2 := List.append_inj_left' he (by rw [lt, ht])
  apply C38_rejects_with_BadRecordMac m' key nonce _ ad hk hn (by simp [← e2, le, ht']; omega)
  rintro ⟨c', hc'⟩
  have f1 := List.append_inj_right' hc' (by rw [lt, ht'])
  have f2 := List.append_inj_left' hc' (by rw [lt, ht'])
  apply hne
  rw [f1, ← f2, ← e1, e2]

/-- Non-vacuity: lengths of a record satisfy the bounds; a flipped tag bit differs from the tag. -/
example : (List.replicate (2 ^ 14) (7 : UInt8)).length ≤ 2 ^ 38 - 144 ∧ (List.replicate 32 (1 : UInt8)).length = 32 ∧
    (List.replicate 12 (2 : UInt8)).length = 12 ∧ (List.replicate 16 (0 : UInt8)) ≠ (1 : UInt8) :: List.replicate 15 0 := by
  rw [List.length_replicate]; decide

end Husk
