import Verif.Spec.Blocks
import Verif.Proofs.ChaCha20
import Verif.Props.ChaCha20
import Verif.Props.SessionData
import Mathlib.Data.Fintype.EquivFin
import Mathlib.Data.Fintype.Pi
import Mathlib.Data.Fintype.Prod
import Mathlib.Data.Finset.Prod
/-! Record protection with an open block function. -/

namespace Husk

open Spec

instance : Fintype UInt8 := Fintype.ofEquiv (Fin 256) ⟨UInt8.ofFin, UInt8.toFin, fun _ => rfl, fun _ => rfl⟩

instance (n : Nat) : Fintype (Pad n) := inferInstanceAs (Fintype (Fin n × Fin 512 × Fin 64 → UInt8))

namespace Spec.Blocks

/-! ### The real one -/

theorem ofKey_encrypt (key nonce data : Bytes) : (ofKey key).encrypt nonce data = ChaCha20.encrypt key 1 nonce data := rfl

theorem map_range_getD {l : Bytes} {a n : Nat} (h : a + n ≤ l.length) : ((List.range n).map fun i => l.getD (a + i) 0) = (l.drop a).take n := by
  apply List.ext_getElem
  · simp; omega
  · intro i h1 h2
    simp at h1
    simp [List.getElem?_eq_getElem (show a + i < l.length by omega)]

theorem ofKey_oneTimeKey (key nonce : Bytes) : (ofKey key).oneTimeKey nonce = (((ChaCha20.block key 0 nonce).take 32).take 16, ((ChaCha20.block key 0 nonce).take 32).drop 16) := by
  have hb : (ChaCha20.block key 0 nonce).length = 64 := Husk.ChaCha20.block_length ..
  have h1 := map_range_getD (l := ChaCha20.block key 0 nonce) (a := 0) (n := 16) (by omega)
  have h2 := map_range_getD (l := ChaCha20.block key 0 nonce) (a := 16) (n := 16) (by omega)
  simp only [Nat.zero_add] at h1
  rw [oneTimeKey]
  simp only [ofKey]
  rw [h1, h2, List.take_take, List.drop_take]
  rfl

theorem ofKey_tag (key nonce aad c : Bytes) : (ofKey key).tag nonce aad c = Aead.tag key nonce aad c := by
  rw [tag, ofKey_oneTimeKey]; rfl

theorem ofKey_sealMsg (key nonce aad p : Bytes) : (ofKey key).sealMsg nonce aad p = Aead.sealMsg key nonce aad p := by
  simp only [sealMsg, ofKey_tag, ofKey_encrypt]; rfl

theorem ofKey_openMsg (key nonce aad c : Bytes) : (ofKey key).openMsg nonce aad c = Aead.openMsg key nonce aad c := by
  simp only [openMsg, ofKey_tag, ofKey_encrypt]; rfl

theorem ofKey_record (key iv : Bytes) (k : Nat) (ty : UInt8) (p : Bytes) : (ofKey key).record iv k ty p = protectedRecord key iv k ty p := by
  rw [record, ofKey_sealMsg]; rfl

theorem ofKey_records (key iv : Bytes) (k : Nat) (items : List (UInt8 × Bytes)) : (ofKey key).records iv k items = protectedItems key iv k items := by
  induction items generalizing k with
  | nil => rfl
  | cons r rs ih => rw [records, protectedItems, ih, ofKey_record]

/-! ### Any -/

theorem encrypt_length (F : Blocks) (nonce p : Bytes) : (F.encrypt nonce p).length = p.length := by simp [encrypt]

theorem tag_length (F : Blocks) (nonce aad c : Bytes) : (F.tag nonce aad c).length = 16 := Spec.Poly1305.mac_length _ _ _

theorem sealMsg_length (F : Blocks) (nonce aad p : Bytes) : (F.sealMsg nonce aad p).length = p.length + 16 := by
  rw [sealMsg, List.length_append, tag_length, encrypt_length]

theorem record_length (F : Blocks) (iv : Bytes) (k : Nat) (ty : UInt8) (p : Bytes) : (F.record iv k ty p).length = p.length + 21 := by
  simp [record, recordBytes, sealMsg_length]; try omega

theorem encrypt_encrypt (F : Blocks) (nonce p : Bytes) : F.encrypt nonce (F.encrypt nonce p) = p := by
  apply List.ext_getElem
  · simp [encrypt]
  · intro i _ _
    simp [encrypt, UInt8.xor_assoc]

theorem openMsg_sealMsg (F : Blocks) (nonce aad p : Bytes) : F.openMsg nonce aad (F.sealMsg nonce aad p) = some p := by
  have he := encrypt_length F nonce p
  have h1 : (F.sealMsg nonce aad p).take p.length = F.encrypt nonce p := by rw [sealMsg, List.take_left' he]
  have h2 : (F.sealMsg nonce aad p).drop p.length = F.tag nonce aad (F.encrypt nonce p) := by rw [sealMsg, List.drop_left' he]
  rw [openMsg, sealMsg_length, if_neg (by omega), Nat.add_sub_cancel]
  simp only
  rw [h1, h2, if_pos rfl, encrypt_encrypt]

/-- Equal records one by one give equal records together, and the other way round. -/
theorem records_eq_iff (F G : Blocks) (iv : Bytes) (k : Nat) (l l' : List (UInt8 × Bytes)) (h : l.map (fun r => (r.1, r.2.length)) = l'.map fun r => (r.1, r.2.length)) :
    F.records iv k l = G.records iv k l' ↔ ∀ j r r', l[j]? = some r → l'[j]? = some r' → F.record iv (k + j) r.1 r.2 = G.record iv (k + j) r'.1 r'.2 := by
  induction l generalizing k l' with
  | nil =>
    cases l' with
    | nil => simp [records]
    | cons => simp at h
  | cons r l ih =>
    cases l' with
    | nil => simp at h
    | cons r' l' =>
      simp only [List.map_cons, List.cons.injEq, Prod.mk.injEq] at h
      have ih := ih (k + 1) l' h.2
      rw [records, records]
      constructor
      · intro e
        obtain ⟨e1, e2⟩ := List.append_inj e (by rw [record_length, record_length, h.1.2])
        intro j x x' hx hx'
        cases j with
        | zero =>
          simp only [List.getElem?_cons_zero, Option.some.injEq] at hx hx'
          subst hx hx'
          exact e1
        | succ j =>
          simp only [List.getElem?_cons_succ] at hx hx'
          have := ih.mp e2 j x x' hx hx'
          rwa [Nat.add_right_comm] at this
      · intro e
        rw [show F.record iv k r.1 r.2 = G.record iv k r'.1 r'.2 from e 0 r r' rfl rfl]
        congr 1
        refine ih.mpr fun j x x' hx hx' => ?_
        have := e (j + 1) x x' (by simpa using hx) (by simpa using hx')
        rwa [← Nat.add_assoc, Nat.add_right_comm] at this

end Spec.Blocks

/-! ### Pads -/

theorem numberOf_recordNonce {iv : Bytes} (hi : iv.length = 12) {k : Nat} (hk : k < 2 ^ 64) : numberOf iv (recordNonce iv k) = k := by
  have : List.zipWith (· ^^^ ·) (recordNonce iv k) iv = beBytes 12 k := by
    apply List.ext_getElem
    · simp [recordNonce, hi]
    · intro i _ _
      simp [recordNonce, UInt8.xor_assoc]
  rw [numberOf, this, beNat_beBytes, Nat.mod_eq_of_lt (by omega)]

theorem Spec.Pad.blocks_eq {n : Nat} (P : Pad n) {iv : Bytes} (hi : iv.length = 12) {k : Nat} (hk : k < n) (hn : n ≤ 2 ^ 64) {c i : Nat} (hc : c < 512) (h : i < 64) :
    P.blocks iv (recordNonce iv k) c i = P (⟨k, hk⟩, ⟨c, hc⟩, ⟨i, h⟩) := by
  have e := numberOf_recordNonce hi (show k < 2 ^ 64 by omega)
  rw [Pad.blocks, dif_pos ⟨by rw [e]; exact hk, hc, h⟩]
  congr 2
  exact Fin.ext e

end Husk
