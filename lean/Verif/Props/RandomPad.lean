import Verif.Proofs.Blocks
import Verif.Props.Secrecy
import Verif.Props.Forgery
import Verif.Props.MacForgery
/-! C80: when the blocks are chosen at random, hardly any choice lets somebody who sees all records forge one. -/

namespace Husk

open Item Spec TlsReader TlsClient Finset

/-! ### Specification -/

/-- A forgery (see `Forgery`) with the given blocks. -/
def ForgeryWith (F : Blocks) (iv : Bytes) (items : List (UInt8 × Bytes)) (l : List Sym) : Prop :=
  ∃ k ty a b ct p, k < countBytes l ∧ ct.length ≤ 18432 ∧ ofBytes (recordBytes ty a b ct) <:+: l ∧ F.openMsg (recordNonce iv k) (recordAad k ty a b p.length) ct = some p ∧
    ∀ r, items[k]? = some r → recordBytes ty a b ct ≠ F.record iv k r.1 r.2

open Classical in
/-- The choices of all blocks under which the records come out as `w` and the stream `l` contains a forgery. -/
noncomputable def forgeryPads (n : Nat) (iv : Bytes) (items : List (UInt8 × Bytes)) (w : Bytes) (l : List Sym) : Finset (Pad n) :=
  (padsFor n iv items w).filter fun P => ForgeryWith (P.blocks iv) iv items l

/-! ### Proofs -/

theorem mem_forgeryPads {n : Nat} {iv : Bytes} {items : List (UInt8 × Bytes)} {w : Bytes} {l : List Sym} {P : Pad n} :
    P ∈ forgeryPads n iv items w l ↔ P ∈ padsFor n iv items w ∧ ForgeryWith (P.blocks iv) iv items l := by
  classical
  rw [forgeryPads, mem_filter]

theorem mem_padsFor {n : Nat} {iv : Bytes} {items : List (UInt8 × Bytes)} {w : Bytes} {P : Pad n} : P ∈ padsFor n iv items w ↔ (P.blocks iv).records iv 0 items = w := by
  simp only [padsFor, mem_filter, mem_univ, true_and]

/-- With the blocks of ChaCha20 it is the forgery of C69. -/
theorem C80_real (key iv : Bytes) (items : List (UInt8 × Bytes)) (l : List Sym) : ForgeryWith (Blocks.ofKey key) iv items l ↔ Forgery key iv items l := by
  simp only [ForgeryWith, Forgery, Blocks.ofKey_openMsg, Blocks.ofKey_record]

/-- A part of a state that can be read and set: all its values are equally frequent under conditions on the rest. -/
theorem lens_card {α β : Type} [Fintype α] [DecidableEq β] (get : α → β) (set : α → β → α) (O : Finset β) (h1 : ∀ a, ∀ o ∈ O, get (set a o) = o) (h2 : ∀ a, set a (get a) = a)
    (h3 : ∀ a o o', set (set a o) o' = set a o') (R : α → Prop) [DecidablePred R] (hR : ∀ a, ∀ o ∈ O, R a → R (set a o)) (K : Finset β) (hK : K ⊆ O) (o : β) (ho : o ∈ O) :
    (univ.filter fun a => R a ∧ get a ∈ K).card = K.card * (univ.filter fun a => R a ∧ get a = o).card := by
  have hf : ∀ b ∈ K, ((univ.filter fun a => R a ∧ get a ∈ K).filter fun a => get a = b).card = (univ.filter fun a => R a ∧ get a = o).card := by
    intro b hb
    refine card_nbij' (fun a => set a o) (fun a => set a b) ?_ ?_ ?_ ?_
    · intro a ha
      simp only [coe_filter, mem_filter, mem_univ, true_and, Set.mem_ofPred_eq] at ha ⊢
      exact ⟨hR a o ho ha.1.1, h1 a o ho⟩
    · intro a ha
      simp only [coe_filter, mem_filter, mem_univ, true_and, Set.mem_ofPred_eq] at ha ⊢
      refine ⟨⟨hR a b (hK hb) ha.1, ?_⟩, h1 a b (hK hb)⟩
      rw [h1 a b (hK hb)]
      exact hb
    · intro a ha
      simp only [coe_filter, mem_filter, mem_univ, true_and, Set.mem_ofPred_eq] at ha
      dsimp only
      rw [h3, ← ha.2, h2]
    · intro a ha
      simp only [coe_filter, mem_univ, true_and, Set.mem_ofPred_eq] at ha
      dsimp only
      rw [h3, ← ha.2, h2]
  rw [card_eq_sum_card_fiberwise (t := K) (f := get) (by
    intro a ha
    simp only [coe_filter, mem_univ, true_and, Set.mem_ofPred_eq] at ha
    exact ha.2), sum_congr rfl hf, sum_const, smul_eq_mul]

/-! #### The one-time key of a record in a pad -/

/-- The one-time key of record `k`. -/
def Spec.Pad.key {n : Nat} (P : Pad n) (k : Fin n) : Bytes × Bytes :=
  ((List.range 16).map fun i => if h : i < 64 then P (k, 0, ⟨i, h⟩) else 0, (List.range 16).map fun i => if h : 16 + i < 64 then P (k, 0, ⟨16 + i, h⟩) else 0)

/-- The pad with another one-time key of record `k`. -/
def Spec.Pad.setKey {n : Nat} (P : Pad n) (k : Fin n) (o : Bytes × Bytes) : Pad n := fun x =>
  if x.1 = k ∧ x.2.1 = 0 ∧ x.2.2.1 < 32 then (if x.2.2.1 < 16 then o.1.getD x.2.2.1 0 else o.2.getD (x.2.2.1 - 16) 0) else P x

namespace Spec.Pad

theorem key_eq {n : Nat} (P : Pad n) {iv : Bytes} (hi : iv.length = 12) (hn : n ≤ 2 ^ 64) (k : Fin n) : (P.blocks iv).oneTimeKey (recordNonce iv k) = P.key k := by
  simp only [Blocks.oneTimeKey, key, Prod.mk.injEq, List.map_inj_left, List.mem_range]
  constructor
  · intro i h
    rw [dif_pos (by omega)]
    exact P.blocks_eq hi k.2 hn (by omega) (by omega)
  · intro i h
    rw [dif_pos (by omega)]
    exact P.blocks_eq hi k.2 hn (by omega) (by omega)

theorem key_mem {n : Nat} (P : Pad n) (k : Fin n) : P.key k ∈ oneTimeKeys := by
  rw [mem_oneTimeKeys]
  simp [key]

theorem key_setKey {n : Nat} (P : Pad n) (k : Fin n) (o : Bytes × Bytes) (h : o ∈ oneTimeKeys) : (P.setKey k o).key k = o := by
  rw [mem_oneTimeKeys] at h
  apply Prod.ext
  · apply List.ext_getElem
    · simp [key, h.1]
    · intro i g1 g2
      have : i < 16 := by omega
      have e : i < 64 := by omega
      have e' : i < 32 := by omega
      simp [key, setKey, this, e, e', g2]
  · apply List.ext_getElem
    · simp [key, h.2]
    · intro i g1 g2
      have : i < 16 := by omega
      have e : 16 + i < 64 := by omega
      have e' : 16 + i < 32 := by omega
      simp [key, setKey, e, e', g2]

theorem setKey_key {n : Nat} (P : Pad n) (k : Fin n) : P.setKey k (P.key k) = P := by
  funext ⟨a, b, c⟩
  simp only [setKey]
  split
  · rename_i h
    obtain ⟨rfl, rfl, h⟩ := h
    split
    · rename_i h'
      simp [key, h']
    · rename_i h'
      have e : c.1 - 16 < 16 := by omega
      have e' : 16 + (c.1 - 16) = c.1 := by omega
      simp [key, e, e']
  · rfl

theorem setKey_setKey {n : Nat} (P : Pad n) (k : Fin n) (o o' : Bytes × Bytes) : (P.setKey k o).setKey k o' = P.setKey k o' := by
  funext x
  simp only [setKey]
  split <;> rfl

theorem setKey_blocks {n : Nat} (P : Pad n) {iv : Bytes} (hi : iv.length = 12) (hn : n ≤ 2 ^ 64) (k : Fin n) (o : Bytes × Bytes) {j : Nat} (hj : j < n) {c i : Nat} (hc : c < 512) (h : i < 64)
    (hne : j ≠ k ∨ c ≠ 0) : (P.setKey k o).blocks iv (recordNonce iv j) c i = P.blocks iv (recordNonce iv j) c i := by
  rw [blocks_eq _ hi hj hn hc h, blocks_eq _ hi hj hn hc h, setKey, if_neg]
  rintro ⟨h1, h2, -⟩
  have h1 := congrArg Fin.val h1
  have h2 := congrArg Fin.val h2
  rcases hne with h' | h'
  · exact h' h1
  · exact h' h2

/-- Encryption does not use the one-time keys. -/
theorem setKey_encrypt {n : Nat} (P : Pad n) {iv : Bytes} (hi : iv.length = 12) (hn : n ≤ 2 ^ 64) (k : Fin n) (o : Bytes × Bytes) {j : Nat} (hj : j < n) {p : Bytes} (hp : p.length ≤ 2 ^ 14) :
    ((P.setKey k o).blocks iv).encrypt (recordNonce iv j) p = (P.blocks iv).encrypt (recordNonce iv j) p := by
  apply List.ext_getElem
  · simp [Blocks.encrypt]
  · intro i g1 g2
    simp only [Blocks.encrypt, List.length_mapIdx] at g1
    simp only [Blocks.encrypt, List.getElem_mapIdx]
    rw [setKey_blocks P hi hn k o hj (by omega) (by omega) (Or.inr (by omega))]

/-- Other records do not use the one-time key of this one. -/
theorem setKey_record {n : Nat} (P : Pad n) {iv : Bytes} (hi : iv.length = 12) (hn : n ≤ 2 ^ 64) (k : Fin n) (o : Bytes × Bytes) {j : Nat} (hj : j < n) (hne : j ≠ k) {ty : UInt8} {p : Bytes}
    (hp : p.length ≤ 2 ^ 14) : ((P.setKey k o).blocks iv).record iv j ty p = (P.blocks iv).record iv j ty p := by
  have hk : ((P.setKey k o).blocks iv).oneTimeKey (recordNonce iv j) = (P.blocks iv).oneTimeKey (recordNonce iv j) := by
    simp only [Blocks.oneTimeKey, Prod.mk.injEq, List.map_inj_left, List.mem_range]
    exact ⟨fun i h => setKey_blocks P hi hn k o hj (by omega) (by omega) (Or.inl hne), fun i h => setKey_blocks P hi hn k o hj (by omega) (by omega) (Or.inl hne)⟩
  simp only [Blocks.record, Blocks.sealMsg, Blocks.tag, hk, setKey_encrypt P hi hn k o hj hp]

end Spec.Pad

theorem mem_keysFor (m : Mode) (ad c t : Bytes) (o : Bytes × Bytes) (ho : o ∈ oneTimeKeys) : o ∈ keysFor m (Aead.macInput c ad) t ↔ Spec.Poly1305.mac (Spec.Aead.macData ad c) o.1 o.2 = t := by
  have h := (mem_oneTimeKeys o).mp ho
  rw [keysFor, mem_filter, C36_poly1305 m _ _ _ h.1 h.2, Aead.macInput_eq]
  simp [ho]

theorem card_oneTimeKeys : oneTimeKeys.card = 2 ^ 256 := by
  rw [oneTimeKeys, card_image_of_injOn, card_product, card_words]
  · rfl
  · intro x hx y hy h
    simp only [coe_product, Set.mem_prod, mem_coe, mem_words] at hx hy
    simp only [Prod.mk.injEq] at h
    have e1 := congrArg leNat h.1
    have e2 := congrArg leNat h.2
    rw [leNat_leBytes, leNat_leBytes, show 256 ^ 16 = 2 ^ 128 from rfl, Nat.mod_eq_of_lt hx.1, Nat.mod_eq_of_lt hy.1] at e1
    rw [leNat_leBytes, leNat_leBytes, show 256 ^ 16 = 2 ^ 128 from rfl, Nat.mod_eq_of_lt hx.2, Nat.mod_eq_of_lt hy.2] at e2
    exact Prod.ext e1 e2

theorem keysFor_subset (m : Mode) (msg t : Bytes) : keysFor m msg t ⊆ oneTimeKeys := by
  rw [keysFor]
  exact filter_subset _ _

theorem openMsg_tag {F : Blocks} {nonce ad ct p : Bytes} (h : F.openMsg nonce ad ct = some p) :
    16 ≤ ct.length ∧ p.length = ct.length - 16 ∧ ct.drop (ct.length - 16) = F.tag nonce ad (ct.take (ct.length - 16)) := by
  rw [Blocks.openMsg] at h
  split at h
  · cases h
  · rename_i h16
    simp only at h
    split at h
    · rename_i ht
      refine ⟨by omega, ?_, ht⟩
      rw [← Option.some.inj h, Blocks.encrypt_length, List.length_take]
      omega
    · cases h

theorem recordAad_length (k : Nat) (ty a b : UInt8) (n : Nat) : (recordAad k ty a b n).length = 13 := by simp [recordAad]

theorem recordAad_inj {k : Nat} {ty a b ty' a' b' : UInt8} {n n' : Nat} (h : recordAad k ty a b n = recordAad k ty' a' b' n') : ty = ty' ∧ a = a' ∧ b = b' := by
  simp only [recordAad, List.append_assoc, List.append_cancel_left_eq, List.cons_append, List.nil_append, List.cons.injEq] at h
  exact ⟨h.1, h.2.1, h.2.2.1⟩

open Classical in
/-- One record presented with one number. -/
theorem forge_one {n : Nat} (hn : n ≤ 2 ^ 64) {iv : Bytes} (hi : iv.length = 12) {items : List (UInt8 × Bytes)} (hc : items.length ≤ n) (hl : ∀ r ∈ items, r.2.length ≤ 2 ^ 14) (w : Bytes)
    (k : Fin n) (ty a b : UInt8) (ct : Bytes) (hct : ct.length ≤ 18432) :
    ((padsFor n iv items w).filter fun P => (∃ p, (P.blocks iv).openMsg (recordNonce iv k) (recordAad k ty a b p.length) ct = some p) ∧
      ∀ r, items[k.1]? = some r → recordBytes ty a b ct ≠ (P.blocks iv).record iv k r.1 r.2).card * 2 ^ 92 ≤ (padsFor n iv items w).card := by
  obtain ⟨c', hc'⟩ : ∃ c', c' = ct.take (ct.length - 16) := ⟨_, rfl⟩
  obtain ⟨t', ht'⟩ : ∃ t', t' = ct.drop (ct.length - 16) := ⟨_, rfl⟩
  obtain ⟨ad', had'⟩ : ∃ ad', ad' = recordAad k ty a b (ct.length - 16) := ⟨_, rfl⟩
  have hK' : ∀ P : Pad n, (∃ p, (P.blocks iv).openMsg (recordNonce iv k) (recordAad k ty a b p.length) ct = some p) →
      P.key k ∈ keysFor .release (Aead.macInput c' ad') t' := by
    rintro P ⟨p, hp⟩
    obtain ⟨h1, h2, h3⟩ := openMsg_tag hp
    rw [mem_keysFor _ _ _ _ _ (P.key_mem k), ht', h3, Blocks.tag, P.key_eq hi hn k, hc', had', h2]
  by_cases hA : (padsFor n iv items w) = ∅
  · rw [hA]; simp
  obtain ⟨P0, hP0⟩ := Finset.nonempty_iff_ne_empty.mpr hA
  have hmem : ∀ P : Pad n, P ∈ padsFor n iv items w ↔ ∀ j r, items[j]? = some r → (P.blocks iv).record iv j r.1 r.2 = (P0.blocks iv).record iv j r.1 r.2 := by
    intro P
    simp only [padsFor, mem_filter, mem_univ, true_and] at hP0 ⊢
    rw [← hP0, Blocks.records_eq_iff _ _ _ _ _ _ rfl]
    simp only [Nat.zero_add]
    constructor
    · intro h j r hr
      exact h j r r hr hr
    · intro h j r r' hr hr'
      rw [hr] at hr'
      cases hr'
      exact h j r hr
  -- the part of the condition that does not concern the one-time key of this record
  let R : Pad n → Prop := fun P => ∀ (j : Nat) (r : UInt8 × Bytes), items[j]? = some r → (j ≠ k.1 → (P.blocks iv).record iv j r.1 r.2 = (P0.blocks iv).record iv j r.1 r.2) ∧
    (P.blocks iv).encrypt (recordNonce iv j) r.2 = (P0.blocks iv).encrypt (recordNonce iv j) r.2
  have hj : ∀ {j r}, items[j]? = some r → j < n ∧ r.2.length ≤ 2 ^ 14 := by
    intro j r h
    have := (List.getElem?_eq_some_iff.mp h).1
    exact ⟨by omega, hl _ (List.mem_of_getElem? h)⟩
  have hR : ∀ P, ∀ o ∈ oneTimeKeys, R P → R (P.setKey k o) := by
    intro P o _ h j r hr
    obtain ⟨h1, h2⟩ := h j r hr
    obtain ⟨g1, g2⟩ := hj hr
    refine ⟨fun hne => ?_, ?_⟩
    · rw [P.setKey_record hi hn k o g1 hne g2]
      exact h1 hne
    · rw [P.setKey_encrypt hi hn k o g1 g2]
      exact h2
  have hcard := fun K hK => lens_card (fun P : Pad n => P.key k) (fun P o => P.setKey k o) oneTimeKeys (fun P o ho => P.key_setKey k o ho) (fun P => P.setKey_key k)
    (fun P o o' => P.setKey_setKey k o o') R hR K hK (P0.key k) (P0.key_mem k)
  have hRA : ∀ P, P ∈ padsFor n iv items w → R P := by
    intro P hP j r hr
    have e := (hmem P).mp hP j r hr
    refine ⟨fun _ => e, ?_⟩
    exact (List.append_inj (recordBytes_inj e).2.2.2 (by rw [Blocks.encrypt_length, Blocks.encrypt_length])).1
  cases hr : items[k.1]? with
  | none =>
    -- no record has this number
    have e : padsFor n iv items w = univ.filter fun P => R P ∧ P.key k ∈ oneTimeKeys := by
      ext P
      simp only [mem_filter, mem_univ, true_and]
      refine ⟨fun h => ⟨hRA P h, P.key_mem k⟩, fun h => (hmem P).mpr fun j r hr' => (h.1 j r hr').1 ?_⟩
      intro hjk
      rw [hjk, hr] at hr'
      cases hr'
    by_cases hlt : t'.length = 16
    · have hle : ((padsFor n iv items w).filter fun P => (∃ p, (P.blocks iv).openMsg (recordNonce iv k) (recordAad k ty a b p.length) ct = some p) ∧
          ∀ r : UInt8 × Bytes, none = some r → recordBytes ty a b ct ≠ (P.blocks iv).record iv k r.1 r.2).card ≤
          (univ.filter fun P => R P ∧ P.key k ∈ keysFor .release (Aead.macInput c' ad') t').card := by
        apply card_le_card
        intro P hP
        rw [mem_filter] at hP ⊢
        exact ⟨mem_univ _, hRA P hP.1, hK' P hP.2.1⟩
      rw [hcard _ (keysFor_subset ..), C77_tags_uniform _ _ _ hlt] at hle
      rw [e, hcard _ (Finset.Subset.refl _), card_oneTimeKeys, ← e]
      refine (Nat.mul_le_mul_right _ hle).trans ?_
      rw [Nat.mul_right_comm]
      exact Nat.mul_le_mul_right _ (by norm_num)
    · rw [filter_eq_empty_iff.mpr]
      · simp
      · rintro P - ⟨⟨p, hp⟩, -⟩
        obtain ⟨h1, h2, h3⟩ := openMsg_tag hp
        exact hlt (by rw [ht', List.length_drop]; omega)
  | some r =>
    obtain ⟨g1, g2⟩ := hj hr
    obtain ⟨c, hcc⟩ : ∃ c, c = (P0.blocks iv).encrypt (recordNonce iv k) r.2 := ⟨_, rfl⟩
    obtain ⟨ad, had⟩ : ∃ ad, ad = recordAad k r.1 3 3 r.2.length := ⟨_, rfl⟩
    obtain ⟨t, ht⟩ : ∃ t, t = (P0.blocks iv).tag (recordNonce iv k) ad c := ⟨_, rfl⟩
    have hcl : c.length = r.2.length := by rw [hcc, Blocks.encrypt_length]
    have htl : t.length = 16 := by rw [ht, Blocks.tag_length]
    have hrec0 : (P0.blocks iv).record iv k r.1 r.2 = recordBytes r.1 3 3 (c ++ t) := by
      rw [Blocks.record, Blocks.sealMsg, ← had, ← hcc, ← ht]
    have hrec : ∀ P, R P → ((P.blocks iv).record iv k r.1 r.2 = recordBytes r.1 3 3 (c ++ t) ↔ P.key k ∈ keysFor .release (Aead.macInput c ad) t) := by
      intro P hP
      have henc := (hP k r hr).2
      rw [mem_keysFor _ _ _ _ _ (P.key_mem k), Blocks.record, Blocks.sealMsg, ← had, henc, ← hcc, Blocks.tag, P.key_eq hi hn k]
      constructor
      · intro e
        exact List.append_cancel_left (recordBytes_inj e).2.2.2
      · intro e
        rw [e]
    have e : padsFor n iv items w = univ.filter fun P => R P ∧ P.key k ∈ keysFor .release (Aead.macInput c ad) t := by
      ext P
      simp only [mem_filter, mem_univ, true_and]
      constructor
      · intro h
        refine ⟨hRA P h, (hrec P (hRA P h)).mp ?_⟩
        rw [(hmem P).mp h k r hr, hrec0]
      · intro h
        refine (hmem P).mpr fun j r' hr' => ?_
        by_cases hjk : j = k.1
        · subst hjk
          rw [hr] at hr'
          cases hr'
          rw [hrec0]
          exact (hrec P h.1).mpr h.2
        · exact (h.1 j r' hr').1 hjk
    have hcount := hcard _ (keysFor_subset .release (Aead.macInput c ad) t)
    rw [← e] at hcount
    by_cases hsame : (c', ad') = (c, ad)
    · -- the same message: the tag must be the same too, and it is the owner's record
      rw [filter_eq_empty_iff.mpr]
      · simp
      · rintro P hP ⟨hp, hne⟩
        apply hne r rfl
        rw [(hmem P).mp hP k r hr, hrec0]
        simp only [Prod.mk.injEq] at hsame
        have k1 := hK' P hp
        have k2 : P.key k ∈ keysFor .release (Aead.macInput c ad) t := by rw [e, mem_filter] at hP; exact hP.2.2
        rw [hsame.1, hsame.2, mem_keysFor _ _ _ _ _ (P.key_mem k)] at k1
        rw [mem_keysFor _ _ _ _ _ (P.key_mem k)] at k2
        have htt : t' = t := k1.symm.trans k2
        have hfull : ct = c ++ t := by rw [← htt, ← hsame.1, hc', ht', List.take_append_drop]
        have had2 := hsame.2
        rw [had', had] at had2
        obtain ⟨e1, e2, e3⟩ := recordAad_inj had2
        rw [e1, e2, e3, hfull]
    · have hle : ((padsFor n iv items w).filter fun P => (∃ p, (P.blocks iv).openMsg (recordNonce iv k) (recordAad k ty a b p.length) ct = some p) ∧
          ∀ r', some r = some r' → recordBytes ty a b ct ≠ (P.blocks iv).record iv k r'.1 r'.2).card ≤
          (univ.filter fun P => R P ∧ P.key k ∈ keysFor .release (Aead.macInput c ad) t ∩ keysFor .release (Aead.macInput c' ad') t').card := by
        apply card_le_card
        intro P hP
        rw [mem_filter] at hP
        have k1 := hK' P hP.2.1
        have hPA := hP.1
        rw [e, mem_filter] at hPA
        rw [mem_filter, mem_inter]
        exact ⟨mem_univ _, hPA.2.1, hPA.2.2, k1⟩
      rw [hcard _ (inter_subset_left.trans (keysFor_subset ..))] at hle
      have hb := C77_records .release .release c ad t c' ad' t' htl (by omega) (by rw [hc', List.length_take]; omega) (by rw [had, recordAad_length]) (by rw [had', recordAad_length]) hsame
      rw [hcount]
      refine (Nat.mul_le_mul_right _ hle).trans ?_
      rw [Nat.mul_right_comm]
      exact Nat.mul_le_mul_right _ hb

/-- At most one record begins at a place of the stream. -/
theorem record_unique {l : List Sym} {ty a b ty' a' b' : UInt8} {ct ct' : Bytes} (h : ct.length ≤ 18432) (h' : ct'.length ≤ 18432) (g : ofBytes (recordBytes ty a b ct) <+: l)
    (g' : ofBytes (recordBytes ty' a' b' ct') <+: l) : ty = ty' ∧ a = a' ∧ b = b' ∧ ct = ct' := by
  obtain ⟨s, hs⟩ := g
  obtain ⟨s', hs'⟩ := g'
  have e := hs.trans hs'.symm
  have hb : ∀ ty a b ct, ofBytes (recordBytes ty a b ct) = ofBytes ([ty, a, b] ++ beBytes 2 ct.length) ++ ofBytes ct := fun ty a b ct => by rw [recordBytes, ofBytes_append]
  rw [hb, hb, List.append_assoc, List.append_assoc] at e
  obtain ⟨e1, e2⟩ := List.append_inj e (by simp [ofBytes])
  have e1 := ofBytes_inj e1
  simp only [List.cons_append, List.nil_append, List.cons.injEq] at e1
  obtain ⟨e3, e4, e5, e6⟩ := e1
  have e7 := congrArg beNat e6
  rw [beNat_beBytes, beNat_beBytes, Nat.mod_eq_of_lt (by omega), Nat.mod_eq_of_lt (by omega)] at e7
  obtain ⟨e8, -⟩ := List.append_inj e2 (by simp [ofBytes, e7])
  exact ⟨e3, e4, e5, ofBytes_inj e8⟩

/-- C80: somebody sees the records `w` of the owner of the key and makes a stream from them in any way. Of all choices of the blocks under which the records are `w`,
at most a part (length of the stream)^2 / 2^92 lets the stream contain a forgery. -/
theorem C80_forgery_bound (n : Nat) (hn : n ≤ 2 ^ 64) (iv : Bytes) (hi : iv.length = 12) (items : List (UInt8 × Bytes)) (hc : items.length ≤ n) (hl : ∀ r ∈ items, r.2.length ≤ 2 ^ 14)
    (w : Bytes) (l : List Sym) (hcount : countBytes l ≤ n) :
    (forgeryPads n iv items w l).card * 2 ^ 92 ≤ l.length * countBytes l * (padsFor n iv items w).card := by
  classical
  let A := padsFor n iv items w
  -- the forgeries at one place of the stream with one number
  let B : Nat × Nat → Finset (Pad n) := fun x => A.filter fun P => ∃ ty a b ct p, ct.length ≤ 18432 ∧ ofBytes (recordBytes ty a b ct) <+: l.drop x.1 ∧
    (P.blocks iv).openMsg (recordNonce iv x.2) (recordAad x.2 ty a b p.length) ct = some p ∧
    ∀ r, items[x.2]? = some r → recordBytes ty a b ct ≠ (P.blocks iv).record iv x.2 r.1 r.2
  have hsub : forgeryPads n iv items w l ⊆ (range l.length ×ˢ range (countBytes l)).biUnion B := by
    intro P hP
    rw [forgeryPads, mem_filter] at hP
    obtain ⟨hPA, k, ty, a, b, ct, p, h1, h2, ⟨u, v, huv⟩, h4, h5⟩ := hP
    rw [mem_biUnion]
    refine ⟨(u.length, k), ?_, ?_⟩
    · rw [mem_product, mem_range, mem_range]
      refine ⟨?_, h1⟩
      have := congrArg List.length huv
      rw [List.length_append, List.length_append, recordBytes, ofBytes_append] at this
      simp [ofBytes] at this
      show u.length < l.length
      omega
    · rw [mem_filter]
      refine ⟨hPA, ty, a, b, ct, p, h2, ?_, h4, h5⟩
      show _ <+: l.drop u.length
      rw [← huv, List.append_assoc, List.drop_left]
      exact List.prefix_append _ _
  have hone : ∀ x ∈ range l.length ×ˢ range (countBytes l), (B x).card * 2 ^ 92 ≤ A.card := by
    intro x hx
    rw [mem_product, mem_range, mem_range] at hx
    by_cases hrec : ∃ ty a b ct, ct.length ≤ 18432 ∧ ofBytes (recordBytes ty a b ct) <+: l.drop x.1
    · obtain ⟨ty, a, b, ct, hct, hpre⟩ := hrec
      refine le_trans (Nat.mul_le_mul_right _ (card_le_card ?_)) (forge_one hn hi hc hl w ⟨x.2, by omega⟩ ty a b ct hct)
      intro P hP
      rw [mem_filter] at hP ⊢
      obtain ⟨hPA, ty', a', b', ct', p, h1, h2, h3, h4⟩ := hP
      obtain ⟨rfl, rfl, rfl, rfl⟩ := record_unique hct h1 hpre h2
      exact ⟨hPA, ⟨p, h3⟩, h4⟩
    · have : B x = ∅ := by
        apply filter_eq_empty_iff.mpr
        rintro P - ⟨ty, a, b, ct, p, h1, h2, -⟩
        exact hrec ⟨ty, a, b, ct, h1, h2⟩
      rw [this]
      simp
  refine (Nat.mul_le_mul_right _ ((card_le_card hsub).trans card_biUnion_le)).trans ?_
  rw [sum_mul]
  refine (sum_le_sum hone).trans ?_
  rw [sum_const, card_product, card_range, card_range, smul_eq_mul]

/-- The two together: after every successful handshake the bytes handed out in any history of calls are an initial part of what the other holder of the keys sealed, or
the stream contains a forgery for the blocks of the key; and of all choices of blocks that give the same records as the key, at most (length of the stream)^2 / 2^92
let it contain one. -/
theorem C80_session (m : Mode) (rd : Reader) (wr : Writer) (rng : Rng) (hn : countBytes rd.stream < 2 ^ 64) (c : TlsClient) (h : TlsClient.new m rd wr rng = (.ok (), c)) (calls : List Call)
    (hret : ∀ r ∈ (runCalls m calls c).1, r.Returned) :
    ∃ S clear prot a b protWire pre post, Completed m rd wr rng c S clear prot a b protWire pre post ∧
      ∀ items, (received (runCalls m calls c).1 <+: appSealed items ∨ ForgeryWith (Blocks.ofKey S.keys.serverKey) S.keys.serverIv items rd.stream) ∧
        ∀ n, items.length ≤ n → countBytes rd.stream ≤ n → n ≤ 2 ^ 64 → (∀ r ∈ items, r.2.length ≤ 2 ^ 14) →
          (forgeryPads n S.keys.serverIv items ((Blocks.ofKey S.keys.serverKey).records S.keys.serverIv 0 items) rd.stream).card * 2 ^ 92 ≤
            rd.stream.length * countBytes rd.stream * (padsFor n S.keys.serverIv items ((Blocks.ofKey S.keys.serverKey).records S.keys.serverIv 0 items)).card := by
  obtain ⟨S, clear, prot, a, b, protWire, pre, post, hC, hG⟩ := C69_genuine_or_forged m rd wr rng hn c h calls hret
  refine ⟨S, clear, prot, a, b, protWire, pre, post, hC, fun items => ⟨?_, fun n h1 h2 h3 h4 => ?_⟩⟩
  · rw [C80_real]
    exact hG items
  · exact C80_forgery_bound n h3 _ hC.ready.lengths.2.2.2 items h1 h4 _ _ h2

/-- A stream with a forgery exists for some pads and not for others: the pads matter. One record was sealed; the stream holds a record number 1 that nobody sealed. -/
example (n : Nat) (h38 : 38 ≤ n) (hn : n ≤ 2 ^ 64) (iv : Bytes) (hi : iv.length = 12) : ∃ w l, (padsFor n iv [(23, [1, 2, 3])] w).Nonempty ∧ (forgeryPads n iv [(23, [1, 2, 3])] w l).Nonempty ∧
    (forgeryPads n iv [(23, [1, 2, 3])] w l).card * 2 ^ 92 ≤ l.length * countBytes l * (padsFor n iv [(23, [1, 2, 3])] w).card := by
  obtain ⟨P⟩ : Nonempty (Pad n) := ⟨fun _ => 0⟩
  refine ⟨(P.blocks iv).records iv 0 [(23, [1, 2, 3])], ofBytes ((P.blocks iv).record iv 1 23 [7]), ⟨P, ?_⟩, ⟨P, ?_⟩, ?_⟩
  · exact mem_padsFor.mpr rfl
  · refine mem_forgeryPads.mpr ⟨mem_padsFor.mpr rfl, 1, 23, 3, 3, (P.blocks iv).sealMsg (recordNonce iv 1) (recordAad 1 23 3 3 1) [7], [7], ?_, ?_, ?_, ?_, ?_⟩
    · rw [countBytes_ofBytes, Blocks.record_length]; simp
    · rw [Blocks.sealMsg_length]; simp
    · exact List.infix_rfl
    · exact Blocks.openMsg_sealMsg _ _ _ _
    · simp
  · exact C80_forgery_bound n hn iv hi _ (by simp; omega) (by simp) _ _ (by rw [countBytes_ofBytes, Blocks.record_length]; simp; omega)

end Husk
