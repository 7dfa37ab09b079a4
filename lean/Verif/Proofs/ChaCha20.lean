import Verif.Model.ChaCha20
import Verif.Spec.ChaCha20
/-! Refinement of the model of ChaCha20 to RFC 8439. -/

namespace Husk.ChaCha20

open Spec.ChaCha20 (Word)

theorem rotl_toBitVec (x : UInt32) (n : Nat) (h0 : 0 < n) (hn : n < 32) :
    (rotl x (UInt32.ofNat n)).toBitVec = x.toBitVec.rotateLeft n := by
  have h2 : (UInt32.ofNat n).toBitVec % 32 = BitVec.ofNat 32 n := by
    apply BitVec.eq_of_toNat_eq
    simp
    omega
  have h3 : (32 - UInt32.ofNat n).toBitVec % 32 = BitVec.ofNat 32 (32 - n) := by
    apply BitVec.eq_of_toNat_eq
    simp
    omega
  unfold rotl
  rw [UInt32.toBitVec_or, UInt32.toBitVec_shiftRight, UInt32.toBitVec_shiftLeft, h2, h3]
  simp only [BitVec.rotateLeft, BitVec.rotateLeftAux, Nat.mod_eq_of_lt hn]
  congr 1
  · simp [BitVec.shiftLeft_eq', Nat.mod_eq_of_lt (show n < 4294967296 by omega)]
  · simp [BitVec.ushiftRight_eq', Nat.mod_eq_of_lt (show 32 - n < 4294967296 by omega)]

/-- Reading of the word array as specification state. -/
def toFun (v : List UInt32) (i : Nat) : Word := (v.getD i 0).toBitVec

theorem toFun_set (v : List UInt32) (i : Nat) (x : UInt32) (hi : i < v.length) :
    toFun (v.set i x) = Spec.ChaCha20.upd (toFun v) i x.toBitVec := by
  funext j
  unfold toFun Spec.ChaCha20.upd
  by_cases h : j = i
  · subst h
    simp [List.getD_eq_getElem?_getD, hi]
  · simp [List.getD_eq_getElem?_getD, h, List.getElem?_set_ne (Ne.symm h)]

theorem quarterRound_length (v : List UInt32) (a b c d : Nat) : (quarterRound v a b c d).length = v.length := by
  simp [quarterRound]

theorem quarterRound_toFun (v : List UInt32) (a b c d : Nat) (ha : a < v.length) (hb : b < v.length) (hc : c < v.length)
    (hd : d < v.length) (hab : a ≠ b) (hac : a ≠ c) (had : a ≠ d) (hbc : b ≠ c) (hbd : b ≠ d) (hcd : c ≠ d) :
    toFun (quarterRound v a b c d) = Spec.ChaCha20.quarterRound (toFun v) a b c d := by
  unfold quarterRound
  simp only
  rw [toFun_set _ _ _ (by simpa using hd), toFun_set _ _ _ (by simpa using hc), toFun_set _ _ _ (by simpa using hb),
    toFun_set _ _ _ ha]
  rw [show (16 : UInt32) = UInt32.ofNat 16 from rfl, show (12 : UInt32) = UInt32.ofNat 12 from rfl,
    show (8 : UInt32) = UInt32.ofNat 8 from rfl, show (7 : UInt32) = UInt32.ofNat 7 from rfl]
  simp only [UInt32.toBitVec_add, UInt32.toBitVec_xor, rotl_toBitVec _ _ (show 0 < 16 by omega) (show 16 < 32 by omega),
    rotl_toBitVec _ _ (show 0 < 12 by omega) (show 12 < 32 by omega),
    rotl_toBitVec _ _ (show 0 < 8 by omega) (show 8 < 32 by omega),
    rotl_toBitVec _ _ (show 0 < 7 by omega) (show 7 < 32 by omega)]
  have e : ∀ i, (v.getD i 0).toBitVec = toFun v i := fun _ => rfl
  simp only [e]
  generalize toFun v = s
  funext j
  simp only [Spec.ChaCha20.quarterRound, Spec.ChaCha20.line, Spec.ChaCha20.upd]
  simp only [hab, hac, had, hbc, hbd, hcd, hab.symm, hac.symm, had.symm, hbc.symm, hbd.symm, hcd.symm, if_true, if_false]
  by_cases h1 : j = d
  · simp [h1, hbd.symm, hcd.symm]
  by_cases h2 : j = c
  · simp [h2, hcd, hbc.symm]
  by_cases h3 : j = b
  · simp [h3, hbd, hbc]
  by_cases h4 : j = a
  · simp [h4, had, hac, hab]
  · simp [h1, h2, h3, h4]

theorem doubleRound_length (v : List UInt32) : (doubleRound v).length = v.length := by
  simp [doubleRound, quarterRound_length]

theorem doubleRound_toFun (v : List UInt32) (h : v.length = 16) : toFun (doubleRound v) = Spec.ChaCha20.innerBlock (toFun v) := by
  unfold doubleRound Spec.ChaCha20.innerBlock
  simp only
  repeat rw [quarterRound_toFun _ _ _ _ _ (by simp [quarterRound_length, h]) (by simp [quarterRound_length, h])
    (by simp [quarterRound_length, h]) (by simp [quarterRound_length, h]) (by decide) (by decide) (by decide) (by decide)
    (by decide) (by decide)]

theorem rounds_length (n : Nat) (v : List UInt32) : (rounds n v).length = v.length := by
  induction n generalizing v with
  | zero => rfl
  | succ n ih => rw [rounds, ih, doubleRound_length]

theorem repeat_comm {α : Type} (f : α → α) (n : Nat) (a : α) : Nat.repeat f n (f a) = f (Nat.repeat f n a) := by
  induction n with
  | zero => rfl
  | succ n ih => simp only [Nat.repeat]; rw [ih]

theorem rounds_toFun (n : Nat) (v : List UInt32) (h : v.length = 16) :
    toFun (rounds n v) = Nat.repeat Spec.ChaCha20.innerBlock n (toFun v) := by
  induction n generalizing v with
  | zero => rfl
  | succ n ih =>
    rw [rounds, ih _ (by rw [doubleRound_length, h]), doubleRound_toFun v h, repeat_comm]
    rfl

theorem writeU32sLE_eq (v : List UInt32) (n : Nat) (h : v.length = n) :
    writeU32sLE v = (List.range n).flatMap fun i => leBytes 4 (toFun v i).toNat := by
  have : v = (List.range n).map fun i => v.getD i 0 := by
    apply List.ext_getElem
    · simp [h]
    · intro i h1 h2
      simp [List.getD_eq_getElem?_getD, h1]
  unfold writeU32sLE
  conv => lhs; rw [this]
  rw [List.flatMap_map]
  rfl

theorem readU32sLE_getD (b : Bytes) (t : Nat) (h : 4 * t < b.length) :
    (readU32sLE b).getD t 0 = UInt32.ofNat (leNat ((b.drop (4 * t)).take 4)) := by
  unfold readU32sLE
  induction t generalizing b with
  | zero =>
    have hb : b ≠ [] := by rintro rfl; simp at h
    rw [chunks_of_ne_nil (by omega) hb]
    simp
  | succ t ih =>
    have hb : b ≠ [] := by rintro rfl; simp at h
    rw [chunks_of_ne_nil (by omega) hb]
    have := ih (b.drop 4) (by simp; omega)
    simp only [List.map_cons, List.getD_cons_succ, this, List.drop_drop]
    congr 4
    omega

theorem readU32sLE_length (b : Bytes) : (readU32sLE b).length = (b.length + 3) / 4 := by
  simp [readU32sLE, chunks_count]

/-- The cipher holds the given key and nonce and its block counter is `k`. -/
structure At (key nonce : Bytes) (k : Nat) (s : ChaCha20) : Prop where
  len : s.vals.length = 16
  ctr : k < 2 ^ 32
  vals : ∀ i < 16, toFun s.vals i = Spec.ChaCha20.initState key k nonce i

theorem new_at (key nonce : Bytes) (hk : key.length = 32) (hn : nonce.length = 12) :
    ∃ s, new key nonce = .ok s ∧ At key nonce 0 s := by
  unfold new
  rw [if_neg (by omega), if_neg (by omega)]
  have lk : (readU32sLE key).length = 8 := by rw [readU32sLE_length, hk]
  have ln : (readU32sLE nonce).length = 3 := by rw [readU32sLE_length, hn]
  refine ⟨_, rfl, ?_, by omega, ?_⟩
  · simp [lk, ln]
  · intro i hi
    unfold toFun Spec.ChaCha20.initState
    by_cases h4 : i < 4
    · rw [if_pos h4]
      match i, h4 with
      | 0, _ => rfl
      | 1, _ => rfl
      | 2, _ => rfl
      | 3, _ => rfl
    · rw [if_neg h4]
      simp only [List.append_assoc]
      rw [getD_append_right _ _ _ _ (by simp; omega), List.length_cons, List.length_cons, List.length_cons, List.length_cons,
        List.length_nil]
      by_cases h12 : i < 12
      · rw [if_pos h12, getD_append_left _ _ _ _ (by omega), readU32sLE_getD _ _ (by omega)]
        rfl
      · rw [if_neg h12, getD_append_right _ _ _ _ (by omega), lk]
        by_cases h13 : i = 12
        · subst h13
          rfl
        · rw [if_neg h13, getD_append_right _ _ _ _ (by simp; omega), readU32sLE_getD _ _ (by simp; omega)]
          simp only [List.length_cons, List.length_nil]
          unfold Spec.ChaCha20.leWord
          rw [show i - (0 + 1 + 1 + 1 + 1) - 8 - (0 + 1) = i - 13 by omega]
          rfl

theorem toFun_zipWith (a b : List UInt32) (h : a.length = b.length) (i : Nat) :
    toFun (List.zipWith (· + ·) a b) i = toFun a i + toFun b i := by
  unfold toFun
  simp only [List.getD_eq_getElem?_getD]
  by_cases hi : i < a.length
  · rw [List.getElem?_eq_getElem (by simp; omega), List.getElem?_eq_getElem hi, List.getElem?_eq_getElem (by omega)]
    simp
  · rw [List.getElem?_eq_none (by simp; omega), List.getElem?_eq_none (by omega), List.getElem?_eq_none (by omega)]
    simp

theorem innerBlock_congr_aux {s t : Nat → Word} (h : ∀ i < 16, s i = t i) {a b c d : Nat} (ha : a < 16) (hb : b < 16) (hc : c < 16)
    (hd : d < 16) : ∀ i < 16, Spec.ChaCha20.quarterRound s a b c d i = Spec.ChaCha20.quarterRound t a b c d i := by
  have hl : ∀ {s t : Nat → Word}, (∀ i < 16, s i = t i) → ∀ {x y z : Nat}, x < 16 → y < 16 → z < 16 → ∀ n, ∀ i < 16,
      Spec.ChaCha20.line s x y z n i = Spec.ChaCha20.line t x y z n i := by
    intro s t h x y z hx hy hz n i hi
    simp only [Spec.ChaCha20.line, Spec.ChaCha20.upd]
    simp only [h _ hx, h _ hy, h _ hz, h _ hi]
  exact hl (hl (hl (hl h ha hb hd 16) hc hd hb 12) ha hb hd 8) hc hd hb 7

theorem innerBlock_congr {s t : Nat → Word} (h : ∀ i < 16, s i = t i) :
    ∀ i < 16, Spec.ChaCha20.innerBlock s i = Spec.ChaCha20.innerBlock t i := by
  unfold Spec.ChaCha20.innerBlock
  iterate 8 refine innerBlock_congr_aux ?_ (by decide) (by decide) (by decide) (by decide)
  exact h

theorem repeat_congr {s t : Nat → Word} (h : ∀ i < 16, s i = t i) (n : Nat) :
    ∀ i < 16, Nat.repeat Spec.ChaCha20.innerBlock n s i = Nat.repeat Spec.ChaCha20.innerBlock n t i := by
  induction n with
  | zero => exact h
  | succ n ih => exact innerBlock_congr ih

theorem writeU32sLE_length (v : List UInt32) : (writeU32sLE v).length = 4 * v.length := by
  induction v with
  | nil => rfl
  | cons x v ih =>
    have : writeU32sLE (x :: v) = leBytes 4 x.toNat ++ writeU32sLE v := rfl
    rw [this, List.length_append, ih, leBytes_length, List.length_cons]
    omega

theorem block_length (key nonce : Bytes) (k : Nat) : (Spec.ChaCha20.block key k nonce).length = 64 := by
  rw [Spec.ChaCha20.block, List.length_flatMap]
  simp only [leBytes_length]
  rfl

theorem round20_spec {key nonce : Bytes} {k : Nat} {s : ChaCha20} (h : At key nonce k s) :
    writeU32sLE (round20 s) = Spec.ChaCha20.block key k nonce := by
  have hl := h.len
  rw [writeU32sLE_eq _ 16 (by simp [round20, rounds_length, hl])]
  unfold Spec.ChaCha20.block
  have hcongr : ∀ (l : List Nat) (f g : Nat → Bytes), (∀ i ∈ l, f i = g i) → l.flatMap f = l.flatMap g := by
    intro l f g hfg
    rw [List.flatMap_def, List.flatMap_def, List.map_congr_left hfg]
  apply hcongr
  intro i hi
  have hi : i < 16 := by simpa using hi
  rw [round20, toFun_zipWith _ _ (by rw [rounds_length]), rounds_toFun _ _ hl, repeat_congr h.vals 10 i hi, h.vals i hi,
    BitVec.add_comm]

/-- `next` returns block `k` of the RFC and moves to `k + 1`, unless the counter is exhausted. -/
theorem next_spec (m : Mode) {key nonce : Bytes} {k : Nat} {s : ChaCha20} (h : At key nonce k s) (hk : k + 1 < 2 ^ 32) :
    ∃ s', next m s = .ok (Spec.ChaCha20.block key k nonce, s') ∧ At key nonce (k + 1) s' := by
  have hc : (s.vals.getD 12 0).toNat = k := by
    have h1 := h.vals 12 (by omega)
    have h2 := congrArg BitVec.toNat h1
    simp only [Spec.ChaCha20.initState] at h2
    simp [toFun] at h2
    rw [List.getD_eq_getElem?_getD, h2]
    exact Nat.mod_eq_of_lt h.ctr
  obtain ⟨c, hc1, hc2⟩ := addU32_spec m (s.vals.getD 12 0) 1 (by rw [hc]; simpa using hk)
  have hc2 : c.toNat = k + 1 := by rw [hc2, hc]; rfl
  refine ⟨{ vals := s.vals.set 12 c }, ?_, by simp [h.len], hk, ?_⟩
  · simp only [next, hc1, Res.bind_ok, round20_spec h, Res.pure_def]
  · intro i hi
    rw [toFun_set _ _ _ (by rw [h.len]; omega)]
    unfold Spec.ChaCha20.upd
    by_cases h12 : i = 12
    · subst h12
      rw [if_pos rfl]
      apply BitVec.eq_of_toNat_eq
      simp only [Spec.ChaCha20.initState]
      rw [UInt32.toNat_toBitVec, hc2]
      simp
      omega
    · rw [if_neg h12, h.vals i hi]
      simp [Spec.ChaCha20.initState, h12]

/-- The counter is exhausted: debug builds panic, release builds wrap to block 0. -/
theorem next_exhausted_debug {key nonce : Bytes} {s : ChaCha20} (h : At key nonce (2 ^ 32 - 1) s) : next .debug s = .panic := by
  have hc : (s.vals.getD 12 0).toNat = 2 ^ 32 - 1 := by
    have h1 := h.vals 12 (by omega)
    have h2 := congrArg BitVec.toNat h1
    simp only [Spec.ChaCha20.initState] at h2
    simp [toFun] at h2
    rw [List.getD_eq_getElem?_getD, h2]
  unfold next addU32
  rw [if_neg (by rw [hc]; decide)]
  rfl

theorem zipWith_getD_eq_mapIdx (blk c : Bytes) (hb : c.length ≤ blk.length) :
    List.zipWith (· ^^^ ·) blk c = c.mapIdx fun j b => b ^^^ blk.getD j 0 := by
  apply List.ext_getElem
  · simp; omega
  · intro i h1 h2
    have h3 : i < blk.length := by simp at h1; omega
    simp [List.getD_eq_getElem?_getD, h3, UInt8.xor_comm]

theorem encryptChunks_spec (m : Mode) {key nonce : Bytes} (data : Bytes) : ∀ {k : Nat} {s : ChaCha20}, At key nonce k s →
    k + (data.length + 63) / 64 < 2 ^ 32 →
    ∃ s', encryptChunks m (chunks 64 data) s = .ok (Spec.ChaCha20.encrypt key k nonce data, s') ∧
      At key nonce (k + (data.length + 63) / 64) s' := by
  induction data using chunks_induction (show 0 < 64 by omega) with
  | nil => intro k s h hk; exact ⟨s, rfl, by simpa using h⟩
  | step data hne ih =>
    intro k s h hk
    have hpos : 0 < data.length := List.length_pos_iff.mpr hne
    obtain ⟨s1, h1, h2⟩ := next_spec m h (by omega)
    have hcount : (data.length + 63) / 64 = 1 + ((data.drop 64).length + 63) / 64 := by
      rw [List.length_drop]; omega
    obtain ⟨s2, h3, h4⟩ := ih h2 (by omega)
    refine ⟨s2, ?_, by rw [hcount, ← Nat.add_assoc]; exact h4⟩
    rw [chunks_of_ne_nil (by omega) hne, encryptChunks]
    simp only [h1, h3, Res.bind_ok, Res.pure_def]
    have hsplit : Spec.ChaCha20.encrypt key k nonce data =
        List.zipWith (· ^^^ ·) (Spec.ChaCha20.block key k nonce) (data.take 64) ++
          Spec.ChaCha20.encrypt key (k + 1) nonce (data.drop 64) := ?_
    · rw [hsplit]
    symm
    rw [zipWith_getD_eq_mapIdx _ _ (by rw [block_length]; simp; omega)]
    conv => rhs; rw [← List.take_append_drop 64 data]
    unfold Spec.ChaCha20.encrypt
    rw [List.mapIdx_append]
    have app : ∀ {a b c d : Bytes}, a = c → b = d → a ++ b = c ++ d := by rintro _ _ _ _ rfl rfl; rfl
    refine app ?_ ?_
    · apply List.ext_getElem
      · simp
      · intro i hi1 hi2
        have : i < 64 := by simp at hi1; omega
        simp [Spec.ChaCha20.keystream, Nat.div_eq_of_lt this, Nat.mod_eq_of_lt this]
    · apply List.ext_getElem
      · simp
      · intro i hi1 hi2
        have h64 : (data.take 64).length = 64 := by simp at hi1 ⊢; omega
        simp only [List.getElem_mapIdx, h64]
        unfold Spec.ChaCha20.keystream
        rw [show k + (i + 64) / 64 = k + 1 + i / 64 by omega, show (i + 64) % 64 = i % 64 by omega]

end Husk.ChaCha20
