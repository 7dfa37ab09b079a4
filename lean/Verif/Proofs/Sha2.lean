import Verif.Model.Sha2
import Verif.Spec.Sha256
/-! Refinement of the model of `sha256` to FIPS 180-4. -/

namespace Husk.Sha2

open Spec.Sha256 (Word State)

theorem rotr_toBitVec (x : UInt32) (n : Nat) (h0 : 0 < n) (hn : n < 32) :
    (rotr x (UInt32.ofNat n)).toBitVec = x.toBitVec.rotateRight n := by
  have h2 : (UInt32.ofNat n).toBitVec % 32 = BitVec.ofNat 32 n := by
    apply BitVec.eq_of_toNat_eq
    simp
    omega
  have h3 : (32 - UInt32.ofNat n).toBitVec % 32 = BitVec.ofNat 32 (32 - n) := by
    apply BitVec.eq_of_toNat_eq
    simp
    omega
  unfold rotr
  rw [UInt32.toBitVec_or, UInt32.toBitVec_shiftRight, UInt32.toBitVec_shiftLeft, h2, h3]
  simp only [BitVec.rotateRight, BitVec.rotateRightAux, Nat.mod_eq_of_lt hn]
  congr 1
  · simp [BitVec.ushiftRight_eq', Nat.mod_eq_of_lt (show n < 4294967296 by omega)]
  · simp [BitVec.shiftLeft_eq', Nat.mod_eq_of_lt (show 32 - n < 4294967296 by omega)]

theorem readU32sBE_getD (b : Bytes) (t : Nat) (h : 4 * t < b.length) :
    (readU32sBE b).getD t 0 = UInt32.ofNat (beNat ((b.drop (4 * t)).take 4)) := by
  unfold readU32sBE
  induction t generalizing b with
  | zero =>
    have hb : b ≠ [] := by rintro rfl; simp at h
    rw [chunks_of_ne_nil (by omega) hb]
    simp
  | succ t ih =>
    have hb : b ≠ [] := by rintro rfl; simp at h
    rw [chunks_of_ne_nil (by omega) hb]
    have := ih (b.drop 4) (by simp; omega)
    simp only [List.map_cons, List.getD_cons_succ, this, List.drop_drop]
    congr 4
    omega

theorem readU32sBE_length (b : Bytes) (h : b.length = 64) : (readU32sBE b).length = 16 := by
  simp [readU32sBE, chunks_count, h]

/-- Block words of a 64-byte block. -/
def M (blk : Bytes) (t : Nat) : Word := BitVec.ofNat 32 (beNat ((blk.drop (4 * t)).take 4))

theorem schedStep_length (w : List UInt32) (j : Nat) : (schedStep w j).length = w.length := by
  simp [schedStep]

theorem schedule_inv (blk : Bytes) (h : blk.length = 64) (n : Nat) (hn : n ≤ 48) :
    let w := (List.range' 16 n).foldl schedStep (readU32sBE blk ++ List.replicate 48 0)
    w.length = 64 ∧ ∀ t < 16 + n, (w.getD t 0).toBitVec = Spec.Sha256.W (M blk) t := by
  induction n with
  | zero =>
    simp only [List.range'_zero, List.foldl_nil]
    refine ⟨by simp [readU32sBE_length blk h], fun t ht => ?_⟩
    have ht : t < 16 := by omega
    rw [List.getD_eq_getElem?_getD, List.getElem?_append_left (by rw [readU32sBE_length blk h]; exact ht),
      ← List.getD_eq_getElem?_getD, readU32sBE_getD blk t (by omega)]
    rw [Spec.Sha256.W, dif_pos ht]
    rfl
  | succ n ih =>
    obtain ⟨hl, hw⟩ := ih (by omega)
    rw [List.range'_concat, List.foldl_append]
    simp only [List.foldl_cons, List.foldl_nil, Nat.one_mul]
    generalize hW : (List.range' 16 n).foldl schedStep (readU32sBE blk ++ List.replicate 48 0) = w at *
    refine ⟨by rw [schedStep_length]; exact hl, fun t ht => ?_⟩
    unfold schedStep
    by_cases hlt : t < 16 + n
    · rw [← hw t hlt]
      simp only [List.getD_eq_getElem?_getD]
      rw [List.getElem?_set_ne (by omega)]
    · have : t = 16 + n := by omega
      subst this
      rw [Spec.Sha256.W, dif_neg (by omega)]
      simp only [List.getD_eq_getElem?_getD]
      rw [List.getElem?_set_self (by omega)]
      simp only [← List.getD_eq_getElem?_getD, Option.getD_some]
      rw [← hw _ (by omega), ← hw _ (by omega), ← hw _ (by omega), ← hw _ (by omega)]
      simp only [UInt32.toBitVec_add, UInt32.toBitVec_xor, Spec.Sha256.smallSigma0, Spec.Sha256.smallSigma1]
      rw [show (7 : UInt32) = UInt32.ofNat 7 from rfl, show (18 : UInt32) = UInt32.ofNat 18 from rfl,
        show (17 : UInt32) = UInt32.ofNat 17 from rfl, show (19 : UInt32) = UInt32.ofNat 19 from rfl]
      simp only [rotr_toBitVec _ _ (show 0 < 7 by omega) (show 7 < 32 by omega),
        rotr_toBitVec _ _ (show 0 < 18 by omega) (show 18 < 32 by omega),
        rotr_toBitVec _ _ (show 0 < 17 by omega) (show 17 < 32 by omega),
        rotr_toBitVec _ _ (show 0 < 19 by omega) (show 19 < 32 by omega)]
      have e3 : ∀ x : UInt32, (x >>> (3 : UInt32)).toBitVec = x.toBitVec >>> 3 := by
        intro x; rw [UInt32.toBitVec_shiftRight]; rfl
      have e10 : ∀ x : UInt32, (x >>> (10 : UInt32)).toBitVec = x.toBitVec >>> 10 := by
        intro x; rw [UInt32.toBitVec_shiftRight]; rfl
      rw [e3, e10]
      ac_rfl

/-- Reading of the model's variables as specification state. -/
def Vars.toState (s : Vars) : State :=
  ⟨s.a.toBitVec, s.b.toBitVec, s.c.toBitVec, s.d.toBitVec, s.e.toBitVec, s.f.toBitVec, s.g.toBitVec, s.h.toBitVec⟩

/-- The round constants of the code as a function. -/
def Kfun (t : Nat) : Word := (K.getD t 0).toBitVec

theorem round_toState (w : List UInt32) (s : Vars) (j : Nat) :
    (round w s j).toState = Spec.Sha256.step (Kfun j) (w.getD j 0).toBitVec s.toState := by
  unfold round Vars.toState Spec.Sha256.step
  simp only [Spec.Sha256.Ch, Spec.Sha256.Maj, Spec.Sha256.bigSigma0, Spec.Sha256.bigSigma1, Kfun,
    UInt32.toBitVec_add, UInt32.toBitVec_xor, UInt32.toBitVec_and, UInt32.toBitVec_not]
  rw [show (2 : UInt32) = UInt32.ofNat 2 from rfl, show (13 : UInt32) = UInt32.ofNat 13 from rfl,
    show (22 : UInt32) = UInt32.ofNat 22 from rfl, show (6 : UInt32) = UInt32.ofNat 6 from rfl,
    show (11 : UInt32) = UInt32.ofNat 11 from rfl, show (25 : UInt32) = UInt32.ofNat 25 from rfl]
  simp only [rotr_toBitVec _ _ (show 0 < 2 by omega) (show 2 < 32 by omega),
    rotr_toBitVec _ _ (show 0 < 13 by omega) (show 13 < 32 by omega),
    rotr_toBitVec _ _ (show 0 < 22 by omega) (show 22 < 32 by omega),
    rotr_toBitVec _ _ (show 0 < 6 by omega) (show 6 < 32 by omega),
    rotr_toBitVec _ _ (show 0 < 11 by omega) (show 11 < 32 by omega),
    rotr_toBitVec _ _ (show 0 < 25 by omega) (show 25 < 32 by omega)]

theorem rounds_toState (blk : Bytes) (w : List UInt32) (s : Vars)
    (hw : ∀ t < 64, (w.getD t 0).toBitVec = Spec.Sha256.W (M blk) t) (n : Nat) (hn : n ≤ 64) :
    ((List.range n).foldl (round w) s).toState = Spec.Sha256.vars Kfun (M blk) s.toState n := by
  induction n with
  | zero => rfl
  | succ n ih =>
    rw [List.range_succ, List.foldl_append]
    simp only [List.foldl_cons, List.foldl_nil, Spec.Sha256.vars]
    rw [round_toState, ih (by omega), hw n (by omega)]

/-- Reading of the eight hash words as specification state. -/
def toState (v : List UInt32) : State :=
  ⟨(v.getD 0 0).toBitVec, (v.getD 1 0).toBitVec, (v.getD 2 0).toBitVec, (v.getD 3 0).toBitVec,
   (v.getD 4 0).toBitVec, (v.getD 5 0).toBitVec, (v.getD 6 0).toBitVec, (v.getD 7 0).toBitVec⟩

theorem block_toState (val : List UInt32) (blk : Bytes) (h : blk.length = 64) :
    toState (block val blk) = Spec.Sha256.compress Kfun (M blk) (toState val) := by
  obtain ⟨_, hw⟩ := schedule_inv blk h 48 (by omega)
  have := rounds_toState blk (schedule blk) ⟨val.getD 0 0, val.getD 1 0, val.getD 2 0, val.getD 3 0, val.getD 4 0,
    val.getD 5 0, val.getD 6 0, val.getD 7 0⟩ (fun t ht => hw t (by omega)) 64 (by omega)
  unfold block Spec.Sha256.compress
  have e : (toState val) = Vars.toState ⟨val.getD 0 0, val.getD 1 0, val.getD 2 0, val.getD 3 0, val.getD 4 0,
    val.getD 5 0, val.getD 6 0, val.getD 7 0⟩ := rfl
  rw [e, ← this]
  simp [toState, Vars.toState]

theorem fold_toState (padded : Bytes) (n : Nat) (hn : 64 * n ≤ padded.length) :
    toState ((List.range n).foldl (fun val i => block val ((padded.drop (i * 64)).take 64)) INIT_VECTOR) =
      Spec.Sha256.hash Kfun (toState INIT_VECTOR) padded n := by
  induction n with
  | zero => rfl
  | succ n ih =>
    rw [List.range_succ, List.foldl_append]
    simp only [List.foldl_cons, List.foldl_nil, Spec.Sha256.hash]
    rw [block_toState _ _ (by simp; omega), ih (by omega)]
    -- word `t` of the block; the compression function only looks at `t < 16`
    have hW : ∀ t, Spec.Sha256.W (M ((padded.drop (n * 64)).take 64)) t = Spec.Sha256.W (Spec.Sha256.blockWord padded n) t := by
      intro t
      induction t using Nat.strongRecOn with
      | _ t iht =>
        rw [Spec.Sha256.W.eq_def _ t, Spec.Sha256.W.eq_def (Spec.Sha256.blockWord padded n) t]
        split
        · rename_i ht
          unfold M Spec.Sha256.blockWord
          rw [List.drop_take, List.drop_drop, List.take_take]
          rw [show min 4 (64 - 4 * t) = 4 by omega, show n * 64 + 4 * t = 64 * n + 4 * t by omega]
        · rw [iht _ (by omega), iht _ (by omega), iht _ (by omega), iht _ (by omega)]
    have hV : ∀ s k, Spec.Sha256.vars Kfun (M ((padded.drop (n * 64)).take 64)) s k =
        Spec.Sha256.vars Kfun (Spec.Sha256.blockWord padded n) s k := by
      intro s k
      induction k with
      | zero => rfl
      | succ k ihk => simp only [Spec.Sha256.vars]; rw [ihk, hW]
    unfold Spec.Sha256.compress
    rw [hV]

theorem block_length (val : List UInt32) (blk : Bytes) : (block val blk).length = 8 := rfl

theorem fold_length (padded : Bytes) (n : Nat) :
    ((List.range n).foldl (fun val i => block val ((padded.drop (i * 64)).take 64)) INIT_VECTOR).length = 8 := by
  cases n with
  | zero => rfl
  | succ n => rw [List.range_succ, List.foldl_append]; rfl

theorem write_eq_digest (v : List UInt32) (_h : v.length = 8) : writeU32sBE v = Spec.Sha256.digest (toState v) := by
  match v, _h with
  | [a, b, c, d, e, f, g, i], _ => rfl

theorem paddingLen_eq (len : Nat) (_h : len < 2 ^ 61) : paddingLen len = (119 - len % 64) % 64 := by
  unfold paddingLen
  rw [UInt64.toNat_and, UInt64.toNat_sub]
  rw [show UInt64.toNat 63 = 2 ^ 6 - 1 from rfl, Nat.and_two_pow_sub_one_eq_mod]
  simp
  omega

theorem lenBytes_eq (b : UInt64) :
    ([7, 6, 5, 4, 3, 2, 1, 0] : List UInt64).map (fun i => (b >>> (8 * i)).toUInt8) = beBytes 8 b.toNat := by
  simp only [beBytes, leBytes, List.map_cons, List.map_nil, List.reverse_cons, List.reverse_nil, List.nil_append,
    List.cons_append]
  have key : ∀ (i : UInt64) (k : Nat), (8 * i).toNat = k → k < 64 →
      (b >>> (8 * i)).toUInt8 = UInt8.ofNat (b.toNat / 2 ^ k) := by
    intro i k hk hk'
    apply UInt8.toNat_inj.mp
    rw [UInt64.toNat_toUInt8, UInt64.toNat_shiftRight, hk, Nat.mod_eq_of_lt hk', Nat.shiftRight_eq_div_pow]
    simp
  rw [key 7 56 rfl (by omega), key 6 48 rfl (by omega), key 5 40 rfl (by omega), key 4 32 rfl (by omega),
    key 3 24 rfl (by omega), key 2 16 rfl (by omega), key 1 8 rfl (by omega), key 0 0 rfl (by omega)]
  simp only [Nat.div_div_eq_div_mul]
  simp

theorem pad_spec (m : Mode) (msg : Bytes) (h : msg.length < 2 ^ 61) :
    ∃ p, pad m msg = .ok p ∧ Spec.Sha256.IsPadded msg p := by
  have hl : (UInt64.ofNat msg.length).toNat = msg.length := by simp; omega
  obtain ⟨c, hc, hcn⟩ := mulU64_spec m (UInt64.ofNat msg.length) 8 (by rw [hl]; simp; omega)
  have hcn : c.toNat = 8 * msg.length := by rw [hcn, hl]; simp; omega
  unfold pad
  simp only [hc, Res.bind_ok, lenBytes_eq, hcn, paddingLen_eq _ h]
  have hlen : (msg ++ [0x80] ++ List.replicate ((119 - msg.length % 64) % 64) 0 ++ beBytes 8 (8 * msg.length)).length % 64 = 0 := by
    simp; omega
  simp only [hlen]
  refine ⟨_, by cases m <;> rfl, _, rfl, hlen, fun k' hk' => by omega⟩

end Husk.Sha2
