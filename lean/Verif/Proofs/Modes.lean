import Verif.Model.Client
/-! Debug and release builds: where a debug build does not panic, a release build computes the same. -/

namespace Husk

/-- The first outcome is a panic, or both are the same. -/
def Res.Le (x y : Res α) : Prop := x = .panic ∨ x = y

namespace Res.Le

theorem refl (x : Res α) : Le x x := Or.inr rfl
theorem panic {y : Res α} : Le .panic y := Or.inl rfl
theorem bind {x y : Res α} {f g : α → Res β} (h : Le x y) (hf : ∀ a, Le (f a) (g a)) : Le (x >>= f) (y >>= g) := by
  rcases h with rfl | rfl
  · exact Or.inl rfl
  · cases x with
    | ok a => exact hf a
    | err k => exact Or.inr rfl
    | panic => exact Or.inl rfl
    | diverge => exact Or.inr rfl
theorem ite {c : Prop} [Decidable c] {x y x' y' : Res α} (hx : Le x x') (hy : Le y y') : Le (if c then x else y) (if c then x' else y') := by
  split
  · exact hx
  · exact hy

end Res.Le

open Res

/-- Closes goals that are instances of what was shown before. -/
syntax "le_known" : tactic
macro_rules | `(tactic| le_known) => `(tactic| fail)
/-- Goes through a `do` block. -/
macro "le_block" : tactic => `(tactic| repeat' first | le_known | with_reducible exact Res.Le.refl _ | refine Res.Le.bind ?_ (fun _ => ?_) | refine Res.Le.ite ?_ ?_)

theorem debugAssert_le (b : Bool) : Le (debugAssert .debug b) (debugAssert .release b) := by
  cases b
  · exact Or.inl rfl
  · exact Or.inr rfl
theorem addU32_le (a b : UInt32) : Le (addU32 .debug a b) (addU32 .release a b) := by
  unfold addU32; split <;> first | exact Le.refl _ | exact Le.panic
theorem mulU32_le (a b : UInt32) : Le (mulU32 .debug a b) (mulU32 .release a b) := by
  unfold mulU32; split <;> first | exact Le.refl _ | exact Le.panic
theorem addU64_le (a b : UInt64) : Le (addU64 .debug a b) (addU64 .release a b) := by
  unfold addU64; split <;> first | exact Le.refl _ | exact Le.panic
theorem mulU64_le (a b : UInt64) : Le (mulU64 .debug a b) (mulU64 .release a b) := by
  unfold mulU64; split <;> first | exact Le.refl _ | exact Le.panic
macro_rules | `(tactic| le_known) => `(tactic| with_reducible first | exact debugAssert_le _ | exact addU32_le _ _ | exact mulU32_le _ _ | exact addU64_le _ _ | exact mulU64_le _ _)

/-! ### ChaCha20-Poly1305 -/

theorem ChaCha20.next_le (s : ChaCha20) : Le (next .debug s) (next .release s) := by unfold next; le_block
theorem ChaCha20.encryptChunks_le (cs : List Bytes) (s : ChaCha20) : Le (encryptChunks .debug cs s) (encryptChunks .release cs s) := by
  induction cs generalizing s with
  | nil => exact Le.refl _
  | cons c cs ih => exact Le.bind (next_le s) fun _ => Le.bind (ih _) fun _ => Le.refl _
theorem Poly1305.dot5_le (a0 b0 a1 b1 a2 b2 a3 b3 a4 b4 : UInt32) : Le (dot5 .debug a0 b0 a1 b1 a2 b2 a3 b3 a4 b4) (dot5 .release a0 b0 a1 b1 a2 b2 a3 b3 a4 b4) := by
  unfold dot5; le_block
macro_rules | `(tactic| le_known) => `(tactic| with_reducible exact Poly1305.dot5_le _ _ _ _ _ _ _ _ _ _)
theorem Poly1305.computeBlock_le (st : State) (b : Bytes) (p : Bool) : Le (computeBlock .debug st b p) (computeBlock .release st b p) := by
  unfold computeBlock; le_block
theorem Poly1305.finalize_le (st : State) : Le (finalize .debug st) (finalize .release st) := by
  unfold finalize; le_block
theorem Poly1305.absorb_le (st : State) (b : Bytes) : Le (absorb .debug st b) (absorb .release st b) := by
  unfold absorb
  exact Le.ite (computeBlock_le _ _ _) (computeBlock_le _ _ _)
theorem Poly1305.absorbAll_le (bs : List Bytes) (st : State) : Le (absorbAll .debug bs st) (absorbAll .release bs st) := by
  induction bs generalizing st with
  | nil => exact Le.refl _
  | cons b bs ih => exact Le.bind (absorb_le st b) fun _ => ih _
theorem Poly1305.authenticate_le (msg r s : Bytes) : Le (authenticate .debug msg r s) (authenticate .release msg r s) :=
  Le.bind (absorbAll_le _ _) fun _ => finalize_le _
theorem Aead.encrypt_le (key nonce data ad : Bytes) : Le (encrypt .debug key nonce data ad) (encrypt .release key nonce data ad) :=
  Le.bind (Le.refl _) fun _ => Le.bind (ChaCha20.next_le _) fun _ => Le.bind (ChaCha20.encryptChunks_le _ _) fun _ => Le.bind (Poly1305.authenticate_le _ _ _) fun _ => Le.refl _
theorem Aead.decrypt_le (key nonce data ad : Bytes) : Le (decrypt .debug key nonce data ad) (decrypt .release key nonce data ad) :=
  Le.ite (Le.refl _) (Le.bind (Le.refl _) fun _ => Le.bind (ChaCha20.next_le _) fun _ => Le.bind (Poly1305.authenticate_le _ _ _) fun _ =>
    Le.bind (ChaCha20.encryptChunks_le _ _) fun _ => Le.refl _)

/-! ### Hashes -/

theorem Sha2.pad_le (msg : Bytes) : Le (pad .debug msg) (pad .release msg) := by unfold pad; le_block
theorem Sha2.sha256_le (msg : Bytes) : Le (sha256 .debug msg) (sha256 .release msg) := Le.bind (pad_le _) fun _ => Le.refl _
macro_rules | `(tactic| le_known) => `(tactic| with_reducible exact Sha2.sha256_le _)
theorem Prf.hmacSha256_le (key msg : Bytes) : Le (hmacSha256 .debug key msg) (hmacSha256 .release key msg) := by unfold hmacSha256; le_block
macro_rules | `(tactic| le_known) => `(tactic| with_reducible exact Prf.hmacSha256_le _ _)
theorem Prf.new_le (secret seed : Bytes) : Le (Prf.new .debug secret seed) (Prf.new .release secret seed) := by unfold Prf.new; le_block
theorem Prf.nextBlock_le (p : Prf) : Le (nextBlock .debug p) (nextBlock .release p) := by unfold nextBlock; le_block
theorem Prf.getLoop_le (size fuel : Nat) (ret : Bytes) (p : Prf) : Le (getLoop .debug size fuel ret p) (getLoop .release size fuel ret p) := by
  induction fuel generalizing ret p with
  | zero => rw [getLoop.eq_def, getLoop.eq_def]; exact Le.refl _
  | succ fuel ih =>
    rw [getLoop.eq_def, getLoop.eq_def]
    exact Le.ite (Le.bind (nextBlock_le p) fun _ => Le.ite (ih _ _) (Le.refl _)) (Le.refl _)
theorem Prf.getBytes_le (p : Prf) (size : Nat) : Le (getBytes .debug p size) (getBytes .release p size) := getLoop_le _ _ _ _
theorem Util.cryptoCompare_le (a b : Bytes) : Le (cryptoCompare .debug a b) (cryptoCompare .release a b) := by unfold cryptoCompare; le_block

/-! ### P-256 -/

namespace Int256

theorem reduceOnce_le (a : Int256) (c : UInt32) : Le (a.reduceOnce .debug c) (a.reduceOnce .release c) := by unfold reduceOnce; le_block
theorem add_le (a b : Int256) : Le (a.add .debug b) (a.add .release b) := reduceOnce_le _ _
theorem sub_le (a b : Int256) : Le (a.sub .debug b) (a.sub .release b) := by unfold sub; le_block
theorem double_le (a : Int256) : Le (a.double .debug) (a.double .release) := add_le a a
theorem reduceOnceZero_le (a : Int256) : Le (a.reduceOnceZero .debug) (a.reduceOnceZero .release) := reduceOnce_le _ _

end Int256

macro_rules | `(tactic| le_known) => `(tactic| with_reducible first | exact Int256.add_le _ _ | exact Int256.sub_le _ _ | exact Int256.double_le _ | exact Int256.reduceOnceZero_le _)

namespace Int256

theorem reduceWide_le (v : Nat → UInt32) : Le (reduceWide .debug v) (reduceWide .release v) := by unfold reduceWide; le_block
theorem mult_le (a b : Int256) : Le (a.mult .debug b) (a.mult .release b) := Le.bind (debugAssert_le _) fun _ => reduceWide_le _
theorem square_le (a : Int256) : Le (a.square .debug) (a.square .release) := mult_le a a
theorem squareN_le (n : Nat) (a : Int256) : Le (squareN .debug n a) (squareN .release n a) := by
  induction n generalizing a with
  | zero => exact Le.refl _
  | succ n ih => exact Le.bind (square_le a) fun _ => ih _
theorem zN_le (z : Int256) (n : Nat) : Le (zN .debug z n) (zN .release z n) := Le.bind (squareN_le n z) fun _ => mult_le _ _
theorem z1_le (z a : Int256) : Le (z1 .debug z a) (z1 .release z a) := Le.bind (square_le z) fun _ => mult_le _ _

end Int256

macro_rules | `(tactic| le_known) => `(tactic| with_reducible first | exact Int256.mult_le _ _ | exact Int256.square_le _ | exact Int256.squareN_le _ _ | exact Int256.zN_le _ _ | exact Int256.z1_le _ _)

theorem Int256.inverse_le (a : Int256) : Le (a.inverse .debug) (a.inverse .release) := by unfold inverse; le_block
macro_rules | `(tactic| le_known) => `(tactic| with_reducible exact Int256.inverse_le _)

namespace Point256

theorem normalize_le (p : Point256) : Le (p.normalize .debug) (p.normalize .release) := by unfold normalize; le_block
theorem double_le (p : Point256) : Le (p.double .debug) (p.double .release) := by unfold double; le_block
theorem add_le (a b : Point256) : Le (a.add .debug b) (a.add .release b) := by
  unfold add
  repeat' first | with_reducible exact double_le _ | le_known | with_reducible exact Res.Le.refl _ | refine Res.Le.bind ?_ (fun _ => ?_)
theorem ladderStep_le (p : Point256) (bit : UInt32) (ret : Point256) : Le (ladderStep .debug p bit ret) (ladderStep .release p bit ret) :=
  Le.bind (double_le _) fun _ => Le.bind (add_le _ _) fun _ => Le.refl _
theorem ladder_le (p : Point256) (bits : List UInt32) (ret : Point256) : Le (ladder .debug p bits ret) (ladder .release p bits ret) := by
  induction bits generalizing ret with
  | nil => exact Le.refl _
  | cons b bits ih => exact Le.bind (ladderStep_le p b ret) fun _ => ih _
theorem multScalar_le (p : Point256) (n : Int256) : Le (p.multScalar .debug n) (p.multScalar .release n) := ladder_le _ _ _

end Point256

theorem NPoint256.checkCurve_le (x y : Int256) : Le (checkCurve .debug x y) (checkCurve .release x y) := by unfold checkCurve; le_block
theorem NPoint256.fromUncompressedBytes_le (data : Bytes) : Le (fromUncompressedBytes .debug data) (fromUncompressedBytes .release data) := by
  unfold fromUncompressedBytes
  refine Le.ite (Le.refl _) (Le.ite (Le.refl _) ?_)
  split
  · exact checkCurve_le _ _
  · exact Le.refl _
theorem Ecdhe.keysFrom_le (gy : Point256) (x : Int256) : Le (keysFrom .debug gy x) (keysFrom .release gy x) :=
  Le.bind (Point256.multScalar_le _ _) fun _ => Le.bind (Point256.normalize_le _) fun _ => Le.bind (Point256.multScalar_le _ _) fun _ =>
    Le.bind (Point256.normalize_le _) fun _ => Le.refl _

/-! ### Handshake computations -/

namespace TlsClient

theorem masterSecret_le (pms cr sr : Bytes) : Le (masterSecret .debug pms cr sr) (masterSecret .release pms cr sr) :=
  Le.bind (Prf.new_le _ _) fun _ => Le.bind (Prf.getBytes_le _ _) fun _ => Le.refl _
theorem verifyData_le (master label msgs : Bytes) : Le (verifyData .debug master label msgs) (verifyData .release master label msgs) :=
  Le.bind (Sha2.sha256_le _) fun _ => Le.bind (Prf.new_le _ _) fun _ => Le.bind (Prf.getBytes_le _ _) fun _ => Le.refl _
theorem checkFinished_le (master msgs : Bytes) (fin : Handshake) (sf : VerifyData) : Le (checkFinished .debug master msgs fin sf) (checkFinished .release master msgs fin sf) :=
  Le.bind (Le.refl _) fun _ => Le.bind (verifyData_le _ _ _) fun _ => Le.bind (Util.cryptoCompare_le _ _) fun _ => Le.refl _

end TlsClient

end Husk
