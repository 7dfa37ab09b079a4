import Verif.Model.TraceSym
/-! The functions of `Verif/Model/TraceSym` have the results of those of the model. -/

namespace Husk

open Tr

namespace Util

@[simp] theorem debugAssertT_res (m : Mode) (b : Bool) : (debugAssertT m b).res = debugAssert m b := by
  cases m <;> cases b <;> rfl

theorem diffLoopT_res (i : Nat) (a b : Bytes) (d : UInt8) : (diffLoopT i a b d).res = diffLoop a b d := by
  induction a generalizing i b d with
  | nil => rfl
  | cons x a ih =>
    cases b with
    | nil => rfl
    | cons y b => simp only [diffLoopT, diffLoop, bind_res, see_res, Res.bind_ok, ih]

theorem cryptoCompareT_res (m : Mode) (a b : Bytes) : (cryptoCompareT m a b).res = cryptoCompare m a b := by
  simp only [cryptoCompareT, cryptoCompare, bind_res, debugAssertT_res, diffLoopT_res, pure_res]
  rfl

end Util

namespace ChaCha20

@[simp] theorem newT_res (key nonce : Bytes) : (newT key nonce).res = new key nonce := by
  unfold newT
  by_cases hk : key.length = 32
  · by_cases hn : nonce.length = 12
    · simp [hk, hn]
    · simp [hk, hn, new]
  · simp [hk, new]

theorem roundsT_res (n : Nat) (v : List UInt32) : (roundsT n v).res = .ok (rounds n v) := by
  induction n generalizing v with
  | zero => rfl
  | succ n ih => simp only [roundsT, rounds, bind_res, see_res, Res.bind_ok, ih]

theorem addWordsT_res (i : Nat) (a b : List UInt32) : (addWordsT i a b).res = .ok (List.zipWith (· + ·) a b) := by
  induction a generalizing i b with
  | nil => cases b <;> rfl
  | cons x a ih =>
    cases b with
    | nil => rfl
    | cons y b => simp only [addWordsT, bind_res, see_res, Res.bind_ok, ih, pure_res, List.zipWith_cons_cons]

@[simp] theorem round20T_res (s : ChaCha20) : (round20T s).res = .ok (round20 s) := by
  simp only [round20T, round20, bind_res, roundsT_res, Res.bind_ok, addWordsT_res]

@[simp] theorem nextT_res (m : Mode) (s : ChaCha20) : (nextT m s).res = next m s := by
  simp only [nextT, next, bind_res, round20T_res, Res.bind_ok, lift_res, pure_res]
  rfl

@[simp] theorem xorBytesT_res (a b : Bytes) : (xorBytesT a b).res = .ok (List.zipWith (· ^^^ ·) a b) := by
  induction a generalizing b with
  | nil => cases b <;> rfl
  | cons x a ih =>
    cases b with
    | nil => rfl
    | cons y b => simp only [xorBytesT, bind_res, see_res, Res.bind_ok, ih, pure_res, List.zipWith_cons_cons]

@[simp] theorem encryptChunksT_res (m : Mode) (cs : List Bytes) (s : ChaCha20) : (encryptChunksT m cs s).res = encryptChunks m cs s := by
  induction cs generalizing s with
  | nil => rfl
  | cons c cs ih =>
    simp only [encryptChunksT, encryptChunks, bind_res, see_res, Res.bind_ok, nextT_res, xorBytesT_res, ih, pure_res]
    rfl

@[simp] theorem encryptT_res (m : Mode) (s : ChaCha20) (data : Bytes) : (encryptT m s data).res = encrypt m s data := by
  simp only [encryptT, encrypt, bind_res, see_res, Res.bind_ok, encryptChunksT_res]

end ChaCha20

namespace Poly1305

@[simp] theorem computeBlockT_res (m : Mode) (st : State) (b : Bytes) (p : Bool) : (computeBlockT m st b p).res = computeBlock m st b p := by
  simp only [computeBlockT, bind_res, test_res, Res.bind_ok, lift_res]

@[simp] theorem absorbT_res (m : Mode) (st : State) (b : Bytes) : (absorbT m st b).res = absorb m st b := by
  simp only [absorbT, absorb, bind_res, test_res, Res.bind_ok, ite_res, see_res, computeBlockT_res]

@[simp] theorem absorbAllT_res (m : Mode) (bs : List Bytes) (st : State) : (absorbAllT m bs st).res = absorbAll m bs st := by
  induction bs generalizing st with
  | nil => rfl
  | cons b bs ih => simp only [absorbAllT, absorbAll, bind_res, see_res, Res.bind_ok, absorbT_res, ih]

@[simp] theorem authenticateT_res (m : Mode) (msg r s : Bytes) : (authenticateT m msg r s).res = authenticate m msg r s := by
  simp only [authenticateT, authenticate, bind_res, absorbAllT_res, lift_res]

end Poly1305

namespace Aead

@[simp] theorem paddingT_res (p : Bytes) : (paddingT p).res = .ok (padding p) := by
  simp only [paddingT, padding, bind_res, test_res, Res.bind_ok, ite_res, see_res, pure_res, bne_iff_ne]
  split <;> rfl

@[simp] theorem macInputT_res (e ad : Bytes) : (macInputT e ad).res = .ok (macInput e ad) := by
  simp only [macInputT, macInput, bind_res, see_res, Res.bind_ok, paddingT_res, pure_res]

@[simp] theorem computeMacT_res (m : Mode) (k e ad : Bytes) : (computeMacT m k e ad).res = computeMac m k e ad := by
  simp only [computeMacT, computeMac, bind_res, see_res, Res.bind_ok, macInputT_res, Poly1305.authenticateT_res]

theorem encryptT_res (m : Mode) (key nonce data ad : Bytes) : (encryptT m key nonce data ad).res = encrypt m key nonce data ad := by
  simp only [encryptT, encrypt, bind_res, see_res, Res.bind_ok, ChaCha20.newT_res, ChaCha20.nextT_res, ChaCha20.encryptT_res, computeMacT_res, pure_res]
  rfl

theorem macDiffT_res (i : Nat) (a b : Bytes) (d : UInt8) : (macDiffT i a b d).res = .ok ((List.zipWith (· ^^^ ·) a b).foldl (· ||| ·) d) := by
  induction a generalizing i b d with
  | nil => cases b <;> rfl
  | cons x a ih =>
    cases b with
    | nil => rfl
    | cons y b => simp only [macDiffT, bind_res, see_res, Res.bind_ok, ih, List.zipWith_cons_cons, List.foldl_cons]

theorem decryptT_res (m : Mode) (key nonce data ad : Bytes) : (decryptT m key nonce data ad).res = decrypt m key nonce data ad := by
  simp only [decryptT, decrypt, bind_res, test_res, Res.bind_ok, ite_res, lift_res, decide_eq_true_eq]
  split
  · rfl
  · simp only [openT, bind_res, ChaCha20.newT_res, ChaCha20.nextT_res, ChaCha20.encryptT_res, computeMacT_res, macDiffT_res, Res.bind_ok, pure_res]
    cases ChaCha20.new key nonce with
    | ok c =>
      simp only [Res.bind_ok]
      cases ChaCha20.next m c with
      | ok pc =>
        simp only [Res.bind_ok]
        cases computeMac m pc.1 (data.take (data.length - MAC_LEN)) ad with
        | ok mac =>
          simp only [Res.bind_ok]
          cases ChaCha20.encrypt m pc.2 (data.take (data.length - MAC_LEN)) with
          | ok pl =>
            simp only [Res.bind_ok, lift_res, pure_res, bne_iff_ne, macDiff]
            congr
          | err | panic | diverge => rfl
        | err | panic | diverge => rfl
      | err | panic | diverge => rfl
    | err | panic | diverge => rfl

end Aead

namespace Sha2

theorem forEach_unit (o : Obs) (n : List Nat) : (forEach (fun _ _ => see o) n ()).res = .ok () := by
  induction n with
  | nil => rfl
  | cons i n ih => simp only [forEach, bind_res, see_res, Res.bind_ok, ih]

@[simp] theorem padT_res (m : Mode) (msg : Bytes) : (padT m msg).res = pad m msg := by
  simp only [padT, bind_res, see_res, Res.bind_ok, forEach_unit, lift_res]
  cases pad m msg <;> cases m <;> rfl

@[simp] theorem scheduleT_res (b : Bytes) : (scheduleT b).res = .ok (schedule b) :=
  forEach_res (g := schedStep) (fun _ _ => rfl) _ _

@[simp] theorem blockT_res (v : List UInt32) (b : Bytes) : (blockT v b).res = .ok (block v b) := by
  simp only [blockT, bind_res, see_res, Res.bind_ok, scheduleT_res]
  rw [forEach_res (g := round (schedule b)) (fun _ _ => rfl)]
  rfl

@[simp] theorem sha256T_res (m : Mode) (msg : Bytes) : (sha256T m msg).res = sha256 m msg := by
  simp only [sha256T, sha256, bind_res, padT_res]
  congr 1
  funext p
  rw [forEach_res (g := fun val i => block val ((p.drop (i * 64)).take 64)) (fun _ _ => by simp only [bind_res, see_res, Res.bind_ok, blockT_res])]
  rfl

end Sha2

namespace Prf

open Sha2

theorem xorPadsT_res (i : Nat) (key : Bytes) : (xorPadsT i key).res = .ok (key.map ((0x36 : UInt8) ^^^ ·), key.map ((0x5c : UInt8) ^^^ ·)) := by
  induction key generalizing i with
  | nil => rfl
  | cons k key ih => simp only [xorPadsT, bind_res, see_res, Res.bind_ok, ih, pure_res, List.map_cons]

theorem zipWith_replicate (c : UInt8) (n : Nat) (key : Bytes) (h : key.length ≤ n) : List.zipWith (· ^^^ ·) (List.replicate n c) key = key.map (c ^^^ ·) := by
  induction key generalizing n with
  | nil => simp
  | cons k key ih =>
    cases n with
    | zero => simp at h
    | succ n => rw [List.replicate_succ, List.zipWith_cons_cons, List.map_cons, ih n (by simpa using h)]

@[simp] theorem hmacSha256T_res (m : Mode) (key msg : Bytes) : (hmacSha256T m key msg).res = hmacSha256 m key msg := by
  simp only [hmacSha256T, hmacSha256, bind_res, test_res, Res.bind_ok, ite_res, lift_res, decide_eq_true_eq]
  split
  · rfl
  · rename_i h
    simp only [see_res, Res.bind_ok, xorPadsT_res, sha256T_res, zipWith_replicate _ _ _ (Nat.le_of_not_gt h)]

@[simp] theorem newT_res (m : Mode) (secret seed : Bytes) : (newT m secret seed).res = new m secret seed := by
  simp only [newT, new, bind_res, hmacSha256T_res, pure_res]
  rfl

@[simp] theorem nextBlockT_res (m : Mode) (p : Prf) : (nextBlockT m p).res = nextBlock m p := by
  simp only [nextBlockT, nextBlock, bind_res, see_res, Res.bind_ok, hmacSha256T_res, pure_res]
  rfl

@[simp] theorem getLoopT_res (m : Mode) (size fuel : Nat) (ret : Bytes) (p : Prf) : (getLoopT m size fuel ret p).res = getLoop m size fuel ret p := by
  induction fuel generalizing ret p with
  | zero =>
    rw [getLoop.eq_def]
    simp only [getLoopT, bind_res, test_res, Res.bind_ok, ite_res, lift_res, pure_res, decide_eq_true_eq]
  | succ fuel ih =>
    rw [getLoop.eq_def]
    simp only [getLoopT, bind_res, test_res, Res.bind_ok, ite_res, pure_res, decide_eq_true_eq, nextBlockT_res, see_res, ih]
    rfl

@[simp] theorem getBytesT_res (m : Mode) (p : Prf) (size : Nat) : (getBytesT m p size).res = getBytes m p size := by
  simp only [getBytesT, takeBufT, getBytes, bind_res, test_res, Res.bind_ok, ite_res, pure_res, decide_eq_true_eq, see_res, getLoopT_res]
  split
  · split <;> rfl
  · rfl

end Prf

end Husk
