import Verif.Proofs.TraceEcdhe
import Verif.Proofs.TraceLeak
import Verif.Proofs.TraceSym
import Verif.Proofs.TraceSymSame
import Verif.Props.Aead
import Verif.Props.Ecdhe
import Verif.Props.Prf
import Verif.Props.Sha256
import Verif.Props.Util
/-! # C84–C88: what timing and caches show

An execution is observed through the outcomes of its branches, the positions of its array accesses and the lengths of its buffers, in order (`Verif/Base/Trace`). Each theorem
compares the observations of two executions on different secrets; the functions with observations have the results of the functions of the model (the theorems `…_same_result`).
-/

namespace Husk

open Tr

/-! ## C84 -/

/-- C84: `crypto_compare` shows the lengths of its arguments and nothing about their contents, in particular not where they differ. -/
theorem C84_compare_constant_time (m : Mode) (a b a' b' : Bytes) (h : a.length = b.length) (ha : a'.length = a.length) (hb : b'.length = b.length) :
    (Util.cryptoCompareT m a b).trace = (Util.cryptoCompareT m a' b').trace := by
  have key : ∀ a b : Bytes, a.length = b.length → ∃ v, (Util.cryptoCompareT m a b).res = .ok v := by
    intro a b h
    exact ⟨_, (Util.cryptoCompareT_res m a b).trans (C43_crypto_compare_is_equality m a b h)⟩
  obtain ⟨v, hv⟩ := key a b h
  obtain ⟨v', hv'⟩ := key a' b' (by omega)
  exact (Util.cryptoCompareT_same m a b a' b' ha.symm hb.symm v v' hv hv').1

theorem C84_same_result (m : Mode) (a b : Bytes) : (Util.cryptoCompareT m a b).res = Util.cryptoCompare m a b := Util.cryptoCompareT_res m a b

/-- The comparison with the first byte wrong and the one with nothing wrong: 12 bytes, and observations there are. -/
example : (Util.cryptoCompareT .debug (List.replicate 12 0) (List.replicate 12 0)).trace = (Util.cryptoCompareT .debug (1 :: List.replicate 11 0) (List.replicate 12 0)).trace ∧
    30 < (Util.cryptoCompareT .debug (List.replicate 12 0) (List.replicate 12 0)).trace.length := by decide +kernel

/-- The observations tell an early exit: comparing until the first difference is distinguished. -/
def earlyExit : Bytes → Bytes → Tr Bool
  | a :: as, b :: bs => do
    if ← test (a == b) then earlyExit as bs else return false
  | _, _ => return true

example : (earlyExit [1, 2] [1, 2]).trace ≠ (earlyExit [0, 2] [1, 2]).trace := by decide +kernel

/-! ## C85 -/

/-- The full claim, for one build mode: the two keys that `compute_keys` derives from its secret scalar take the same observations for any two scalars. -/
def C85_statement (m : Mode) : Prop :=
  ∀ (gy : NPoint256) (x x' : Int256), (Ecdhe.keysFromT m gy.toPoint x).trace = (Ecdhe.keysFromT m gy.toPoint x').trace

/-- C85, release builds: the observations are the same whatever the scalar (and whatever the point of the server). -/
theorem C85_release_partial (gy gy' : NPoint256) (x x' : Int256) :
    (Ecdhe.keysFromT .release gy.toPoint x).trace = (Ecdhe.keysFromT .release gy'.toPoint x').trace := by
  obtain ⟨p, hp, _⟩ := Ecdhe.keysFrom_returns .release gy x
  obtain ⟨p', hp', _⟩ := Ecdhe.keysFrom_returns .release gy' x'
  exact (Ecdhe.keysFromT_same gy.toPoint gy'.toPoint x x' _ _ ((Ecdhe.keysFromT_res _ _ _).trans hp) ((Ecdhe.keysFromT_res _ _ _).trans hp')).1

theorem C85_same_result (m : Mode) (gy : Point256) (x : Int256) : (Ecdhe.keysFromT m gy x).res = Ecdhe.keysFrom m gy x := Ecdhe.keysFromT_res m gy x

/-- C85 fails in debug builds: with the scalars 1 and 2 the observations of `compute_keys` differ (the short-circuit in the assertion of `reduce_once`), whatever the
server's point. -/
theorem C85_debug_leaks (gy : NPoint256) :
    (Ecdhe.keysFromT .debug gy.toPoint Point256.one).trace ≠ (Ecdhe.keysFromT .debug gy.toPoint Point256.two).trace :=
  diffB_ne _ _ (diffB_bind_left _ _ Point256.multScalar_differs)

/-- Both executions succeed: what differs is only what can be observed. -/
theorem C85_debug_leaks_returns (gy : NPoint256) (x : Int256) : ∃ k, (Ecdhe.keysFromT .debug gy.toPoint x).res = .ok k := by
  obtain ⟨p, hp, _⟩ := Ecdhe.keysFrom_returns .debug gy x
  exact ⟨_, (Ecdhe.keysFromT_res _ _ _).trans hp⟩

theorem C85_full_claim_false : ¬ ∀ m, C85_statement m := fun h => C85_debug_leaks { x := Int256.ZERO, y := Int256.ZERO } (h .debug _ _ _)

theorem C85_statement_release : C85_statement .release := fun gy x x' => C85_release_partial gy gy x x'

/-- The scalars are ones the client can draw, and `keysFrom` is what `compute_keys` runs. -/
example : Point256.one.val < Int256.P256.val ∧ Point256.two.val < Int256.P256.val ∧ Point256.one ≠ Point256.two := by decide +kernel

/-- The observations in release builds are many (a step of the ladder). -/
example : 10000 < (Point256.G.doubleT .release).trace.length := by decide +kernel

/-! ## C86 -/

/-- C86: encryption shows the lengths of the plaintext and of the additional data, nothing about the contents, the key or the nonce; both build modes. -/
theorem C86_encrypt_constant_time (m : Mode) (key nonce data ad key' nonce' data' ad' : Bytes) (hk : key.length = 32) (hn : nonce.length = 12)
    (hl : data.length ≤ 2 ^ 38 - 128) (hk' : key'.length = 32) (hn' : nonce'.length = 12) (hd : data'.length = data.length) (ha : ad'.length = ad.length) :
    (Aead.encryptT m key nonce data ad).trace = (Aead.encryptT m key' nonce' data' ad').trace :=
  (Aead.encryptT_same m key nonce data ad key' nonce' data' ad' (hk.trans hk'.symm) (hn.trans hn'.symm) hd.symm ha.symm _ _
    ((Aead.encryptT_res _ _ _ _ _).trans (C39_encrypt_is_rfc8439 m key nonce data ad hk hn hl))
    ((Aead.encryptT_res _ _ _ _ _).trans (C39_encrypt_is_rfc8439 m key' nonce' data' ad' hk' hn' (hd ▸ hl)))).1

/-- C86: decryption shows the lengths and, as the last observation, the verdict. All the rest is the same for a forged and for a genuine record. -/
theorem C86_decrypt_shows_the_verdict (m : Mode) (n k : Nat) (hl : n ≤ 2 ^ 38 - 128) : ∃ t : List Obs, ∀ key nonce data ad : Bytes,
    key.length = 32 → nonce.length = 12 → data.length = n → ad.length = k →
      ∃ refused : Bool, (Aead.decryptT m key nonce data ad).trace = t ++ [.branch refused] ∧ (refused = true ↔ Aead.decrypt m key nonce data ad = .err .BadRecordMac) := by
  by_cases h16 : n < Aead.MAC_LEN
  · refine ⟨[], fun key nonce data ad hk hn hd ha => ⟨true, ?_, fun _ => ?_, fun _ => rfl⟩⟩
    · subst hd
      unfold Aead.decryptT
      rw [decide_eq_true h16]
      rfl
    · subst hd
      rw [← Aead.decryptT_res]
      unfold Aead.decryptT
      rw [decide_eq_true h16]
      rfl
  · have open_ok : ∀ key nonce data ad : Bytes, key.length = 32 → nonce.length = 12 → data.length = n → ∃ v, (Aead.openT m key nonce data ad).res = .ok v := by
      intro key nonce data ad hk hn hd
      have hd' : (data.take (data.length - Aead.MAC_LEN)).length ≤ Aead.maxLen := by
        rw [List.length_take, hd]
        have : Aead.maxLen = 2 ^ 38 - 128 := rfl
        omega
      obtain ⟨s, s1, s2, h1, h2, h3, _⟩ := C35_counter_no_overflow m key nonce _ hk hn hd'
      simp only [Aead.openT, bind_res, ChaCha20.newT_res, h1, Res.bind_ok, ChaCha20.nextT_res, h2, Aead.computeMacT_res, Aead.computeMac_eq, ChaCha20.encryptT_res, h3,
        Aead.macDiffT_res, pure_res]
      exact ⟨_, rfl⟩
    refine ⟨.branch false :: (Aead.openT m (List.replicate 32 0) (List.replicate 12 0) (List.replicate n 0) (List.replicate k 0)).trace, fun key nonce data ad hk hn hd ha => ?_⟩
    obtain ⟨v, hv⟩ := open_ok key nonce data ad hk hn hd
    obtain ⟨w, hw⟩ := open_ok (List.replicate 32 0) (List.replicate 12 0) (List.replicate n 0) (List.replicate k 0) List.length_replicate List.length_replicate List.length_replicate
    have e := (Aead.openT_same m key nonce data ad _ _ _ _ (by simp [Int256.SameLen, hk]) (by simp [Int256.SameLen, hn]) (by simp [Int256.SameLen, hd]) (by simp [Int256.SameLen, ha]) v w hv hw).1
    have hlt : decide (data.length < Aead.MAC_LEN) = false := by simpa [hd] using h16
    refine ⟨v.2 != 0, ?_, ?_⟩
    · have : (Aead.decryptT m key nonce data ad).trace = .branch false :: ((Aead.openT m key nonce data ad).trace ++ [.branch (v.2 != 0)]) := by
        unfold Aead.decryptT
        rw [hlt, bind_trace_ok (a := false) _ rfl]
        refine congrArg (Obs.branch false :: ·) ?_
        show (Aead.openT m key nonce data ad >>= _).trace = _
        rw [bind_trace_ok _ hv]
        refine congrArg (_ ++ ·) ?_
        obtain ⟨plain, diff⟩ := v
        show (test (diff != 0) >>= _).trace = _
        cases diff != 0 <;> rfl
      rw [this, e]
      rfl
    · rw [← Aead.decryptT_res]
      unfold Aead.decryptT
      rw [hlt]
      simp only [bind_res, test_res, Res.bind_ok, Bool.false_eq_true, if_false, hv]
      cases v.2 != 0 <;> simp

/-- A genuine record and a forged one of the same lengths: the verdicts differ, all the rest is shared. -/
example : ∃ t c, Aead.encrypt .debug (List.replicate 32 1) (List.replicate 12 2) [3, 4, 5] [6] = .ok c ∧
    (Aead.decryptT .debug (List.replicate 32 1) (List.replicate 12 2) c [6]).trace = t ++ [.branch false] ∧
    ∀ c', c'.length = c.length → c' ≠ c → ∃ v, (Aead.decryptT .debug (List.replicate 32 1) (List.replicate 12 2) c' [6]).trace = t ++ [.branch v] := by
  obtain ⟨c, he, hl, hd⟩ := C37_roundtrip .debug .debug (List.replicate 32 1) (List.replicate 12 2) [3, 4, 5] [6] (by decide) (by decide) (by decide)
  obtain ⟨t, ht⟩ := C86_decrypt_shows_the_verdict .debug 19 1 (by decide)
  obtain ⟨v, hv, hr⟩ := ht (List.replicate 32 1) (List.replicate 12 2) c [6] (by decide) (by decide) hl rfl
  refine ⟨t, c, he, ?_, fun c' hl' _ => ?_⟩
  · cases v with
    | false => exact hv
    | true => rw [hr.mp rfl] at hd; cases hd
  · obtain ⟨w, hw, _⟩ := ht (List.replicate 32 1) (List.replicate 12 2) c' [6] (by decide) (by decide) (hl'.trans hl) rfl
    exact ⟨w, hw⟩

theorem C86_same_result (m : Mode) (key nonce data ad : Bytes) : (Aead.encryptT m key nonce data ad).res = Aead.encrypt m key nonce data ad ∧
    (Aead.decryptT m key nonce data ad).res = Aead.decrypt m key nonce data ad := ⟨Aead.encryptT_res m key nonce data ad, Aead.decryptT_res m key nonce data ad⟩

/-! ## C87 -/

/-- C87: SHA-256 shows the length of the message. -/
theorem C87_sha256_constant_time (m : Mode) (a b : Bytes) (ha : a.length < 2 ^ 61) (h : b.length = a.length) : (Sha2.sha256T m a).trace = (Sha2.sha256T m b).trace :=
  (Sha2.sha256T_same m a b h.symm _ _ ((Sha2.sha256T_res m a).trans (C40_sha256_eq m a ha)) ((Sha2.sha256T_res m b).trans (C40_sha256_eq m b (h ▸ ha)))).1

/-- C87: HMAC-SHA256 shows the lengths of the key and of the message. -/
theorem C87_hmac_constant_time (m : Mode) (k k' msg msg' : Bytes) (hk : k.length ≤ 64) (hm : msg.length < 2 ^ 60) (ek : k'.length = k.length) (em : msg'.length = msg.length) :
    (Prf.hmacSha256T m k msg).trace = (Prf.hmacSha256T m k' msg').trace :=
  (Prf.hmacSha256T_same m k msg k' msg' ek.symm em.symm _ _ ((Prf.hmacSha256T_res m k msg).trans (C41_hmac_is_rfc2104_partial m k msg hk hm))
    ((Prf.hmacSha256T_res m k' msg').trans (C41_hmac_is_rfc2104_partial m k' msg' (ek ▸ hk) (em ▸ hm)))).1

/-- A caller of the generator that asks for the given sizes in turn. -/
def getManyT (m : Mode) : List Nat → Prf.Prf → Tr (List Bytes)
  | [], _ => return []
  | n :: ns, p => do
    let r ← Prf.getBytesT m p n
    let rs ← getManyT m ns r.2
    return r.1 :: rs

theorem getManyT_res (m : Mode) (ns : List Nat) (p : Prf.Prf) : (getManyT m ns p).res = getMany m ns p := by
  induction ns generalizing p with
  | nil => rfl
  | cons n ns ih => simp only [getManyT, getMany, bind_res, Prf.getBytesT_res, ih, pure_res, Res.pure_def]

theorem getManyT_same (m : Mode) (ns : List Nat) (p p' : Prf.Prf) (h : Prf.SameSize p p') : Same Same.Any (getManyT m ns p) (getManyT m ns p') := by
  induction ns generalizing p p' with
  | nil => exact Same.pure trivial
  | cons n ns ih => exact Same.bind (Prf.getBytesT_same m p p' n h) fun a b hab => Same.bind (ih _ _ hab.2) fun _ _ _ => Same.pure trivial

/-- C87: the key derivation shows the lengths of the secret and of the seed and the sizes asked for. -/
theorem C87_prf_constant_time (m : Mode) (secret seed secret' seed' : Bytes) (sizes : List Nat) (hs : secret.length ≤ 64) (hd : seed.length < 2 ^ 59)
    (es : secret'.length = secret.length) (ed : seed'.length = seed.length) :
    (Prf.newT m secret seed >>= getManyT m sizes).trace = (Prf.newT m secret' seed' >>= getManyT m sizes).trace := by
  have key : ∀ s d : Bytes, s.length ≤ 64 → d.length < 2 ^ 59 → ∃ rs, (Prf.newT m s d >>= getManyT m sizes).res = .ok rs := by
    intro s d hs hd
    obtain ⟨rs, h, _⟩ := C42_prf_stream m s d hs hd sizes
    refine ⟨rs, ?_⟩
    rw [← h, bind_res, Prf.newT_res]
    congr 1
    exact funext fun p => getManyT_res m sizes p
  obtain ⟨r, hr⟩ := key secret seed hs hd
  obtain ⟨r', hr'⟩ := key secret' seed' (es ▸ hs) (ed ▸ hd)
  exact (Same.bind (Prf.newT_same m _ _ _ _ es.symm ed.symm) (fun p p' h => getManyT_same m sizes p p' h) r r' hr hr').1

theorem C87_same_result (m : Mode) (key msg : Bytes) (ns : List Nat) : (Sha2.sha256T m msg).res = Sha2.sha256 m msg ∧ (Prf.hmacSha256T m key msg).res = Prf.hmacSha256 m key msg ∧
    (Prf.newT m key msg >>= getManyT m ns).res = (Prf.new m key msg >>= getMany m ns) := by
  refine ⟨Sha2.sha256T_res m msg, Prf.hmacSha256T_res m key msg, ?_⟩
  rw [bind_res, Prf.newT_res]
  congr 1
  exact funext fun p => getManyT_res m ns p

/-- The lengths of the handshake: a master secret, its seed and the sizes of the key block. -/
example : (List.replicate 48 (1 : UInt8)).length ≤ 64 ∧ (List.replicate 77 (2 : UInt8)).length < 2 ^ 59 ∧ (List.replicate 48 (7 : UInt8)).length = (List.replicate 48 (1 : UInt8)).length := by
  decide +kernel

/-! ## C88 -/

/-- C88: drawing the scalar shows the number of candidates that were rejected, and nothing about the scalar; both build modes. -/
theorem C88_random_scalar (m : Mode) (r r' s s' : Rng) (x x' : Int256) (h : (Ecdhe.getRandomX m).run r = (.ok x, s)) (h' : (Ecdhe.getRandomX m).run r' = (.ok x', s'))
    (e : r.bytes.length - s.bytes.length = r'.bytes.length - s'.bytes.length) : (Ecdhe.getRandomXT m r).trace = (Ecdhe.getRandomXT m r').trace :=
  Ecdhe.randomLoopT_same _ _ _ r r' (x, s) (x', s') ((Ecdhe.getRandomXT_res _ _).trans (by rw [h]; rfl)) ((Ecdhe.getRandomXT_res _ _).trans (by rw [h']; rfl)) e

/-- C88 in terms of the source: two sources with the same number of candidates that are not below p before the first one that is. -/
theorem C88_rejections (m : Mode) (blocks blocks' : List Bytes) (block block' rest rest' : Bytes) (hb : ∀ b ∈ blocks, b.length = 32 ∧ Spec.P256.p ≤ leNat b)
    (hb' : ∀ b ∈ blocks', b.length = 32 ∧ Spec.P256.p ≤ leNat b) (hl : block.length = 32) (hl' : block'.length = 32) (hlt : leNat block < Spec.P256.p) (hlt' : leNat block' < Spec.P256.p)
    (e : blocks.length = blocks'.length) :
    (Ecdhe.getRandomXT m { bytes := blocks.flatten ++ block ++ rest }).trace = (Ecdhe.getRandomXT m { bytes := blocks'.flatten ++ block' ++ rest' }).trace := by
  obtain ⟨x, _, h⟩ := C55_first_below_p m blocks block rest hb hl hlt
  obtain ⟨x', _, h'⟩ := C55_first_below_p m blocks' block' rest' hb' hl' hlt'
  have len : ∀ bs : List Bytes, (∀ b ∈ bs, b.length = 32 ∧ Spec.P256.p ≤ leNat b) → bs.flatten.length = 32 * bs.length := by
    intro bs h
    induction bs with
    | nil => rfl
    | cons b bs ih =>
      have := (h b (List.mem_cons_self ..)).1
      rw [List.flatten_cons, List.length_append, ih fun c hc => h c (List.mem_cons_of_mem _ hc), List.length_cons]
      omega
  refine C88_random_scalar m _ _ _ _ x x' h h' ?_
  simp only [List.length_append, len blocks hb, len blocks' hb', hl, hl', e]
  omega

/-- A source with one candidate too large and then 5, another with one too large and then 7. -/
example : (Ecdhe.getRandomXT .release { bytes := [List.replicate 32 255].flatten ++ (5 :: List.replicate 31 0) ++ [1, 2] }).trace =
    (Ecdhe.getRandomXT .release { bytes := [List.replicate 28 254 ++ List.replicate 4 255].flatten ++ (7 :: List.replicate 31 0) ++ [] }).trace := by
  refine C88_rejections .release [List.replicate 32 255] [List.replicate 28 254 ++ List.replicate 4 255] (5 :: List.replicate 31 0) (7 :: List.replicate 31 0) [1, 2] [] ?_ ?_ rfl rfl (by decide) (by decide) rfl
  · intro b hb
    rw [List.mem_singleton.mp hb]
    exact ⟨rfl, by decide⟩
  · intro b hb
    rw [List.mem_singleton.mp hb]
    exact ⟨rfl, by decide⟩

theorem draw_then_keys {X X' : Tr (Int256 × Rng)} {K : Int256 → Tr (Bytes × Bytes)} {k k' : Bytes × Bytes} {r r' s s' : Rng} (hk : ∀ x x', (K x).trace = (K x').trace)
    (hx : ∀ a b, X.res = .ok a → X'.res = .ok b → r.bytes.length - a.2.bytes.length = r'.bytes.length - b.2.bytes.length → X.trace = X'.trace)
    (h : (X >>= fun a => K a.1 >>= fun k => pure (k, a.2)).res = .ok (k, s)) (h' : (X' >>= fun a => K a.1 >>= fun k => pure (k, a.2)).res = .ok (k', s'))
    (e : r.bytes.length - s.bytes.length = r'.bytes.length - s'.bytes.length) :
    (X >>= fun a => K a.1 >>= fun k => pure (k, a.2)).trace = (X' >>= fun a => K a.1 >>= fun k => pure (k, a.2)).trace := by
  rw [bind_res] at h h'
  obtain ⟨a, e3, h⟩ := Res.bind_eq_ok.mp h
  obtain ⟨b, e3', h'⟩ := Res.bind_eq_ok.mp h'
  rw [bind_res] at h h'
  obtain ⟨q, e4, h⟩ := Res.bind_eq_ok.mp h
  obtain ⟨q', e4', h'⟩ := Res.bind_eq_ok.mp h'
  cases h
  cases h'
  rw [bind_trace_ok _ e3, bind_trace_ok _ e3', hx a b e3 e3' e, bind_trace_ok _ e4, bind_trace_ok _ e4', hk a.1 b.1, pure_trace, pure_trace]

/-- C88 (release builds): the whole of `compute_keys` on one message of the server, with two sources of randomness. -/
theorem C88_compute_keys_partial (data : Bytes) (r r' s s' : Rng) (k k' : Bytes × Bytes) (h : (Ecdhe.computeKeys .release data).run r = (.ok k, s))
    (h' : (Ecdhe.computeKeys .release data).run r' = (.ok k', s')) (e : r.bytes.length - s.bytes.length = r'.bytes.length - s'.bytes.length) :
    (Ecdhe.computeKeysT .release data r).trace = (Ecdhe.computeKeysT .release data r').trace := by
  have h := (Ecdhe.computeKeysT_res .release data r).trans (by rw [h]; rfl : _ = Res.ok (k, s))
  have h' := (Ecdhe.computeKeysT_res .release data r').trans (by rw [h']; rfl : _ = Res.ok (k', s'))
  unfold Ecdhe.computeKeysT at h h' ⊢
  rw [bind_res] at h h'
  obtain ⟨ps, e1, h⟩ := Res.bind_eq_ok.mp h
  obtain ⟨ps', e1', h'⟩ := Res.bind_eq_ok.mp h'
  cases Res.ok.inj (e1.symm.trans e1')
  rw [bind_trace_ok _ e1, bind_trace_ok _ e1]
  congr 1
  rw [bind_res] at h h'
  obtain ⟨gy, e2, h⟩ := Res.bind_eq_ok.mp h
  obtain ⟨gy', e2', h'⟩ := Res.bind_eq_ok.mp h'
  cases Res.ok.inj (e2.symm.trans e2')
  rw [bind_trace_ok _ e2, bind_trace_ok _ e2]
  congr 1
  cases gy with
  | none => cases h
  | some gy =>
    exact draw_then_keys (fun x x' => C85_release_partial gy gy x x') (fun a b ha hb hab => Ecdhe.randomLoopT_same _ _ _ r r' a b ha hb hab) h h' e

theorem C88_same_result (m : Mode) (data : Bytes) (r : Rng) : (Ecdhe.getRandomXT m r).res = Ecdhe.joint ((Ecdhe.getRandomX m).run r) ∧
    (Ecdhe.computeKeysT m data r).res = Ecdhe.joint ((Ecdhe.computeKeys m data).run r) := ⟨Ecdhe.getRandomXT_res m r, Ecdhe.computeKeysT_res m data r⟩

/-- The sources whose first 32 bytes are the little-endian number `n`. -/
def firstIs (n : UInt8) (rest : Bytes) : Rng := { bytes := (n :: List.replicate 31 0) ++ rest }

theorem draws (m : Mode) (rest : Bytes) : (Ecdhe.getRandomX m).run (firstIs 1 rest) = (.ok Point256.one, { bytes := rest }) ∧
    (Ecdhe.getRandomX m).run (firstIs 2 rest) = (.ok Point256.two, { bytes := rest }) := by
  obtain ⟨x, hx, h⟩ := C55_first_below_p m [] (1 :: List.replicate 31 0) rest (by simp) rfl (by decide)
  obtain ⟨y, hy, h'⟩ := C55_first_below_p m [] (2 :: List.replicate 31 0) rest (by simp) rfl (by decide)
  rw [Int256.val_inj (show x.val = Point256.one.val from hx)] at h
  rw [Int256.val_inj (show y.val = Point256.two.val from hy)] at h'
  exact ⟨h, h'⟩

theorem draw_then_differ {X X' : Tr (Int256 × Rng)} {K : Int256 → Tr (Bytes × Bytes)} {a b : Int256 × Rng} (ha : X.res = .ok a) (hb : X'.res = .ok b) (e : X.trace = X'.trace)
    (hk : diffB (K a.1).trace (K b.1).trace = true) :
    diffB (X >>= fun a => K a.1 >>= fun k => pure (k, a.2)).trace (X' >>= fun a => K a.1 >>= fun k => pure (k, a.2)).trace = true :=
  diffB_bind_right _ _ ha hb e (diffB_bind_left _ _ hk)

theorem keys_differ (gy : NPoint256) : diffB (Ecdhe.keysFromT .debug gy.toPoint Point256.one).trace (Ecdhe.keysFromT .debug gy.toPoint Point256.two).trace = true :=
  diffB_bind_left _ _ Point256.multScalar_differs

theorem computeKeys_differs (data rest rest' : Bytes) (k : Bytes × Bytes) (s : Rng) (h : (Ecdhe.computeKeys .debug data).run (firstIs 1 rest) = (.ok k, s)) :
    diffB (Ecdhe.computeKeysT .debug data (firstIs 1 rest)).trace (Ecdhe.computeKeysT .debug data (firstIs 2 rest')).trace = true := by
  obtain ⟨ps, more, q, x, h1, h2, _, _⟩ := computeKeys_ok h
  have d : (Ecdhe.getRandomXT .debug (firstIs 1 rest)).res = .ok (Point256.one, { bytes := rest }) := by
    rw [Ecdhe.getRandomXT_res, (draws .debug rest).1]
    rfl
  have d' : (Ecdhe.getRandomXT .debug (firstIs 2 rest')).res = .ok (Point256.two, { bytes := rest' }) := by
    rw [Ecdhe.getRandomXT_res, (draws .debug rest').2]
    rfl
  have e : (Ecdhe.getRandomXT .debug (firstIs 1 rest)).trace = (Ecdhe.getRandomXT .debug (firstIs 2 rest')).trace :=
    C88_rejections .debug [] [] (1 :: List.replicate 31 0) (2 :: List.replicate 31 0) rest rest' (by simp) (by simp) rfl rfl (by decide) (by decide) rfl
  have p1 : (Tr.lift ((TlsItem.read (α := EcdheServerKeyExchange)).run data).1).res = .ok ps := by rw [lift_res, h1]
  have p2 : (Tr.lift (NPoint256.fromUncompressedBytes .debug ps.params.pub.items)).res = .ok (some q) := h2
  unfold Ecdhe.computeKeysT
  rw [bind_trace_ok _ p1, bind_trace_ok _ p1]
  refine diffB_prefix _ _ _ ?_
  rw [bind_trace_ok _ p2, bind_trace_ok _ p2]
  refine diffB_prefix _ _ _ ?_
  exact draw_then_differ d d' e (keys_differ q)

/-- In debug builds `compute_keys` as a whole tells the scalars 1 and 2 apart, for every message it accepts, although no candidate is rejected in either run. -/
theorem C88_debug_leaks (data rest rest' : Bytes) (k : Bytes × Bytes) (s : Rng) (h : (Ecdhe.computeKeys .debug data).run (firstIs 1 rest) = (.ok k, s)) :
    (Ecdhe.computeKeysT .debug data (firstIs 1 rest)).trace ≠ (Ecdhe.computeKeysT .debug data (firstIs 2 rest')).trace :=
  diffB_ne _ _ (computeKeys_differs data rest rest' k s h)

/-- A message that is accepted. -/
example : ∃ k s, (Ecdhe.computeKeys .debug (serverKeyExchangeBytes .secp256r1 (Spec.P256.encode (1 • Spec.P256.G)))).run (firstIs 1 []) = (.ok k, s) := by
  have hr := serverKeyExchange_read .secp256r1 (Spec.P256.encode (1 • Spec.P256.G)) [] (Ecdhe.encode_length _)
  rw [List.append_nil] at hr
  exact ⟨_, _, C52_keys .debug _ _ _ (1 • Spec.P256.G) (by rw [one_nsmul]; exact Spec.P256.G_ne_zero) hr rfl _ _ _ (draws .debug []).1⟩

end Husk
