import Verif.Proofs.TraceSym
import Verif.Proofs.TraceP256Same
/-! The observations of `crypto_compare`, the AEAD, SHA-256, HMAC and the PRF depend on lengths only, in both build modes. -/

namespace Husk

open Tr Tr.Same
open Int256 (SameLen)

/-- A conditional on a test that comes out the same. -/
theorem Tr.Same.ite {R : α → β → Prop} {b b' : Bool} {x y : Tr α} {x' y' : Tr β} (h : b = b') (hx : b = true → Same R x x') (hy : b = false → Same R y y') :
    Same R (Tr.test b >>= fun c => if c = true then x else y) (Tr.test b' >>= fun c => if c = true then x' else y') := by
  subst h
  cases b
  · exact Same.bind (R := fun c c' => c = false ∧ c' = false) (fun c c' hc hc' => ⟨rfl, (Res.ok.inj hc).symm, (Res.ok.inj hc').symm⟩) fun c c' e => by
      rw [e.1, e.2]; exact hy rfl
  · exact Same.bind (R := fun c c' => c = true ∧ c' = true) (fun c c' hc hc' => ⟨rfl, (Res.ok.inj hc).symm, (Res.ok.inj hc').symm⟩) fun c c' e => by
      rw [e.1, e.2]; exact hx rfl

theorem Tr.Same.stop {R : α → β → Prop} {y : Tr β} {r : Res α} (h : ∀ a, r ≠ .ok a) : Same R (Tr.lift r) y := fun a _ ha _ => absurd ha (h a)

theorem chunksAux_lens (n : Nat) (f : Nat) (a b : Bytes) (h : SameLen a b) : (chunksAux n f a).map List.length = (chunksAux n f b).map List.length := by
  induction f generalizing a b with
  | zero => rfl
  | succ f ih =>
    cases a with
    | nil =>
      cases b with
      | nil => rfl
      | cons => simp [SameLen] at h
    | cons x a =>
      cases b with
      | nil => simp [SameLen] at h
      | cons y b =>
        simp only [chunksAux, List.map_cons, List.length_take]
        rw [ih ((x :: a).drop n) ((y :: b).drop n) (by simp only [SameLen, List.length_drop] at *; rw [h]), show (x :: a).length = (y :: b).length from h]

theorem chunks_lens (n : Nat) (a b : Bytes) (h : SameLen a b) : (chunks n a).map List.length = (chunks n b).map List.length := by
  unfold chunks
  rw [show a.length = b.length from h]
  exact chunksAux_lens n _ a b h

namespace Util

theorem debugAssertT_same (m : Mode) (b b' : Bool) (h : b = b') : Same Any (debugAssertT m b) (debugAssertT m b') := by
  subst h
  intro _ _ _ _
  exact ⟨rfl, trivial⟩

theorem diffLoopT_same (i : Nat) (a b a' b' : Bytes) (d d' : UInt8) (h : SameLen a a') (h' : SameLen b b') : Same Any (diffLoopT i a b d) (diffLoopT i a' b' d') := by
  induction a generalizing i b a' b' d d' with
  | nil =>
    cases a' with
    | nil => exact Same.bind (Same.see _) fun _ _ _ => Same.pure trivial
    | cons => simp [SameLen] at h
  | cons x a ih =>
    cases a' with
    | nil => simp [SameLen] at h
    | cons x' a' =>
      cases b with
      | nil =>
        cases b' with
        | nil => exact Same.bind (Same.see _) fun _ _ _ => Same.bind (Same.see _) fun _ _ _ => Same.bind (Same.see _) fun _ _ _ => Same.stop (by simp)
        | cons => simp [SameLen] at h'
      | cons y b =>
        cases b' with
        | nil => simp [SameLen] at h'
        | cons y' b' =>
          exact Same.bind (Same.see _) fun _ _ _ => Same.bind (Same.see _) fun _ _ _ => Same.bind (Same.see _) fun _ _ _ =>
            ih _ _ _ _ _ _ (Nat.succ.inj h) (Nat.succ.inj h')

theorem cryptoCompareT_same (m : Mode) (a b a' b' : Bytes) (h : SameLen a a') (h' : SameLen b b') : Same Any (cryptoCompareT m a b) (cryptoCompareT m a' b') :=
  Same.bind (debugAssertT_same _ _ _ (by simp only [SameLen] at *; rw [h, h'])) fun _ _ _ => Same.bind (diffLoopT_same _ _ _ _ _ _ _ h h') fun _ _ _ => Same.pure trivial

end Util

namespace ChaCha20

/-- States of the same size. -/
abbrev SameSize (s s' : ChaCha20) : Prop := SameLen s.vals s'.vals

theorem readLE_length (a b : Bytes) (h : SameLen a b) : (readU32sLE a).length = (readU32sLE b).length := by
  have := congrArg List.length (chunks_lens 4 a b h)
  simpa [readU32sLE] using this

theorem newT_same (key nonce key' nonce' : Bytes) (hk : SameLen key key') (hn : SameLen nonce nonce') : Same SameSize (newT key nonce) (newT key' nonce') := by
  refine Same.ite (by rw [show key.length = key'.length from hk]) (fun _ => ?_) fun _ => Same.stop (by simp)
  refine Same.ite (by rw [show nonce.length = nonce'.length from hn]) (fun _ => ?_) fun _ => Same.stop (by simp)
  refine Same.bind (Same.see_eq (congrArg _ hk)) fun _ _ _ => Same.bind (Same.see_eq (congrArg _ hn)) fun _ _ _ => Same.lift_of ?_
  intro a b ha hb
  unfold new at ha hb
  split at ha
  · cases ha
  split at ha
  · cases ha
  split at hb
  · cases hb
  split at hb
  · cases hb
  cases ha
  cases hb
  simp only [SameSize, SameLen, List.length_append, readLE_length _ _ hk, readLE_length _ _ hn, List.length_cons]

theorem doubleRound_length (v : List UInt32) : (doubleRound v).length = v.length := by simp [doubleRound, quarterRound]

theorem roundsT_same (n : Nat) (v v' : List UInt32) (h : SameLen v v') : Same SameLen (roundsT n v) (roundsT n v') := by
  induction n generalizing v v' with
  | zero => exact Same.bind (Same.see _) fun _ _ _ => Same.pure h
  | succ n ih => exact Same.bind (Same.see _) fun _ _ _ => ih _ _ (by simp only [SameLen, doubleRound_length]; exact h)

theorem addWordsT_same (i : Nat) (a b a' b' : List UInt32) (h : SameLen a a') (h' : SameLen b b') : Same SameLen (addWordsT i a b) (addWordsT i a' b') := by
  induction a generalizing i b a' b' with
  | nil =>
    cases a' with
    | nil => cases b <;> cases b' <;> exact Same.bind (Same.see _) fun _ _ _ => Same.pure rfl
    | cons => simp [SameLen] at h
  | cons x a ih =>
    cases a' with
    | nil => simp [SameLen] at h
    | cons x' a' =>
      cases b with
      | nil =>
        cases b' with
        | nil => exact Same.bind (Same.see _) fun _ _ _ => Same.pure rfl
        | cons => simp [SameLen] at h'
      | cons y b =>
        cases b' with
        | nil => simp [SameLen] at h'
        | cons y' b' =>
          exact Same.bind (Same.see _) fun _ _ _ => Same.bind (Same.see _) fun _ _ _ => Same.bind (Same.see _) fun _ _ _ => Same.bind (Same.see _) fun _ _ _ =>
            Same.bind (ih _ _ _ _ (Nat.succ.inj h) (Nat.succ.inj h')) fun _ _ h => Same.pure (congrArg (· + 1) h)

theorem round20T_same (s s' : ChaCha20) (h : SameSize s s') : Same SameLen (round20T s) (round20T s') :=
  Same.bind (roundsT_same _ _ _ h) fun _ _ hv => addWordsT_same _ _ _ _ _ hv h

theorem writeLE_length (v : List UInt32) : (writeU32sLE v).length = 4 * v.length := by
  induction v with
  | nil => rfl
  | cons x v ih =>
    simp only [writeU32sLE, List.flatMap_cons, List.length_append, leBytes_length, List.length_cons] at *
    omega

theorem nextT_same (m : Mode) (s s' : ChaCha20) (h : SameSize s s') : Same (fun a b => SameLen a.1 b.1 ∧ SameSize a.2 b.2) (nextT m s) (nextT m s') := by
  refine Same.bind (round20T_same _ _ h) fun _ _ hb => Same.bind (Same.lift _ _) fun _ _ _ => Same.pure ⟨?_, ?_⟩
  · simp only [SameLen, writeLE_length] at *
    rw [hb]
  · simpa only [SameSize, SameLen, List.length_set] using h

theorem xorBytesT_same (a b a' b' : Bytes) (h : SameLen a a') (h' : SameLen b b') : Same SameLen (xorBytesT a b) (xorBytesT a' b') := by
  induction a generalizing b a' b' with
  | nil =>
    cases a' with
    | nil => cases b <;> cases b' <;> exact Same.bind (Same.see _) fun _ _ _ => Same.pure rfl
    | cons => simp [SameLen] at h
  | cons x a ih =>
    cases a' with
    | nil => simp [SameLen] at h
    | cons x' a' =>
      cases b with
      | nil =>
        cases b' with
        | nil => exact Same.bind (Same.see _) fun _ _ _ => Same.pure rfl
        | cons => simp [SameLen] at h'
      | cons y b =>
        cases b' with
        | nil => simp [SameLen] at h'
        | cons y' b' =>
          exact Same.bind (Same.see _) fun _ _ _ => Same.bind (ih _ _ _ (Nat.succ.inj h) (Nat.succ.inj h')) fun _ _ h => Same.pure (congrArg (· + 1) h)

theorem encryptChunksT_same (m : Mode) (cs cs' : List Bytes) (s s' : ChaCha20) (hc : cs.map List.length = cs'.map List.length) (h : SameSize s s') :
    Same (fun a b => SameLen a.1 b.1) (encryptChunksT m cs s) (encryptChunksT m cs' s') := by
  induction cs generalizing cs' s s' with
  | nil =>
    cases cs' with
    | nil => exact Same.bind (Same.see _) fun _ _ _ => Same.pure rfl
    | cons => simp at hc
  | cons c cs ih =>
    cases cs' with
    | nil => simp at hc
    | cons c' cs' =>
      simp only [List.map_cons, List.cons.injEq] at hc
      refine Same.bind (Same.see _) fun _ _ _ => Same.bind (nextT_same m _ _ h) fun a b hab => Same.bind (xorBytesT_same _ _ _ _ hab.1 hc.1) fun x x' hx =>
        Same.bind (Same.see_eq (congrArg _ hx)) fun _ _ _ => Same.bind (ih _ _ _ hc.2 hab.2) fun r r' hr => Same.pure ?_
      simp only [SameLen, List.length_append] at *
      rw [hx, hr]

theorem encryptT_same (m : Mode) (s s' : ChaCha20) (d d' : Bytes) (hd : SameLen d d') (h : SameSize s s') :
    Same (fun a b => SameLen a.1 b.1) (encryptT m s d) (encryptT m s' d') :=
  Same.bind (Same.see_eq (congrArg _ hd)) fun _ _ _ => encryptChunksT_same _ _ _ _ _ (chunks_lens _ _ _ hd) h

end ChaCha20

namespace Poly1305

theorem computeBlockT_same (m : Mode) (st st' : State) (b b' : Bytes) (p : Bool) : Same Any (computeBlockT m st b p) (computeBlockT m st' b' p) :=
  Same.bind (Same.test rfl) fun _ _ _ => Same.lift _ _

theorem absorbT_same (m : Mode) (st st' : State) (b b' : Bytes) (h : SameLen b b') : Same Any (absorbT m st b) (absorbT m st' b') := by
  refine Same.ite (by rw [show b.length = b'.length from h]) (fun _ => computeBlockT_same _ _ _ _ _ _) fun _ => ?_
  exact Same.bind (Same.see_eq (congrArg _ h)) fun _ _ _ => Same.bind (Same.see_eq (congrArg _ h)) fun _ _ _ => computeBlockT_same _ _ _ _ _ _

theorem absorbAllT_same (m : Mode) (bs bs' : List Bytes) (st st' : State) (h : bs.map List.length = bs'.map List.length) :
    Same Any (absorbAllT m bs st) (absorbAllT m bs' st') := by
  induction bs generalizing bs' st st' with
  | nil =>
    cases bs' with
    | nil => exact Same.bind (Same.see _) fun _ _ _ => Same.pure trivial
    | cons => simp at h
  | cons b bs ih =>
    cases bs' with
    | nil => simp at h
    | cons b' bs' =>
      simp only [List.map_cons, List.cons.injEq] at h
      exact Same.bind (Same.see _) fun _ _ _ => Same.bind (absorbT_same _ _ _ _ _ h.1) fun _ _ _ => ih _ _ _ h.2

theorem finalize_length {m : Mode} {st : State} {b : Bytes} (h : finalize m st = .ok b) : b.length = 16 := by
  simp only [finalize, Res.bind_eq_ok] at h
  obtain ⟨_, _, _, _, _, _, _, _, _, _, _, _, _, _, _, _, _, _, _, _, _, _, _, _, _, _, h⟩ := h
  cases h
  simp only [List.length_append, leBytes_length]

theorem authenticateT_same (m : Mode) (msg msg' r r' s s' : Bytes) (h : SameLen msg msg') : Same SameLen (authenticateT m msg r s) (authenticateT m msg' r' s') :=
  Same.bind (absorbAllT_same _ _ _ _ _ (chunks_lens _ _ _ h)) fun _ _ _ => Same.lift_of fun _ _ ha hb => (finalize_length ha).trans (finalize_length hb).symm

end Poly1305

namespace Aead

theorem paddingT_same (p p' : Bytes) (h : SameLen p p') : Same SameLen (paddingT p) (paddingT p') := by
  have e : 16 - p.length % 16 = 16 - p'.length % 16 := by rw [show p.length = p'.length from h]
  refine Same.ite (by rw [e]) (fun _ => ?_) fun _ => Same.pure rfl
  exact Same.bind (Same.see_eq (congrArg _ e)) fun _ _ _ => Same.pure (by simp only [SameLen, List.length_replicate]; exact e)

theorem macInputT_same (e ad e' ad' : Bytes) (he : SameLen e e') (ha : SameLen ad ad') : Same SameLen (macInputT e ad) (macInputT e' ad') := by
  refine Same.bind (Same.see_eq (congrArg _ ha)) fun _ _ _ => Same.bind (paddingT_same _ _ ha) fun p p' hp => Same.bind (Same.see_eq (congrArg _ he)) fun _ _ _ =>
    Same.bind (paddingT_same _ _ he) fun q q' hq => Same.bind (Same.see _) fun _ _ _ => Same.bind (Same.see _) fun _ _ _ => Same.pure ?_
  simp only [SameLen, List.length_append, leBytes_length] at *
  rw [he, ha, hp, hq]

theorem computeMacT_same (m : Mode) (k k' e ad e' ad' : Bytes) (he : SameLen e e') (ha : SameLen ad ad') : Same SameLen (computeMacT m k e ad) (computeMacT m k' e' ad') :=
  Same.bind (macInputT_same _ _ _ _ he ha) fun _ _ h => Same.bind (Same.see _) fun _ _ _ => Same.bind (Same.see _) fun _ _ _ => Poly1305.authenticateT_same _ _ _ _ _ _ _ h

theorem encryptT_same (m : Mode) (key nonce data ad key' nonce' data' ad' : Bytes) (hk : SameLen key key') (hn : SameLen nonce nonce') (hd : SameLen data data')
    (ha : SameLen ad ad') : Same SameLen (encryptT m key nonce data ad) (encryptT m key' nonce' data' ad') := by
  refine Same.bind (ChaCha20.newT_same _ _ _ _ hk hn) fun c c' hc => Same.bind (ChaCha20.nextT_same m _ _ hc) fun a b hab => Same.bind (ChaCha20.encryptT_same m _ _ _ _ hd hab.2) fun e e' he =>
    Same.bind (computeMacT_same m _ _ _ _ _ _ he ha) fun t t' ht => Same.bind (Same.see_eq (congrArg _ ht)) fun _ _ _ => Same.pure ?_
  simp only [SameLen, List.length_append] at *
  rw [he, ht]

theorem macDiffT_same (i : Nat) (a b a' b' : Bytes) (d d' : UInt8) (h : SameLen a a') (h' : SameLen b b') : Same Any (macDiffT i a b d) (macDiffT i a' b' d') := by
  induction a generalizing i b a' b' d d' with
  | nil =>
    cases a' with
    | nil => cases b <;> cases b' <;> exact Same.bind (Same.see _) fun _ _ _ => Same.pure trivial
    | cons => simp [SameLen] at h
  | cons x a ih =>
    cases a' with
    | nil => simp [SameLen] at h
    | cons x' a' =>
      cases b with
      | nil =>
        cases b' with
        | nil => exact Same.bind (Same.see _) fun _ _ _ => Same.pure trivial
        | cons => simp [SameLen] at h'
      | cons y b =>
        cases b' with
        | nil => simp [SameLen] at h'
        | cons y' b' =>
          exact Same.bind (Same.see _) fun _ _ _ => Same.bind (Same.see _) fun _ _ _ => Same.bind (Same.see _) fun _ _ _ => ih _ _ _ _ _ _ (Nat.succ.inj h) (Nat.succ.inj h')

theorem openT_same (m : Mode) (key nonce data ad key' nonce' data' ad' : Bytes) (hk : SameLen key key') (hn : SameLen nonce nonce') (hd : SameLen data data')
    (ha : SameLen ad ad') : Same Any (openT m key nonce data ad) (openT m key' nonce' data' ad') := by
  have h1 : SameLen (data.take (data.length - MAC_LEN)) (data'.take (data'.length - MAC_LEN)) := by simp only [SameLen, List.length_take] at *; rw [hd]
  have h2 : SameLen (data.drop (data.length - MAC_LEN)) (data'.drop (data'.length - MAC_LEN)) := by simp only [SameLen, List.length_drop] at *; rw [hd]
  exact Same.bind (ChaCha20.newT_same _ _ _ _ hk hn) fun c c' hc => Same.bind (ChaCha20.nextT_same m _ _ hc) fun a b hab => Same.bind (computeMacT_same m _ _ _ _ _ _ h1 ha) fun t t' ht =>
    Same.bind (ChaCha20.encryptT_same m _ _ _ _ h1 hab.2) fun _ _ _ => Same.bind (macDiffT_same _ _ _ _ _ _ _ ht h2) fun _ _ _ => Same.pure trivial

end Aead

namespace Sha2

theorem writeBE_length (v : List UInt32) : (writeU32sBE v).length = 4 * v.length := by
  induction v with
  | nil => rfl
  | cons x v ih =>
    simp only [writeU32sBE, List.flatMap_cons, List.length_append, List.length_cons] at *
    rw [ih, show (beBytes 4 x.toNat).length = 4 by simp [beBytes]]
    omega

theorem pad_length {m : Mode} {msg p : Bytes} (h : pad m msg = .ok p) : p.length = msg.length + 1 + paddingLen msg.length + 8 := by
  simp only [pad, Res.bind_eq_ok] at h
  obtain ⟨_, _, _, _, h⟩ := h
  cases h
  simp only [List.length_append, List.length_replicate, List.length_map, List.length_cons, List.length_nil]

theorem padT_same (m : Mode) (a b : Bytes) (h : SameLen a b) : Same SameLen (padT m a) (padT m b) := by
  unfold padT
  rw [show a.length = b.length from h]
  refine Same.bind (Same.see _) fun _ _ _ => Same.bind (Same.see _) fun _ _ _ => Same.bind (Same.forEach (R := Any) (fun _ _ _ _ => Same.see _) _ trivial) fun _ _ _ =>
    Same.bind (Same.forEach (R := Any) (fun _ _ _ _ => Same.see _) _ trivial) fun _ _ _ =>
    Same.bind (R := SameLen) (Same.lift_of fun p q hp hq => ?_) fun p q hpq => ?_
  · simp only [SameLen] at *
    rw [pad_length hp, pad_length hq, h]
  · cases m
    · exact Same.bind (Same.see _) fun _ _ _ => Same.pure hpq
    · exact Same.pure hpq

theorem scheduleT_same (b b' : Bytes) : Same Any (scheduleT b) (scheduleT b') := by
  refine Same.forEach (R := Any) (fun j s t _ => ?_) _ trivial
  exact Same.bind (Same.see _) fun _ _ _ => Same.bind (Same.see _) fun _ _ _ => Same.bind (Same.see _) fun _ _ _ => Same.bind (Same.see _) fun _ _ _ =>
    Same.bind (Same.see _) fun _ _ _ => Same.pure trivial

theorem blockT_same (v v' : List UInt32) (b b' : Bytes) (h : SameLen b b') : Same SameLen (blockT v b) (blockT v' b') := by
  refine Same.bind (Same.see_eq (congrArg _ h)) fun _ _ _ => Same.bind (scheduleT_same _ _) fun w w' _ => Same.bind (R := Any) ?_ fun _ _ _ => Same.pure rfl
  refine Same.forEach (R := Any) (fun j s t _ => ?_) _ trivial
  exact Same.bind (Same.see _) fun _ _ _ => Same.bind (Same.see _) fun _ _ _ => Same.pure trivial

theorem sha256T_same (m : Mode) (a b : Bytes) (h : SameLen a b) : Same SameLen (sha256T m a) (sha256T m b) := by
  refine Same.bind (padT_same m a b h) fun p q hpq => ?_
  rw [show p.length = q.length from hpq]
  refine Same.bind (R := SameLen) ?_ fun v w hvw => Same.pure ?_
  · refine Same.forEach (R := SameLen) (fun i s t _ => ?_) _ rfl
    refine Same.bind (Same.see _) fun _ _ _ => blockT_same _ _ _ _ ?_
    simp only [SameLen, List.length_take, List.length_drop] at *
    rw [hpq]
  · simp only [SameLen, writeBE_length] at *
    rw [hvw]

end Sha2

namespace Prf

open Sha2

theorem xorPadsT_same (i : Nat) (k k' : Bytes) (h : SameLen k k') : Same (fun a b => SameLen a.1 b.1 ∧ SameLen a.2 b.2) (xorPadsT i k) (xorPadsT i k') := by
  induction k generalizing i k' with
  | nil =>
    cases k' with
    | nil => exact Same.bind (Same.see _) fun _ _ _ => Same.pure ⟨rfl, rfl⟩
    | cons => simp [SameLen] at h
  | cons x k ih =>
    cases k' with
    | nil => simp [SameLen] at h
    | cons x' k' =>
      exact Same.bind (Same.see _) fun _ _ _ => Same.bind (Same.see _) fun _ _ _ => Same.bind (Same.see _) fun _ _ _ => Same.bind (Same.see _) fun _ _ _ => Same.bind (Same.see _) fun _ _ _ =>
        Same.bind (ih _ _ (Nat.succ.inj h)) fun _ _ h => Same.pure ⟨congrArg (· + 1) h.1, congrArg (· + 1) h.2⟩

theorem hmacSha256T_same (m : Mode) (k msg k' msg' : Bytes) (hk : SameLen k k') (hm : SameLen msg msg') : Same SameLen (hmacSha256T m k msg) (hmacSha256T m k' msg') := by
  refine Same.ite (by rw [show k.length = k'.length from hk]) (fun _ => Same.stop (by simp)) fun _ => ?_
  refine Same.bind (Same.see _) fun _ _ _ => Same.bind (Same.see _) fun _ _ _ => Same.bind (xorPadsT_same _ _ _ hk) fun r r' hr => Same.bind (Same.see_eq (congrArg _ hm)) fun _ _ _ =>
    Same.bind (sha256T_same _ _ _ ?_) fun d d' hd => Same.bind (Same.see_eq (congrArg _ hd)) fun _ _ _ => sha256T_same _ _ _ ?_
  · simp only [SameLen, List.length_append, List.length_replicate] at *
    rw [hk, hm, hr.1]
  · simp only [SameLen, List.length_append, List.length_replicate] at *
    rw [hk, hr.2, hd]

/-- States with buffers of the same lengths. -/
def SameSize (p p' : Prf) : Prop := SameLen p.secret p'.secret ∧ SameLen p.seed p'.seed ∧ SameLen p.a p'.a ∧ SameLen p.buf p'.buf

theorem newT_same (m : Mode) (s d s' d' : Bytes) (hs : SameLen s s') (hd : SameLen d d') : Same SameSize (newT m s d) (newT m s' d') :=
  Same.bind (hmacSha256T_same _ _ _ _ _ hs hd) fun _ _ h => Same.pure ⟨hs, hd, h, rfl⟩

theorem nextBlockT_same (m : Mode) (p p' : Prf) (h : SameSize p p') : Same (fun a b => SameLen a.1 b.1 ∧ SameSize a.2 b.2) (nextBlockT m p) (nextBlockT m p') := by
  obtain ⟨h1, h2, h3, h4⟩ := h
  refine Same.bind (Same.see_eq (congrArg _ h3)) fun _ _ _ => Same.bind (Same.see_eq (congrArg _ h2)) fun _ _ _ =>
    Same.bind (hmacSha256T_same _ _ _ _ _ h1 ?_) fun _ _ hb => Same.bind (hmacSha256T_same _ _ _ _ _ h1 h3) fun _ _ ha => Same.pure ⟨hb, h1, h2, ha, h4⟩
  simp only [SameLen, List.length_append] at *
  rw [h2, h3]

theorem getLoopT_same (m : Mode) (size fuel : Nat) (r r' : Bytes) (p p' : Prf) (hr : SameLen r r') (h : SameSize p p') :
    Same (fun a b => SameLen a.1 b.1 ∧ SameSize a.2 b.2) (getLoopT m size fuel r p) (getLoopT m size fuel r' p') := by
  induction fuel generalizing r r' p p' with
  | zero =>
    unfold getLoopT
    exact Same.ite (by rw [show r.length = r'.length from hr]) (fun _ => Same.stop (by simp)) fun _ => Same.pure ⟨hr, h⟩
  | succ fuel ih =>
    unfold getLoopT
    have e : size - r.length = size - r'.length := by rw [show r.length = r'.length from hr]
    refine Same.ite (by rw [show r.length = r'.length from hr]) (fun _ => ?_) fun _ => Same.pure ⟨hr, h⟩
    refine Same.bind (nextBlockT_same m p p' h) fun a b hab => ?_
    obtain ⟨blk, q⟩ := a
    obtain ⟨blk', q'⟩ := b
    obtain ⟨hb, h1, h2, h3, h4⟩ := hab
    refine Same.ite (by rw [e]) (fun _ => ?_) fun _ => ?_
    · refine Same.bind (Same.see_eq (congrArg _ hb)) fun _ _ _ => ih _ _ _ _ ?_ ⟨h1, h2, h3, h4⟩
      simp only [SameLen, List.length_append] at *
      rw [hr, hb]
    · have hd : SameLen (blk.drop (size - r.length)) (blk'.drop (size - r'.length)) := by
        simp only [SameLen, List.length_drop] at *
        rw [hb, e]
      refine Same.bind (Same.see_eq (congrArg _ e)) fun _ _ _ => Same.bind (Same.see_eq (congrArg _ hd)) fun _ _ _ => Same.pure ⟨?_, h1, h2, h3, hd⟩
      simp only [SameLen, List.length_append, List.length_take] at *
      rw [hr, hb]

theorem takeBufT_same (p p' : Prf) (size : Nat) (h : SameSize p p') : Same (fun a b => SameLen a.1 b.1 ∧ SameSize a.2 b.2) (takeBufT p size) (takeBufT p' size) := by
  obtain ⟨h1, h2, h3, h4⟩ := h
  refine Same.ite (by rw [show p.buf.length = p'.buf.length from h4]) (fun _ => ?_) fun _ => Same.pure ⟨rfl, h1, h2, h3, h4⟩
  refine Same.ite (by rw [show p.buf.length = p'.buf.length from h4]) (fun _ => Same.pure ⟨h4, h1, h2, h3, rfl⟩) fun _ => ?_
  have hd : SameLen (p.buf.drop size) (p'.buf.drop size) := by simp only [SameLen, List.length_drop] at *; rw [h4]
  refine Same.bind (Same.see_eq (congrArg _ hd)) fun _ _ _ => Same.bind (Same.see _) fun _ _ _ => Same.pure ⟨?_, h1, h2, h3, hd⟩
  simp only [SameLen, List.length_take] at *
  rw [h4]

theorem getBytesT_same (m : Mode) (p p' : Prf) (size : Nat) (h : SameSize p p') : Same (fun a b => SameLen a.1 b.1 ∧ SameSize a.2 b.2) (getBytesT m p size) (getBytesT m p' size) :=
  Same.bind (takeBufT_same p p' size h) fun _ _ hab => getLoopT_same m size size _ _ _ _ hab.1 hab.2

end Prf

end Husk
