import Verif.Model.TraceEcdhe
import Verif.Proofs.TraceP256Same
import Verif.Proofs.Ecdhe
/-! Results and observations of `Verif/Model/TraceEcdhe`. -/

namespace Husk.Ecdhe

open Tr Int256 Point256

theorem keysFromT_res (m : Mode) (gy : Point256) (x : Int256) : (keysFromT m gy x).res = keysFrom m gy x := by
  simp only [keysFromT, keysFrom, bind_res, multScalarT_res, normalizeT_res, NPoint256.toUncompressedBytesT_res, toBytesT_res, see_res, Res.bind_ok, lift_res, pure_res]
  rfl

theorem forEach_index (l : List Nat) : (forEach (fun i _ => see (.index i)) l ()).res = .ok () := by
  induction l with
  | nil => rfl
  | cons i l ih => simp only [forEach, bind_res, see_res, Res.bind_ok, ih]

theorem drawT_res (r : Rng) : (drawT r).res = joint (drawCandidate.run r) := by
  simp only [drawT, bind_res, forEach_index, Res.bind_ok, lift_res]

theorem randomLoopT_res (m : Mode) (fuel : Nat) (r : Rng) : (randomLoopT m fuel r).res = joint ((randomLoop m fuel).run r) := by
  induction fuel generalizing r with
  | zero => rfl
  | succ fuel ih =>
    simp only [randomLoopT, randomLoop, bind_res, drawT_res]
    rcases hd : drawCandidate.run r with ⟨x, s⟩
    cases x with
    | ok x =>
      rw [St.bind_of_ok hd]
      simp only [joint, Res.bind_ok, reduceOnceT_res]
      cases hx : x.reduceOnce m 0 with
      | ok xx =>
        rw [St.bind_of_ok (show (St.lift (.ok xx) : St Rng _).run s = (.ok xx, s) from rfl)]
        simp only [Res.bind_ok, compareT_res, test_res, beq_iff_eq]
        by_cases hc : xx.compare x = 0
        · rw [if_pos hc, if_pos hc]
          rfl
        · rw [if_neg hc, if_neg hc]
          exact ih s
      | err | panic | diverge => rfl
    | err => rw [St.bind_of_err hd]; rfl
    | panic => rw [St.bind_of_panic hd]; rfl
    | diverge => rw [St.bind_of_diverge hd]; rfl

theorem getRandomXT_res (m : Mode) (r : Rng) : (getRandomXT m r).res = joint ((getRandomX m).run r) := randomLoopT_res m _ r

theorem computeKeysT_res (m : Mode) (data : Bytes) (r : Rng) : (computeKeysT m data r).res = joint ((computeKeys m data).run r) := by
  simp only [computeKeysT, computeKeys, bind_res, lift_res]
  cases ((TlsItem.read (α := EcdheServerKeyExchange)).run data).1 with
  | ok ps =>
    rw [St.bind_of_ok (show (St.lift (.ok ps) : St Rng _).run r = (.ok ps, r) from rfl)]
    simp only [Res.bind_ok]
    cases NPoint256.fromUncompressedBytes m ps.params.pub.items with
    | ok gy =>
      rw [St.bind_of_ok (show (St.lift (.ok gy) : St Rng _).run r = (.ok gy, r) from rfl)]
      cases gy with
      | none => rfl
      | some gy =>
        simp only [Res.bind_ok, bind_res, getRandomXT_res]
        rcases hx : (getRandomX m).run r with ⟨x, s⟩
        cases x with
        | ok x =>
          rw [St.bind_of_ok hx]
          simp only [joint, Res.bind_ok, keysFromT_res, pure_res, St.lift_run]
          cases keysFrom m gy.toPoint x <;> rfl
        | err => rw [St.bind_of_err hx]; rfl
        | panic => rw [St.bind_of_panic hx]; rfl
        | diverge => rw [St.bind_of_diverge hx]; rfl
    | err | panic | diverge => rfl
  | err | panic | diverge => rfl

theorem keysFromT_same (gy gy' : Point256) (x x' : Int256) : Same Same.Any (keysFromT .release gy x) (keysFromT .release gy' x') :=
  Same.bind (multScalarT_same _ _ _ _) fun _ _ _ => Same.bind (normalizeT_same _ _) fun _ _ _ => Same.bind (NPoint256.toUncompressedBytesT_same _ _) fun _ _ h =>
    Same.bind (multScalarT_same _ _ _ _) fun _ _ _ => Same.bind (normalizeT_same _ _) fun _ _ _ => Same.bind (toBytesT_same _ _) fun _ _ _ =>
    Same.bind (Same.see_eq (congrArg _ h)) fun _ _ _ => Same.bind (Same.lift _ _) fun _ _ _ => Same.bind (Same.lift _ _) fun _ _ _ => Same.pure trivial

/-- A draw takes 32 bytes. -/
theorem drawT_same (r r' : Rng) : Same (fun a b => a.2.bytes.length + 32 = r.bytes.length ∧ b.2.bytes.length + 32 = r'.bytes.length) (drawT r) (drawT r') := by
  have key : ∀ (r : Rng) (a : Int256 × Rng), joint (drawCandidate.run r) = .ok a → a.2.bytes.length + 32 = r.bytes.length := by
    intro r a ha
    by_cases h : 32 ≤ r.bytes.length
    · obtain ⟨x, hx, _⟩ := drawCandidate_ok r h
      rw [hx] at ha
      cases ha
      simp only [List.length_drop]
      omega
    · obtain ⟨s, hs⟩ := drawCandidate_short r h
      rw [hs] at ha
      cases ha
  refine Same.bind (R := Same.Any) (fun _ _ _ _ => ⟨rfl, trivial⟩) fun _ _ _ => Same.lift_of fun a b ha hb => ⟨key r a ha, key r' b hb⟩

/-- What the loop has consumed: at least one block. -/
theorem randomLoopT_consumes (m : Mode) (fuel : Nat) (r : Rng) (a : Int256 × Rng) (h : (randomLoopT m fuel r).res = .ok a) : a.2.bytes.length + 32 ≤ r.bytes.length := by
  rw [randomLoopT_res] at h
  rcases randomLoop_inv m fuel r with ⟨s, hs⟩ | ⟨blocks, block, rest, x, e, _, hl, _, _, hr⟩
  · rw [hs] at h
    cases h
  · rw [hr] at h
    cases h
    rw [e]
    simp only [List.length_append, hl]
    omega

/-- The reduction of a candidate shows whether it is below p, in both build modes. -/
theorem reduceOnceT_same_of (m : Mode) (a a' : Int256) (h : a.val < Spec.P256.p ↔ a'.val < Spec.P256.p) : Same Same.Any (a.reduceOnceT m 0) (a'.reduceOnceT m 0) := by
  have key : ∀ a : Int256, (a.subNoReduce P256).2 = if a.val < Spec.P256.p then 1 else 0 := by
    intro a
    obtain ⟨h1, h2⟩ := subNoReduce_spec a P256
    rw [val_P256] at h1
    have ha := a.val_lt
    have hv := (a.subNoReduce P256).1.val_lt
    rcases h2 with h2 | h2
    · rw [h2] at h1 ⊢
      simp only [UInt32.toNat_zero] at h1
      rw [if_neg (by omega)]
    · rw [h2] at h1 ⊢
      have : (1 : UInt32).toNat = 1 := rfl
      rw [if_pos (by omega)]
  have hs : Same (fun s t : Int256 × UInt32 => s.2 = t.2) (a.subNoReduceT P256) (a'.subNoReduceT P256) := by
    refine Same.mono (Same.and (subNoReduceT_same a P256 a' P256) (S := fun s t => s.2 = t.2) ?_) fun _ _ h => h.2
    intro s t hs ht
    rw [subNoReduceT_res] at hs ht
    cases hs
    cases ht
    rw [key a, key a']
    simp only [h]
  refine Same.bind hs fun s t hst => ?_
  obtain ⟨v, c⟩ := s
  obtain ⟨v', c'⟩ := t
  cases (show c = c' from hst)
  exact Same.bind (R := Same.Any) (fun _ _ _ _ => ⟨rfl, trivial⟩) fun _ _ _ => chooseT_same _ _ _ _ _ _

/-- The test of the loop. -/
theorem accepted_iff (m : Mode) (x xx : Int256) (c : UInt32) (h2 : (x.reduceOnceT m 0).res = .ok xx) (h3 : (xx.compareT x).res = .ok c) : c = 0 ↔ x.val < Spec.P256.p := by
  rw [reduceOnceT_res] at h2
  rw [compareT_res] at h3
  obtain ⟨r, hr, hv⟩ := reduceOnce_spec m x 0 (Or.inl rfl) (by have := x.val_lt; simp; omega)
  rw [hr] at h2
  cases h2
  cases h3
  rw [compare_eq]
  simp only [UInt32.toNat_zero, Nat.mul_zero, Nat.add_zero] at hv
  constructor
  · intro h
    by_contra hn
    rw [if_neg hn] at hv
    by_cases e : xx = x
    · rw [e] at hv
      have : 0 < Spec.P256.p := by decide
      omega
    · rw [if_neg e] at h
      cases h
  · intro h
    rw [if_pos h] at hv
    rw [if_pos (val_inj hv)]

/-- Two runs of the loop that consume the same number of bytes cannot be told apart. -/
theorem randomLoopT_same (m : Mode) (fuel fuel' : Nat) (r r' : Rng) (a b : Int256 × Rng) (ha : (randomLoopT m fuel r).res = .ok a) (hb : (randomLoopT m fuel' r').res = .ok b)
    (h : r.bytes.length - a.2.bytes.length = r'.bytes.length - b.2.bytes.length) : (randomLoopT m fuel r).trace = (randomLoopT m fuel' r').trace := by
  induction fuel generalizing fuel' r r' with
  | zero => cases ha
  | succ fuel ih =>
    cases fuel' with
    | zero => cases hb
    | succ fuel' =>
      have split : ∀ (fuel : Nat) (r : Rng) (a : Int256 × Rng), (randomLoopT m (fuel + 1) r).res = .ok a → ∃ x s xx c,
          (drawT r).res = .ok (x, s) ∧ (x.reduceOnceT m 0).res = .ok xx ∧ (xx.compareT x).res = .ok c ∧ s.bytes.length + 32 = r.bytes.length ∧
          (randomLoopT m (fuel + 1) r).trace = (drawT r).trace ++ ((x.reduceOnceT m 0).trace ++ ((xx.compareT x).trace ++
            (.branch (c == 0) :: if c = 0 then [] else (randomLoopT m fuel s).trace))) ∧
          if c = 0 then a = (x, s) else (randomLoopT m fuel s).res = .ok a := by
        intro fuel r a h
        have h0 := h
        simp only [randomLoopT, bind_res] at h
        obtain ⟨⟨x, s⟩, h1, h⟩ := Res.bind_eq_ok.mp h
        obtain ⟨xx, h2, h⟩ := Res.bind_eq_ok.mp h
        obtain ⟨c, h3, h⟩ := Res.bind_eq_ok.mp h
        have hs := ((drawT_same r r) _ _ h1 h1).2.1
        refine ⟨x, s, xx, c, h1, h2, h3, hs, ?_, ?_⟩
        · show (Tr.bind (drawT r) _).trace = _
          unfold Tr.bind
          rw [h1]
          dsimp only
          congr 1
          show (Tr.bind (x.reduceOnceT m 0) _).trace = _
          unfold Tr.bind
          rw [h2]
          dsimp only
          congr 1
          show (Tr.bind (xx.compareT x) _).trace = _
          unfold Tr.bind
          rw [h3]
          dsimp only
          congr 1
          by_cases hc : c = 0
          · subst hc; rfl
          · have : (c == 0) = false := by simpa using hc
            rw [this, if_neg hc]
            rfl
        · by_cases hc : c = 0
          · subst hc
            simp only [test_res, Res.bind_ok] at h
            exact (Res.ok.inj h).symm
          · rw [if_neg hc]
            have : (c == 0) = false := by simpa using hc
            simpa only [this, test_res, Res.bind_ok, Bool.false_eq_true, if_false] using h
      obtain ⟨x, s, xx, c, h1, h2, h3, hs, ht, hend⟩ := split fuel r a ha
      obtain ⟨x', s', xx', c', h1', h2', h3', hs', ht', hend'⟩ := split fuel' r' b hb
      have ac := accepted_iff m x xx c h2 h3
      have ac' := accepted_iff m x' xx' c' h2' h3'
      have fin : (c = 0 ↔ c' = 0) → (if c = 0 then [] else (randomLoopT m fuel s).trace) = (if c' = 0 then [] else (randomLoopT m fuel' s').trace) →
          (randomLoopT m (fuel + 1) r).trace = (randomLoopT m (fuel' + 1) r').trace := by
        intro hcc hh
        have hb : (c == 0) = (c' == 0) := by
          rw [Bool.eq_iff_iff, beq_iff_eq, beq_iff_eq]
          exact hcc
        rw [ht, ht', (drawT_same r r' _ _ h1 h1').1, (reduceOnceT_same_of m x x' (ac.symm.trans (hcc.trans ac')) _ _ h2 h2').1, (compareT_same xx x xx' x' _ _ h3 h3').1, hh, hb]
      by_cases hc : c = 0
      · by_cases hc' : c' = 0
        · exact fin (by simp only [hc, hc']) (by rw [if_pos hc, if_pos hc'])
        · rw [if_neg hc'] at hend'
          have := randomLoopT_consumes _ _ _ _ hend'
          rw [if_pos hc] at hend
          subst hend
          dsimp only at h
          omega
      · by_cases hc' : c' = 0
        · rw [if_neg hc] at hend
          have := randomLoopT_consumes _ _ _ _ hend
          rw [if_pos hc'] at hend'
          subst hend'
          dsimp only at h
          omega
        · rw [if_neg hc] at hend
          rw [if_neg hc'] at hend'
          have k := randomLoopT_consumes _ _ _ _ hend
          have k' := randomLoopT_consumes _ _ _ _ hend'
          exact fin (by simp only [hc, hc']) (by rw [if_neg hc, if_neg hc', ih fuel' s s' hend hend' (by omega)])

end Husk.Ecdhe
