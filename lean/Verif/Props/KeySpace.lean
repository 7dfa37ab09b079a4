import Verif.Props.HandshakeGaps
/-! C72: how many session keys there are for what an eavesdropper sees. -/

namespace Husk

open Item Spec TlsReader TlsClient Ecdhe

noncomputable section

/-! ### Specification -/

/-- The session keys for the scalar `e`, from what is on the wire in clear: the two randoms and the server's public key Q. -/
def candidateKeys (random serverRandom : Bytes) (Q : Spec.P256.curve.Point) (e : Nat) : Keys :=
  keysOf (tlsMaster (Spec.P256.xBytes (e • Q)) random serverRandom) random serverRandom

/-- The public key in the body of a ServerKeyExchange: after the type and the name of the curve and the length. -/
def serverKeyOf (body : Bytes) : Bytes := (body.drop 4).take 65

/-- C72, the full statement: no set of 2^56 keys that is a function of the traffic in clear contains the session keys of every connection. The function gets the client's
random and public key, the server's random, and the body of the ServerKeyExchange. -/
def KeysNotConfined (m : Mode) : Prop :=
  ¬ ∃ cand : Bytes → Bytes → Bytes → Bytes → Fin (2 ^ 56) → Keys, ∀ rd wr rng c, TlsClient.new m rd wr rng = (.ok (), c) →
    ∀ S clear prot a b protWire pre post, Completed m rd wr rng c S clear prot a b protWire pre post →
      (∃ Q : Spec.P256.curve.Point, Q ≠ 0 ∧ serverKeyOf S.keyExchange = Spec.P256.encode Q) →
      ∃ i, S.keys = cand S.random S.point S.serverRandom S.keyExchange i

end

/-! ### Proofs -/

theorem serverKeyOf_read {data rest : Bytes} {ps : EcdheServerKeyExchange} (h : (TlsItem.read (α := EcdheServerKeyExchange)).run data = (.ok ps, rest))
    (h65 : ps.params.pub.items.length = 65) : serverKeyOf data = ps.params.pub.items := by
  obtain ⟨⟨⟨curve⟩, ⟨point⟩⟩, ⟨⟨hash, sign⟩, ⟨sig⟩⟩⟩ := ps
  have h65 : point.length = 65 := h65
  obtain ⟨_, b, hb, _, hw⟩ := LawfulItem.write_read _ _ _ h
  have hwr : TlsItem.write (⟨⟨.named_curve curve, ⟨point⟩⟩, ⟨⟨hash, sign⟩, ⟨sig⟩⟩⟩ : EcdheServerKeyExchange) =
      .ok ([3] ++ beBytes 2 (TlsEnum.code curve) ++ (65 :: point) ++ [UInt8.ofNat (TlsEnum.code hash), UInt8.ofNat (TlsEnum.code sign)] ++ beBytes 2 sig.length ++ sig) := by
    have w1 : TlsVec.writeItems point = .ok point := Ecdhe.write_bytes point
    have w2 : TlsVec.writeItems sig = .ok sig := Ecdhe.write_bytes sig
    have w3 : TlsVec.sizes point = 65 := (Ecdhe.sizes_bytes point).trans h65
    have w4 : TlsVec.sizes sig = sig.length := Ecdhe.sizes_bytes sig
    simp only [TlsItem.write, w1, w2, w3, w4, Res.bind_ok]
    refine congrArg Res.ok ?_
    show [3] ++ beBytes 2 (TlsEnum.code curve) ++ ([65] ++ point) ++ ([UInt8.ofNat (TlsEnum.code hash)] ++ [UInt8.ofNat (TlsEnum.code sign)] ++ (beBytes 2 sig.length ++ sig)) = _
    simp
  rw [hb, ← hw _ hwr, serverKeyOf]
  have e : ∀ (x y : Bytes), x.length = 2 → ([3] ++ x ++ (65 :: point) ++ y : Bytes).drop 4 = point ++ y := by
    intro x y hx
    obtain ⟨a, b, rfl⟩ := List.length_eq_two.mp hx
    simp
  simp only [List.append_assoc] at e ⊢
  rw [e _ _ (by simp), List.take_left' h65]

/-- The keys `compute_keys` returns belong to a scalar of 56 bits. -/
theorem computeKeys_scalar {m : Mode} {data : Bytes} {rng rng' : Rng} {pub pms : Bytes} (h : (computeKeys m data).run rng = (.ok (65 :: pub, pms), rng'))
    {Q : Spec.P256.curve.Point} (hQ : Q ≠ 0) (hk : serverKeyOf data = Spec.P256.encode Q) :
    ∃ e < 2 ^ 56, pub = Spec.P256.encode (e • Spec.P256.G) ∧ pms = Spec.P256.xBytes (e • Q) := by
  obtain ⟨ps, rest, q, x, h1, h2, h3, _⟩ := computeKeys_ok h
  have h65 : ps.params.pub.items.length = 65 := by
    by_contra hne
    rw [C48_rejects_malformed m _ (Or.inl hne)] at h2
    cases h2
  rw [serverKeyOf_read h1 h65] at hk
  have := C52_keys m data rest ps Q hQ h1 hk rng rng' x h3
  rw [h] at this
  simp only [Prod.mk.injEq, Res.ok.injEq, List.cons.injEq, and_true, true_and] at this
  exact ⟨_, Point256.effective_lt x, this.1, this.2⟩

/-! ### C72 -/

/-- C72 fails: in every completed handshake with a server whose public key is a point, the client's point on the wire is `e` times the base point for exactly one `e` below
2^56, and the session keys are those of that `e`. So whoever finds `e` from the client's point has the keys, and there are only 2^56 candidates to try, each of
which can be checked against the traffic. -/
theorem C72_keys_enumerable (m : Mode) (rd : Reader) (wr : Writer) (rng : Rng) (c : TlsClient) (S : Session) (clear prot : List (UInt8 × UInt8 × Bytes)) (a b : UInt8)
    (protWire pre post : Bytes) (hC : Completed m rd wr rng c S clear prot a b protWire pre post) (Q : Spec.P256.curve.Point) (hQ : Q ≠ 0)
    (hk : serverKeyOf S.keyExchange = Spec.P256.encode Q) :
    ∃! e, e < 2 ^ 56 ∧ S.point = Spec.P256.encode (e • Spec.P256.G) ∧ S.keys = candidateKeys S.random S.serverRandom Q e := by
  obtain ⟨rest, _, hr⟩ := hC.random
  obtain ⟨e, h1, h2, h3⟩ := computeKeys_scalar hr hQ hk
  refine ⟨e, ⟨h1, h2, by rw [candidateKeys, ← h3]; rfl⟩, ?_⟩
  rintro e' ⟨g1, g2, _⟩
  have hn : (2 : Nat) ^ 56 < Spec.P256.n := by decide
  exact Spec.P256.smul_G_inj (lt_trans g1 hn) (lt_trans h1 hn) (encode_inj (g2.symm.trans h2))

/-- The search can be done in two halves: 2^28 multiples of the base point against 2^28 points computed from the client's. -/
theorem C72_two_halves (m : Mode) (rd : Reader) (wr : Writer) (rng : Rng) (c : TlsClient) (S : Session) (clear prot : List (UInt8 × UInt8 × Bytes)) (a b : UInt8)
    (protWire pre post : Bytes) (hC : Completed m rd wr rng c S clear prot a b protWire pre post) (Q : Spec.P256.curve.Point) (hQ : Q ≠ 0)
    (hk : serverKeyOf S.keyExchange = Spec.P256.encode Q) :
    ∃ P, S.point = Spec.P256.encode P ∧ ∃ i < 2 ^ 28, ∃ j < 2 ^ 28, P - j • (2 ^ 28 • Spec.P256.G) = i • Spec.P256.G ∧
      S.keys = candidateKeys S.random S.serverRandom Q (i + j * 2 ^ 28) := by
  obtain ⟨e, ⟨h1, h2, h3⟩, _⟩ := C72_keys_enumerable m rd wr rng c S clear prot a b protWire pre post hC Q hQ hk
  refine ⟨_, h2, e % 2 ^ 28, Nat.mod_lt _ (by decide), e / 2 ^ 28, Nat.div_lt_of_lt_mul (by rw [← pow_add]; exact h1), ?_, ?_⟩
  · rw [sub_eq_iff_eq_add, ← mul_nsmul, ← add_nsmul, Nat.mod_add_div]
  · rw [h3, Nat.mul_comm, Nat.mod_add_div]

/-- C72 is false of the code. -/
theorem C72_confined (m : Mode) : ¬ KeysNotConfined m := by
  classical
  intro h
  apply h
  refine ⟨fun random _ serverRandom body i => if hx : ∃ Q : Spec.P256.curve.Point, serverKeyOf body = Spec.P256.encode Q then candidateKeys random serverRandom hx.choose i.val else ⟨[], [], [], []⟩, ?_⟩
  rintro rd wr rng c - S clear prot a b w pre post hC ⟨Q, hQ, hk⟩
  obtain ⟨e, ⟨h1, _, h3⟩, _⟩ := C72_keys_enumerable m rd wr rng c S clear prot a b w pre post hC Q hQ hk
  refine ⟨⟨e, h1⟩, ?_⟩
  have hx : ∃ Q : Spec.P256.curve.Point, serverKeyOf S.keyExchange = Spec.P256.encode Q := ⟨Q, hk⟩
  dsimp only
  rw [dif_pos hx, encode_inj (hx.choose_spec.symm.trans hk)]
  exact h3

/-- What holds: the premaster secret is the Diffie-Hellman value of the client's point on the wire and the server's public key: it takes the discrete logarithm of
one of the two (in 56 bits, for the client's) to compute it that way. -/
theorem C72_shared_secret_partial (m : Mode) (rd : Reader) (wr : Writer) (rng : Rng) (c : TlsClient) (S : Session) (clear prot : List (UInt8 × UInt8 × Bytes)) (a b : UInt8)
    (protWire pre post : Bytes) (hC : Completed m rd wr rng c S clear prot a b protWire pre post) (y : Nat) (hQ : y • Spec.P256.G ≠ 0)
    (hk : serverKeyOf S.keyExchange = Spec.P256.encode (y • Spec.P256.G)) :
    ∃ P, S.point = Spec.P256.encode P ∧ S.pms = Spec.P256.xBytes (y • P) := by
  obtain ⟨rest, _, hr⟩ := hC.random
  obtain ⟨e, h1, h2, h3⟩ := computeKeys_scalar hr hQ hk
  exact ⟨_, h2, by rw [h3, ← mul_nsmul, ← mul_nsmul, Nat.mul_comm]⟩

/-- The hypotheses are met, for every server that follows the protocol and every draw of the client. -/
example (m : Mode) (random block : Bytes) (hr : random.length = 32) (hb : block.length = 32) (hlt : leNat block < P256.p) (V : ServerValues) (hV : V.Conforms) :
    ∃ rd c S clear prot a b w pre post, Completed m rd {} ⟨random ++ block⟩ c S clear prot a b w pre post ∧ serverKeyOf S.keyExchange = Spec.P256.encode (V.secret • Spec.P256.G) := by
  have D : Draws (random ++ block) random block [] := ⟨⟨[], by simp, by simp⟩, hr, hb, hlt⟩
  obtain ⟨S, hS⟩ : ∃ S, S = V.session random (clientPoint block) := ⟨_, rfl⟩
  obtain ⟨c, _, hC⟩ := run_completed m ⟨[.data (serverWire S (chunks 16384 S.flight) (chunks 16384 (finishedBytes S.serverVerify)))]⟩ {} ⟨random ++ block⟩ rfl D hV hS
    [] (finishedBytes S.serverVerify) rfl (by simp [finishedBytes, handshakeBytes]) (chunks 16384 S.flight) (chunks 16384 (finishedBytes S.serverVerify))
    (by rw [List.append_nil]; exact cuts_exists _ (by have := flight_length hV hS; omega)) (cuts_exists _ (by simp [finishedBytes, handshakeBytes, serverVerify_length D hV hS])) []
    (by rw [List.append_nil]; exact List.append_nil _)
  refine ⟨_, c, S, _, _, _, _, _, _, _, hC, ?_⟩
  have : S.keyExchange = V.keyExchange := by rw [hS]; rfl
  rw [this, serverKeyOf, ServerValues.keyExchange]
  have e : ∀ (x y z : Bytes), x.length = 2 → ([3] ++ x ++ (65 :: z) ++ y : Bytes).drop 4 = z ++ y := by
    intro x y z hx
    obtain ⟨a, b, rfl⟩ := List.length_eq_two.mp hx
    simp
  simp only [List.append_assoc] at e ⊢
  rw [e _ _ _ (by simp), List.take_left' (Ecdhe.encode_length _)]

end Husk
