import Verif.Proofs.ClearRead
import Verif.Props.HandshakeOrder
/-! C61: whether `TlsClient::new` returns, whatever the server sends. -/

namespace Husk

open Item Spec TlsReader TlsClient

/-! ### Steps that return -/

theorem bind_bad {σ α β : Type} {p : St σ α} {f : α → St σ β} {c c' : σ} {x : Res β} (h : (p >>= f).run c = (x, c')) (hx : ¬ x.Returns) (hp : (p.run c).1.Returns) :
    ∃ a c1, p.run c = (.ok a, c1) ∧ (f a).run c1 = (x, c') := by
  rw [St.bind_run] at h
  rcases hr : p.run c with ⟨y, c1⟩
  rw [hr] at h hp
  cases y with
  | ok a => exact ⟨a, c1, rfl, h⟩
  | err k => cases h; exact absurd trivial hx
  | panic => exact hp.elim
  | diverge => exact hp.elim

theorem onReader_returns {α : Type} {p : St TlsReader α} {c : TlsClient} (h : (p.run c.reader).1.Returns) : ((onReader p).run c).1.Returns := by
  rw [onReader_run]; exact h

theorem expect_returns {m : Mode} {s : TlsReader} (h : ((readHandshake m).run s).1.Returns) : ((expectServerHello m).run s).1.Returns ∧ ((expectCertificate m).run s).1.Returns ∧
    ((expectServerKeyExchange m).run s).1.Returns ∧ ((expectServerHelloDone m).run s).1.Returns ∧ ((expectFinished m).run s).1.Returns := by
  rw [expectServerHello, expectCertificate, expectServerKeyExchange, expectServerHelloDone, expectFinished, St.bind_run, St.bind_run, St.bind_run, St.bind_run, St.bind_run]
  rcases hr : (readHandshake m).run s with ⟨y, s1⟩
  rw [hr] at h
  cases y with
  | ok a => cases a <;> exact ⟨trivial, trivial, trivial, trivial, trivial⟩
  | err k => exact ⟨trivial, trivial, trivial, trivial, trivial⟩
  | panic => exact h.elim
  | diverge => exact h.elim

/-- Room for one more record. -/
def Room (s : TlsReader) : Prop := s.readCount.toNat + countBytes s.reader.stream + 1 < 2 ^ 64

/-- If the server's flight makes the client panic or hang, the key exchange does. -/
theorem readFlight_bad {m : Mode} {c c' : TlsClient} {x : Res ServerFlight} (h : (readFlight m).run c = (x, c')) (hx : ¬ x.Returns) (hd : c.reader.decryptor = none)
    (hn : Room c.reader) : ∃ sh certs ske s1 s2 s3,
      (readMessage m).run c.reader = (.ok (.HandshakeMessage (.server_hello sh)), s1) ∧
      (sh.serverVersion = ⟨3, 3⟩ ∧ sh.cipherSuite = .TLS_ECDHE_RSA_WITH_CHACHA20_POLY1305_SHA256 ∧ sh.compressionMethod = .null) ∧
      (readMessage m).run s1 = (.ok (.HandshakeMessage (.certificate certs)), s2) ∧
      (readMessage m).run s2 = (.ok (.HandshakeMessage (.server_key_exchange ske)), s3) ∧
      (((Ecdhe.computeKeys m ske.data).run c.rng).1 = .panic ∧ x = .panic ∨ ((Ecdhe.computeKeys m ske.data).run c.rng).1 = .diverge ∧ x = .diverge) := by
  obtain ⟨hello, c1, h1, h⟩ := bind_bad h hx (onReader_returns (expect_returns (C19_no_panic_plaintext m _ hd hn).2.1).1)
  obtain ⟨s1, g1, rfl⟩ := onReader_inv h1
  have g1 := expectServerHello_iff.mp g1
  obtain ⟨_, _, r1, -⟩ := clearRead_message hd g1
  obtain ⟨_, c1, h2, h⟩ := bind_bad h hx (by rw [St.lift_run, checkServerHello_eq]; split <;> trivial)
  rw [St.lift_run, checkServerHello_eq] at h2
  split at h2
  rotate_left
  · cases h2
  rename_i hchk
  cases h2
  obtain ⟨certs, c1, h3, h⟩ := bind_bad h hx (onReader_returns (expect_returns (C19_no_panic_plaintext m _ r1.decryptor (r1.room 1 hn)).2.1).2.1)
  obtain ⟨s2, g3, rfl⟩ := onReader_inv h3
  have g3 := expectCertificate_iff.mp g3
  obtain ⟨_, _, r2, -⟩ := clearRead_message r1.decryptor g3
  have r2' := r1.trans r2
  obtain ⟨ske, c1, h4, h⟩ := bind_bad h hx (onReader_returns (expect_returns (C19_no_panic_plaintext m _ r2.decryptor (r2'.room 1 hn)).2.1).2.2.1)
  obtain ⟨s3, g4, rfl⟩ := onReader_inv h4
  have g4 := expectServerKeyExchange_iff.mp g4
  obtain ⟨_, _, r3, -⟩ := clearRead_message r2.decryptor g4
  have r3' := r2'.trans r3
  refine ⟨hello, certs, ske, s1, s2, s3, g1, hchk, g3, g4, ?_⟩
  rw [St.bind_run, onRng_run] at h
  have hrng : (TlsClient.mk s3 c.writer c.rng c.buf).rng = c.rng := rfl
  rcases hk : (Ecdhe.computeKeys m ske.data).run c.rng with ⟨y, rng'⟩
  simp only [hk] at h
  cases y with
  | ok a =>
    exfalso
    obtain ⟨kd, pms⟩ := a
    dsimp only at h
    obtain ⟨_, c1, h5, h⟩ := bind_bad h hx (onReader_returns (expect_returns (C19_no_panic_plaintext m s3 r3.decryptor (r3'.room 1 hn)).2.1).2.2.2.1)
    cases h
    exact hx trivial
  | err k => cases h; exact absurd trivial hx
  | panic => cases h; exact Or.inl ⟨rfl, rfl⟩
  | diverge => cases h; exact Or.inr ⟨rfl, rfl⟩

/-! ### Protected records -/

/-- Somewhere in the stream there is a record that opens under the key and the IV, with its sequence number, to more than 2^14 bytes. -/
def OverlongRecord (key iv : Bytes) (stream : List Sym) : Prop :=
  ∃ (k : Nat) (p l : List Sym) (ty a b : UInt8) (f plain : Bytes), stream = p ++ (ofBytes (recordBytes ty a b f) ++ l) ∧
    Spec.Aead.openMsg key (recordNonce iv k) (recordAad k ty a b plain.length) f = some plain ∧ 2 ^ 14 < plain.length

theorem readRecord_unprotect {m : Mode} {s s' : TlsReader} (h : (readRecord m).run s = (.panic, s')) (hn : s.readCount.toNat + 1 < 2 ^ 64) :
    ∃ (ty : ContentType) (a b : UInt8) (f : Bytes) (l : List Sym), f.length ≤ ENC_RECORD_MAX_LEN ∧ s.reader.stream = ofBytes (recordBytes ty.toU8 a b f) ++ l ∧ s.unprotect ty a b f = .panic := by
  have ho := readRecord_outcome m s
  rw [h] at ho
  generalize hx : (Res.panic, s') = x at ho
  cases ho with
  | io => simp at hx
  | badType => simp at hx
  | tooLong => simp at hx
  | full ty a b f r' hl hs =>
    rw [finish_run] at hx
    have e : TlsReader.unprotect { s with reader := r' } ty a b f = s.unprotect ty a b f := rfl
    rw [e] at hx
    refine ⟨ty, a, b, f, r'.stream, hl, hs, ?_⟩
    cases hu : s.unprotect ty a b f with
    | ok r =>
      rw [hu] at hx
      simp only at hx
      rcases TlsReader.bump_cases m { s with reader := r' } with hb | ⟨hb, hc⟩
      · rw [hb] at hx; simp at hx
      · have hc : 2 ^ 64 ≤ s.readCount.toNat + 1 := hc
        omega
    | err k => rw [hu] at hx; simp at hx
    | diverge => rw [hu] at hx; simp at hx
    | panic => rfl

theorem unprotect_panic {s : TlsReader} {m : Mode} {key iv : Bytes} {ty : ContentType} {a b : UInt8} {f : Bytes} (hd : s.decryptor = some (.chacha m key))
    (hk : key.length = 32) (hi : s.iv = some iv) (hl : iv.length = 12) (hf : f.length ≤ ENC_RECORD_MAX_LEN) (h : s.unprotect ty a b f = .panic) :
    ∃ p, Spec.Aead.openMsg key (recordNonce iv s.readCount.toNat) (recordAad s.readCount.toNat ty.toU8 a b p.length) f = some p ∧ 2 ^ 14 < p.length := by
  simp only [unprotect, hd] at h
  split at h
  · cases h
  · rename_i hm
    have hmac : (Decryptor.chacha m key).macLen = 16 := rfl
    rw [hmac] at hm h
    have hnl : s.nonce.length = 12 := by rw [TlsReader.nonce_eq, nonceFor_length]
    have hf' : f.length ≤ 2 ^ 38 - 128 := by have : ENC_RECORD_MAX_LEN = 18432 := rfl; omega
    have hn : s.nonce = recordNonce iv s.readCount.toNat := by rw [TlsReader.nonce_eq, hi, nonceFor, xorIv_spec _ _ hl]
    have hret := decrypt_chacha_returns m key s.nonce f (s.ad ty a b (f.length - 16)) hk hnl hf
    cases hdec : (Decryptor.chacha m key).decrypt s.nonce f (s.ad ty a b (f.length - 16)) with
    | panic => rw [hdec] at hret; exact hret.elim
    | diverge => rw [hdec] at hret; exact hret.elim
    | err k => rw [hdec] at h; cases h
    | ok p =>
      rw [hdec, Res.bind_ok] at h
      have hdec : Aead.decrypt m key s.nonce f (s.ad ty a b (f.length - 16)) = .ok p := hdec
      have hp : p.length = f.length - 16 := by
        obtain ⟨ct, e1, e2⟩ := (C38_accepts_iff_tag m key s.nonce f _ p hk hnl hf').mp hdec
        have lt : (Spec.Aead.tag key s.nonce (s.ad ty a b (f.length - 16)) ct).length = 16 := Spec.Poly1305.mac_length _ _ _
        rw [e2, e1, List.length_append, lt]
        simp [Spec.ChaCha20.encrypt]
      rw [C39_decrypt_is_rfc8439 m key _ _ _ hk hnl hf', hn, TlsReader.ad_eq, ← hp] at hdec
      refine ⟨p, ?_, ?_⟩
      · cases ho : Spec.Aead.openMsg key (recordNonce iv s.readCount.toNat) (recordAad s.readCount.toNat ty.toU8 a b p.length) f with
        | none => rw [ho] at hdec; cases hdec
        | some p' => rw [ho] at hdec; rw [Res.ok.inj hdec]
      · by_contra hle
        rw [if_neg (by have : RECORD_MAX_LEN = 2 ^ 14 := rfl; omega), Record.new_ok _ _ _ _ (by have : RECORD_MAX_LEN = 2 ^ 14 := rfl; omega)] at h
        cases h

/-- A read that does not return has met an over-long protected record. -/
theorem readMessage_overlong {m : Mode} {s : TlsReader} {key iv : Bytes} (hd : s.decryptor = some (.chacha m key)) (hk : key.length = 32) (hi : s.iv = some iv) (hl : iv.length = 12)
    (hn : Room s) (hr : ¬ ((readMessage m).run s).1.Returns) : ((readMessage m).run s).1 = .panic ∧ OverlongRecord key iv s.reader.stream := by
  rcases hx : (readMessage m).run s with ⟨x, s'⟩
  rw [hx] at hr
  cases x with
  | ok msg => exact absurd trivial hr
  | err k => exact absurd trivial hr
  | panic =>
    refine ⟨rfl, ?_⟩
    obtain ⟨recs, s1, ht, hp⟩ := (readMessage_fail hx (by simp)).panics rfl
    obtain ⟨h1, h2⟩ := Took.same ht
    have hcount := Took.room ht 1 hn
    obtain ⟨pre, hpre⟩ := Took.suffix ht
    obtain ⟨ty, a, b, f, l, g1, g2, g3⟩ := readRecord_unprotect hp (by omega)
    obtain ⟨p, g4, g5⟩ := unprotect_panic (h1.trans hd) hk (h2.trans hi) hl g1 g3
    exact ⟨_, pre, l, _, a, b, f, p, by rw [hpre, g2], g4, g5⟩
  | diverge =>
    exfalso
    obtain ⟨recs, s1, ht, hp⟩ := (readMessage_fail hx (by simp)).diverges rfl
    obtain ⟨d, n, f, ad, h1, h2, h3, h4⟩ := readRecord_diverge hp
    rw [Took.decryptor ht, hd] at h1
    cases h1
    have := decrypt_chacha_returns m key n f ad hk h3 h2
    rw [h4] at this
    exact this

/-! ### The handshake -/

/-- The ways the handshake can fail to return. -/
inductive Stuck (m : Mode) (rd : Reader) (rng : Rng) : Res Unit → TlsClient → Prop
  /-- The generator does not deliver the client random. -/
  | noRandom {c} : rng.bytes.length < 32 → Stuck m rd rng .diverge c
  /-- The key exchange does not return. -/
  | keys {c} {x : Res Unit} (random more hello certs data rest : Bytes) (l : List Sym) : rng.bytes = random ++ more → random.length = 32 →
      ClearFront rd.stream (handshakeBytes 2 hello ++ (handshakeBytes 11 certs ++ handshakeBytes 12 data) ++ rest) l →
      (((Ecdhe.computeKeys m data).run ⟨more⟩).1 = .panic ∧ x = .panic ∨ ((Ecdhe.computeKeys m data).run ⟨more⟩).1 = .diverge ∧ x = .diverge) → Stuck m rd rng x c
  /-- An over-long protected record comes in place of the Finished. -/
  | record {c} (S : Session) (more pre : Bytes) (rng' : Rng) (a b : UInt8) (l : List Sym) : rng.bytes = S.random ++ more → S.random.length = 32 →
      (Ecdhe.computeKeys m S.keyExchange).run ⟨more⟩ = (.ok (65 :: S.point, S.pms), rng') →
      ClearFront rd.stream (S.flight ++ pre) (ofBytes (recordBytes 20 a b [1]) ++ l) → OverlongRecord S.keys.serverKey S.keys.serverIv l → Stuck m rd rng .panic c

theorem handshake_bad {m : Mode} {rd : Reader} {wr : Writer} {rng : Rng} {x : Res Unit} {c : TlsClient} (h : (handshake m).run (fresh rd wr rng) = (x, c)) (hx : ¬ x.Returns)
    (hn : countBytes rd.stream + 1 < 2 ^ 64) : Stuck m rd rng x c := by
  have hroom : Room (TlsReader.new rd) := by show 0 + countBytes rd.stream + 1 < _; omega
  rcases sendHello_cases m (fresh rd wr rng) rfl rfl with ⟨h1, h2⟩ | ⟨cr, more, hr, hl, ⟨w1, h1, h2⟩ | ⟨w1, n, h1, h2, h3, h4, h5⟩⟩
  · rw [handshake, St.bind_of_diverge h1] at h
    cases h
    exact .noRandom h2
  rotate_left
  · rw [handshake, St.bind_of_err h1] at h
    cases h
    exact absurd trivial hx
  have hr : rng.bytes = cr ++ more := hr
  rw [handshake, St.bind_of_ok h1] at h
  dsimp only at h
  have hfr := fresh_fresh rd wr rng
  by_cases hret : ((readFlight m).run { fresh rd wr rng with rng := ⟨more⟩, writer := w1 }).1.Returns
  rotate_left
  · rcases hrf : (readFlight m).run { fresh rd wr rng with rng := ⟨more⟩, writer := w1 } with ⟨y, c2⟩
    rw [hrf] at hret
    obtain ⟨sh, certs, ske, s1, s2, s3, g1, g2, g3, g4, g5⟩ := readFlight_bad hrf hret rfl hroom
    obtain ⟨junk, cl, -⟩ := clearRead_keyExchange rfl g1 g2 g3 g4
    obtain ⟨z, cl1, cl2⟩ := cl.front
    have hz : z = _ := cl2
    refine .keys cr more _ _ ske.data s3.handshakeBuffer.buf s3.reader.stream hr hl (by rw [hz] at cl1; exact cl1) ?_
    rcases g5 with ⟨g5, rfl⟩ | ⟨g5, rfl⟩
    · rw [St.bind_of_panic hrf] at h
      cases h
      exact Or.inl ⟨g5, rfl⟩
    · rw [St.bind_of_diverge hrf] at h
      cases h
      exact Or.inr ⟨g5, rfl⟩
  obtain ⟨f, c2, hrf, h⟩ := bind_bad h hx hret
  obtain ⟨s1, s2, s3, s4, rng', hR, rfl⟩ := readFlight_inv hrf
  obtain ⟨X, Y, hfit, _⟩ := hR.fit
  generalize (4 :: (beBytes 32 X ++ beBytes 32 Y) : Bytes) = pub at hfit
  obtain ⟨k1, k2, k3, k4⟩ := hfit.keys_length hl
  obtain ⟨S, hcl, -, hS1, hS2, hS3, hS4, -, hS5, hS6, -⟩ := clearRead_flight (c := { fresh rd wr rng with rng := ⟨more⟩, writer := w1 }) rfl hR cr pub
  rcases sendFinished_cases m cr f pub hl hfit { fresh rd wr rng with rng := rng', writer := w1, reader := s4 } (h2.encryptor.trans hfr.encryptor) (h2.iv.trans hfr.writerIv)
      (hR.same.2.trans hfr.readerIv) (by show w1.writeCount.toNat ≤ 1; rw [h2.count, hfr.count]; decide) with ⟨w', g1, -⟩ | ⟨c', n, g1, -⟩
  rotate_left
  · rw [St.bind_of_err g1] at h
    cases h
    exact absurd trivial hx
  rw [St.bind_of_ok g1] at h
  dsimp only at h
  have hroom4 : Room { s4 with iv := some (f.keys cr).serverIv } := hcl.room 1 hroom
  obtain ⟨_, c3, g2, h⟩ := bind_bad h hx (onReader_returns (C19_no_panic_plaintext m { s4 with iv := some (f.keys cr).serverIv } hcl.decryptor hroom4).2.2)
  obtain ⟨t1, g3, rfl⟩ := onReader_inv g2
  have g3 := readChangeCipherSpec_inv g3
  have g3 : (readMessage m).run { s4 with iv := some (f.keys cr).serverIv } = (.ok .ChangeCipherSpecMessage, t1) := g3
  obtain ⟨recs, T, pre, ccs, rfl, A, B, C, D⟩ := readMessage_inv g3
  have hdt : t1.decryptor = none := (Took.same T).1.trans hcl.decryptor
  have hivt : t1.iv = some (f.keys cr).serverIv := (Took.same T).2
  have hset : (onReader (TlsReader.setDecryptor (.chacha m (f.keys cr).serverKey))).run { fresh rd wr rng with reader := t1, writer := w', rng := rng' } =
      (.ok (), { fresh rd wr rng with reader := keyed m t1 (f.keys cr).serverKey, writer := w', rng := rng' }) :=
    onReader_ok (c := { fresh rd wr rng with reader := t1, writer := w', rng := rng' }) (by simp only [TlsReader.setDecryptor, hdt, keyed])
  rw [St.bind_of_ok hset] at h
  have hroomt : Room (keyed m t1 (f.keys cr).serverKey) := by
    have := Took.room T 1 hroom4
    show 0 + countBytes t1.reader.stream + 1 < _
    omega
  by_cases hret2 : ((readMessage m).run (keyed m t1 (f.keys cr).serverKey)).1.Returns
  · exfalso
    obtain ⟨vd, c4, g5, h⟩ := bind_bad h hx (onReader_returns (expect_returns (readHandshake_of_message m _ hret2).1).2.2.2.2)
    obtain ⟨t2, g6, rfl⟩ := onReader_inv g5
    have g6 : (readMessage m).run (keyed m t1 (f.keys cr).serverKey) = _ := expectFinished_iff.mp g6
    rw [St.lift_run, checkFinished_eq hfit hl m vd (delivered_wf g6).1] at h
    split at h <;> cases h <;> exact hx trivial
  · obtain ⟨hp, hov⟩ := readMessage_overlong (m := m) (s := keyed m t1 (f.keys cr).serverKey) (key := (f.keys cr).serverKey) (iv := (f.keys cr).serverIv) rfl k2 hivt k4 hroomt hret2
    have hxp : x = .panic := by
      rcases hm : (readMessage m).run (keyed m t1 (f.keys cr).serverKey) with ⟨y, t2⟩
      rw [hm] at hp
      simp only at hp
      subst hp
      rw [bind_refused (onReader_ok (c := { fresh rd wr rng with reader := keyed m t1 (f.keys cr).serverKey, writer := w', rng := rng' })
        (expectFinished_other hm (by intro d e; cases e)))] at h
      cases h
      rfl
    subst hxp
    obtain ⟨z, cl1, cl2⟩ := hcl.front
    have hz : z = S.flight ++ s4.handshakeBuffer.buf := cl2
    have P5 := Took.plain T hcl.decryptor
    have hccs : recordBytes ccs.contentType.toU8 ccs.verMajor ccs.verMinor ccs.fragment = recordBytes 20 ccs.verMajor ccs.verMinor [1] := by
      rw [C, ccsMessage_fragment D]; rfl
    have hfront : ClearFront s4.reader.stream (frags pre) (ofBytes (recordBytes 20 ccs.verMajor ccs.verMinor [1]) ++ t1.reader.stream) := by
      refine ⟨parts pre, ?_, parts_frags pre⟩
      have P5 : s4.reader.stream = _ := P5
      rw [P5, List.flatMap_append, parts_wire A, List.flatMap_cons, List.flatMap_nil, List.append_nil, hccs, ofBytes_append, List.append_assoc]
    refine .record S more (s4.handshakeBuffer.buf ++ frags pre) rng' ccs.verMajor ccs.verMinor t1.reader.stream (by rw [hS1]; exact hr) (by rw [hS1]; exact hl) ?_ ?_ (by rw [hS6]; exact hov)
    · have := hR.keys
      rw [hfit.key] at this
      rw [hS2, hS3, hS4]; exact this
    · rw [← List.append_assoc, ← hz]
      exact ClearFront.trans cl1 hfront

/-- Every outcome of `new` that is not an error is one of the handshake, so: -/
theorem new_bad {m : Mode} {rd : Reader} {wr : Writer} {rng : Rng} {x : Res Unit} {c : TlsClient} (h : TlsClient.new m rd wr rng = (x, c)) (hx : ¬ x.Returns)
    (hn : countBytes rd.stream + 1 < 2 ^ 64) : Stuck m rd rng x c :=
  handshake_bad ((new_of_handshake m rd wr rng x c (by rintro k rfl; exact hx trivial)).mp h) hx hn

/-! ### C61 -/

/-- A ServerKeyExchange with an x-coordinate of which three times reaches `2 ^ 256 + 2 * p`. No such number is below p. -/
def LargeX (data : Bytes) : Prop :=
  ∃ (a b : UInt8) (X Y : Nat) (tail : Bytes), data = [3, a, b, 65, 4] ++ (beBytes 32 X ++ beBytes 32 Y) ++ tail ∧ 2 ^ 256 + 2 * P256.p ≤ 3 * X ∧ X < 2 ^ 256

theorem largeX_of_panic {m : Mode} {data : Bytes} {rng : Rng} (h : ((Ecdhe.computeKeys m data).run rng).1 = .panic) : m = .debug ∧ LargeX data := by
  cases m with
  | release => exact absurd h (C54_release data rng)
  | debug =>
    refine ⟨rfl, ?_⟩
    obtain ⟨ps, more, h1, h2⟩ := computeKeys_panic h
    obtain ⟨⟨⟨curve⟩, ⟨point⟩⟩, ⟨⟨hash, sign⟩, ⟨sig⟩⟩⟩ := ps
    have h2 : NPoint256.fromUncompressedBytes .debug point = .panic := h2
    have hwf : point.length = 65 ∧ point.getD 0 0 = 4 := by
      by_contra hne
      rw [C48_rejects_malformed .debug _ (by by_cases h : point.length = 65 <;> [exact Or.inr fun e => hne ⟨h, e⟩; exact Or.inl h])] at h2
      cases h2
    obtain ⟨_, b, hb, _, hw⟩ := LawfulItem.write_read _ _ _ h1
    have hwr : TlsItem.write (⟨⟨.named_curve curve, ⟨point⟩⟩, ⟨⟨hash, sign⟩, ⟨sig⟩⟩⟩ : EcdheServerKeyExchange) =
        .ok ([3] ++ beBytes 2 (TlsEnum.code curve) ++ (65 :: point) ++ [UInt8.ofNat (TlsEnum.code hash), UInt8.ofNat (TlsEnum.code sign)] ++ beBytes 2 sig.length ++ sig) := by
      have w1 : TlsVec.writeItems point = .ok point := Ecdhe.write_bytes point
      have w2 : TlsVec.writeItems sig = .ok sig := Ecdhe.write_bytes sig
      have w3 : TlsVec.sizes point = 65 := (Ecdhe.sizes_bytes point).trans hwf.1
      have w4 : TlsVec.sizes sig = sig.length := Ecdhe.sizes_bytes sig
      simp only [TlsItem.write, w1, w2, w3, w4, Res.bind_ok]
      refine congrArg Res.ok ?_
      show [3] ++ beBytes 2 (TlsEnum.code curve) ++ ([65] ++ point) ++ ([UInt8.ofNat (TlsEnum.code hash)] ++ [UInt8.ofNat (TlsEnum.code sign)] ++ (beBytes 2 sig.length ++ sig)) = _
      simp
    obtain ⟨c, d, hcd⟩ : ∃ c d, beBytes 2 (TlsEnum.code curve) = [c, d] := by
      have : (beBytes 2 (TlsEnum.code curve)).length = 2 := by simp
      match beBytes 2 (TlsEnum.code curve), this with
      | [c, d], _ => exact ⟨c, d, rfl⟩
    rcases fromUncompressed_parts .debug point with ⟨_, h3⟩ | ⟨x, y, he, _⟩
    · rw [h3] at h2; cases h2
    refine ⟨c, d, x.val, y.val, [UInt8.ofNat (TlsEnum.code hash), UInt8.ofNat (TlsEnum.code sign)] ++ beBytes 2 sig.length ++ sig ++ more, ?_, ?_, x.val_lt⟩
    · rw [hb, ← hw _ hwr, hcd, he, ← Int256.toBytes_eq, ← Int256.toBytes_eq]
      simp
    · by_contra hlt
      rw [he, Int256.toBytes_eq, Int256.toBytes_eq, C48_debug_exact x.val y.val x.val_lt y.val_lt, if_neg hlt] at h2
      cases h2

/-- The server sends, in clear, a ServerHello, a Certificate and a ServerKeyExchange with an x-coordinate of which three times reaches `2 ^ 256 + 2 * p`. -/
def SendsLargeX (stream : List Sym) : Prop :=
  ∃ (hello certs data rest : Bytes) (l : List Sym), ClearFront stream (handshakeBytes 2 hello ++ (handshakeBytes 11 certs ++ handshakeBytes 12 data) ++ rest) l ∧ LargeX data

/-- Partial C61: the only causes of a panic in `new`. In debug builds, a public key whose x-coordinate X has `2 ^ 256 + 2 * p ≤ 3 * X`; in all builds, after a complete flight and the
ChangeCipherSpec, a record that opens under the key of the session to more than 2^14 bytes. `Session` is what is exchanged and what RFC 5246 derives from it; the
hypothesis on the length of the stream says that the 64-bit record counter does not run over. -/
theorem C61_causes_partial (m : Mode) (rd : Reader) (wr : Writer) (rng : Rng) (hn : countBytes rd.stream + 1 < 2 ^ 64) (h : (TlsClient.new m rd wr rng).1 = .panic) :
    m = .debug ∧ SendsLargeX rd.stream ∨
    ∃ (S : Session) (more pre : Bytes) (rng' : Rng) (a b : UInt8) (l : List Sym), rng.bytes = S.random ++ more ∧ S.random.length = 32 ∧
      (Ecdhe.computeKeys m S.keyExchange).run ⟨more⟩ = (.ok (65 :: S.point, S.pms), rng') ∧
      ClearFront rd.stream (S.flight ++ pre) (ofBytes (recordBytes 20 a b [1]) ++ l) ∧ OverlongRecord S.keys.serverKey S.keys.serverIv l := by
  rcases hx : TlsClient.new m rd wr rng with ⟨x, c⟩
  rw [hx] at h
  simp only at h
  subst h
  have hb := new_bad hx (by simp [Res.Returns]) hn
  generalize hp : (Res.panic : Res Unit) = x at hb
  cases hb with
  | noRandom _ => cases hp
  | keys random more hello certs data rest l _ _ h1 h2 =>
    subst hp
    rcases h2 with ⟨h2, _⟩ | ⟨_, h2⟩
    · obtain ⟨hm, hd⟩ := largeX_of_panic h2
      exact Or.inl ⟨hm, _, _, _, _, _, h1, hd⟩
    · cases h2
  | record S more pre rng' a b l h1 h2 h3 h4 h5 => exact Or.inr ⟨S, more, pre, rng', a, b, l, h1, h2, h3, h4, h5⟩

theorem openMsg_length {key nonce aad f p : Bytes} (h : Spec.Aead.openMsg key nonce aad f = some p) : f.length = p.length + 16 := by
  rw [Spec.Aead.openMsg] at h
  split at h
  · cases h
  · dsimp only at h
    split at h
    · cases h
      simp only [Spec.ChaCha20.encrypt]
      simp
      omega
    · cases h

/-- Partial C61, without the keys: if nowhere in what the server sends there is a record of more than 2^14 + 16 bytes, then in release builds `new` does not panic, and in
debug builds only a public key that is not reduced makes it panic. -/
theorem C61_short_records_partial (m : Mode) (rd : Reader) (wr : Writer) (rng : Rng) (hn : countBytes rd.stream + 1 < 2 ^ 64)
    (hs : ∀ (p l : List Sym) (ty a b : UInt8) (f : Bytes), rd.stream = p ++ (ofBytes (recordBytes ty a b f) ++ l) → f.length ≤ 2 ^ 14 + 16)
    (hx : m = .debug → ¬ SendsLargeX rd.stream) : (TlsClient.new m rd wr rng).1 ≠ .panic := by
  intro h
  rcases C61_causes_partial m rd wr rng hn h with ⟨h1, h2⟩ | ⟨S, more, pre, rng', a, b, l, h1, h2, h3, ⟨fs, h4, -⟩, k, p, l', ty, a', b', f, plain, h5, h6, h7⟩
  · exact hx h1 h2
  · have := openMsg_length h6
    have := hs _ l' ty a' b' f (by rw [h4, h5, ← List.append_assoc, ← List.append_assoc])
    omega

/-- Partial C61: when the generator delivers what the client needs, `new` always returns, or panics for one of the reasons above; it never hangs. -/
theorem C61_no_hang (m : Mode) (rd : Reader) (wr : Writer) (rng : Rng) (hn : countBytes rd.stream + 1 < 2 ^ 64) {random block rest : Bytes} (D : Draws rng.bytes random block rest) :
    (TlsClient.new m rd wr rng).1 ≠ .diverge := by
  intro h
  rcases hx : TlsClient.new m rd wr rng with ⟨x, c⟩
  rw [hx] at h
  simp only at h
  subst h
  have hb := new_bad hx (by simp [Res.Returns]) hn
  obtain ⟨blocks, d1, d2⟩ := D.drawn
  generalize hp : (Res.diverge : Res Unit) = x at hb
  cases hb with
  | noRandom h =>
    rw [d1, List.length_append, D.randomLength] at h
    omega
  | keys random' more hello certs data rest l e1 e2 h1 h2 =>
    subst hp
    rcases h2 with ⟨_, h2⟩ | ⟨h2, _⟩
    · cases h2
    · rw [d1] at e1
      obtain ⟨rfl, rfl⟩ := List.append_inj e1 (D.randomLength.trans e2.symm)
      obtain ⟨x, _, hr⟩ := C55_first_below_p m blocks block _ d2 D.blockLength D.below
      have := C54_returns m data _ _ x hr (by rw [h2]; simp)
      rw [h2] at this
      exact this
  | record => cases hp

/-! ### C61 is false -/

theorem flight_keys_panic {m : Mode} {c : TlsClient} {s1 s2 s3 : TlsReader} {sh : ServerHello} {certs : CertificateList} {ske : ObscureData} {rng' : Rng}
    (h1 : (readMessage m).run c.reader = (.ok (.HandshakeMessage (.server_hello sh)), s1))
    (hc : sh.serverVersion = ⟨3, 3⟩ ∧ sh.cipherSuite = .TLS_ECDHE_RSA_WITH_CHACHA20_POLY1305_SHA256 ∧ sh.compressionMethod = .null)
    (h2 : (readMessage m).run s1 = (.ok (.HandshakeMessage (.certificate certs)), s2))
    (h3 : (readMessage m).run s2 = (.ok (.HandshakeMessage (.server_key_exchange ske)), s3)) (hk : (Ecdhe.computeKeys m ske.data).run c.rng = (.panic, rng')) :
    ∃ c', (readFlight m).run c = (.panic, c') := by
  refine ⟨{ c with reader := s3, rng := rng' }, ?_⟩
  rw [readFlight, St.bind_of_ok (onReader_ok (expectServerHello_iff.mpr h1)), checkServerHello_eq, if_pos hc, St.bind_of_ok (St.lift_run _ _),
    St.bind_of_ok (onReader_ok (c := { c with reader := s1 }) (expectCertificate_iff.mpr h2)),
    St.bind_of_ok (onReader_ok (c := { c with reader := s2 }) (expectServerKeyExchange_iff.mpr h3)),
    St.bind_of_panic (onRng_ok (c := { c with reader := s3 }) hk)]

theorem keys_panic (point : Bytes) (hl : point.length = 65) (h : NPoint256.fromUncompressedBytes .debug point = .panic) (sig : Bytes) (hsig : sig.length < 2 ^ 16) (rng : Rng) :
    (Ecdhe.computeKeys .debug ([3] ++ beBytes 2 23 ++ (65 :: point) ++ [4, 1] ++ beBytes 2 sig.length ++ sig)).run rng = (.panic, rng) := by
  obtain ⟨ps, e1, e2⟩ := read_keyExchange .secp256r1 point sig hl hsig
  have hc : TlsEnum.code NamedCurve.secp256r1 = 23 := rfl
  have h65 : UInt8.ofNat 65 = 65 := rfl
  rw [hl, hc, h65] at e2
  rw [computeKeys_point .debug _ _ _ rng e2, e1, h]

/-- C61 is false of debug builds: after any conforming ServerHello and Certificate, a ServerKeyExchange with an x-coordinate close to 2^256 makes `new` panic. No key and
no certificate is needed for that, so anyone on the path can do it. -/
theorem C61_debug_panics (rd : Reader) (wr : Writer) (rng : Rng) (hfa : wr.faults = []) {random block rest : Bytes} (D : Draws rng.bytes random block rest) {V : ServerValues} (hV : V.Conforms)
    (X Y : Nat) (hX : 2 ^ 256 + 2 * P256.p ≤ 3 * X) (hX' : X < 2 ^ 256) (sig more : Bytes) (hsig : sig.length < 2 ^ 16) (fs : List Bytes)
    (hc : Cuts fs (V.first 2 ++ (handshakeBytes 12 ([3] ++ beBytes 2 23 ++ (65 :: (4 :: (beBytes 32 X ++ beBytes 32 Y))) ++ [4, 1] ++ beBytes 2 sig.length ++ sig) ++ more))) (l : List Sym)
    (hrd : rd.stream = ofBytes (fs.flatMap (recordBytes 22 3 3)) ++ l) : (TlsClient.new .debug rd wr rng).1 = .panic := by
  obtain ⟨ske, hske⟩ : ∃ ske, ske = [3] ++ beBytes 2 23 ++ (65 :: (4 :: (beBytes 32 X ++ beBytes 32 Y))) ++ [4, 1] ++ beBytes 2 sig.length ++ sig := ⟨_, rfl⟩
  rw [← hske] at hc
  obtain ⟨rest', hm, -⟩ := hV.keys D .debug
  obtain ⟨f, hfit, v1, v3, -, -, -, b1, b2, -⟩ := session_flight hV random (clientPoint block) _ rfl
  have hck := And.intro v1 (And.intro hfit.suite v3)
  have hp := hc.pending rd l hrd
  have hp : ClearPending (TlsReader.new rd) (serverHelloBytes V.random V.sessionId (extPart V.exts) ++ (certificateBytes V.certs ++ (handshakeBytes 12 ske ++ more))) l := by
    simpa [ServerValues.first, ServerValues.messages] using hp
  have b3 : Framed (handshakeBytes 12 ske) (.server_key_exchange ⟨ske⟩) := Framed.of_write (ty := 12) (body := ske) trivial (write_obscure _) (by
    rw [hske]; simp; omega)
  obtain ⟨s1, r1, p1, -⟩ := hp.take .debug b1
  obtain ⟨s2, r2, p2, -⟩ := p1.take .debug b2
  obtain ⟨s3, r3, p3, -⟩ := p2.take .debug b3
  have hk : (Ecdhe.computeKeys .debug ske).run ⟨rest'⟩ = (.panic, ⟨rest'⟩) := by
    have hd := C48_debug_panics X Y hX hX'
    have hl : (4 :: (beBytes 32 X ++ beBytes 32 Y) : Bytes).length = 65 := by simp
    rw [hske]
    generalize (4 :: (beBytes 32 X ++ beBytes 32 Y) : Bytes) = pt at hd hl
    exact keys_panic pt hl hd sig hsig _
  obtain ⟨w', hsh, -⟩ := after_hello .debug rd wr rng hfa hm D.randomLength
  obtain ⟨c', he⟩ := flight_keys_panic (c := { fresh rd wr rng with rng := ⟨rest'⟩, writer := w' }) r1 hck r2 r3 hk
  refine new_result hfa (c := c') ?_
  rw [handshake, St.bind_of_ok hsh]
  dsimp only
  rw [St.bind_of_panic he]

theorem readMessage_panics {m : Mode} {s s' : TlsReader} (hb : Incomplete s.handshakeBuffer.buf) (h : (readRecord m).run s = (.panic, s')) : (readMessage m).run s = (.panic, s') := by
  have h1 : (onBuffer HandshakeBuffer.getMessage).run s = (.ok none, s) := by
    have hg := hb _ _ (List.append_nil _)
    have : (⟨s.handshakeBuffer.buf⟩ : HandshakeBuffer) = s.handshakeBuffer := rfl
    rw [this] at hg
    simp only [onBuffer, St.zoom_run, hg]
  rw [readMessage, St.bind_of_ok h1]
  show (messageLoop m (s.reader.bytes + 1)).run s = _
  rw [messageLoop, messageStep, St.bind_of_panic (St.bind_of_panic h)]

/-- C61 is false of all builds: a server that completes the key exchange and sends a protected record of more than 2^14 bytes (and not more than 2^14 + 2032) in place
of the Finished makes `new` panic. RFC 5246 6.2.3 demands a record_overflow alert there. -/
theorem C61_overlong_panics (m : Mode) (rd : Reader) (wr : Writer) (rng : Rng) (hfa : wr.faults = []) {random block rest : Bytes} (D : Draws rng.bytes random block rest) {V : ServerValues}
    (hV : V.Conforms) {S : Session} (hS : S = V.session random (clientPoint block)) (ty : ContentType) (f : Bytes) (h1 : 2 ^ 14 < f.length) (h2 : f.length ≤ 2 ^ 14 + 2032)
    (fs : List Bytes) (hc : Cuts fs (V.first 4)) (l : List Sym)
    (hrd : rd.stream = ofBytes (fs.flatMap (recordBytes 22 3 3) ++ (recordBytes 20 3 3 [1] ++ protectedRecord S.keys.serverKey S.keys.serverIv 0 ty.toU8 f)) ++ l) :
    (TlsClient.new m rd wr rng).1 = .panic := by
  obtain ⟨s, g1, g2, g3, g4, g5, key⟩ := finished_position m rd wr rng hfa D hV hS [] Incomplete.nil
    (ofBytes (protectedRecord S.keys.serverKey S.keys.serverIv 0 ty.toU8 f) ++ l)
    (Cuts.pending (bytes := V.first 4 ++ []) (by rw [List.append_nil]; exact hc) rd _ (by rw [hrd]; simp only [ofBytes_append, List.append_assoc]))
  obtain ⟨c, e1, e2⟩ := C18_encrypted_too_long_panics m m S.keys.serverKey S.keys.serverIv f 0 ty g4 h1 h2
  have hnon : nonceFor (some S.keys.serverIv) 0 = recordNonce S.keys.serverIv 0 := by rw [nonceFor, xorIv_spec _ _ g5]; rfl
  rw [C39_encrypt_is_rfc8439 m _ _ _ _ g4 (nonceFor_length _ _) (by omega), hnon] at e1
  have e1 := Res.ok.inj e1
  have hp := e2 (keyed m s S.keys.serverKey) l rfl g3 rfl (by
    show s.reader.stream = _
    rw [g1, protectedRecord, ← e1]; rfl)
  rcases hr : (readRecord m).run (keyed m s S.keys.serverKey) with ⟨x, s'⟩
  rw [hr] at hp
  simp only at hp
  subst hp
  exact key _ _ (readMessage_panics (by show Incomplete s.handshakeBuffer.buf; rw [g2]; exact Incomplete.nil) hr) (by intro d e; cases e)

/-! ### The hypotheses are met -/

/-- A server that sends an x-coordinate of 2^256 - 1, in one stream of records. -/
example (random : Bytes) (P : Spec.P256.curve.Point) (V : ServerValues) (hV : V.Conforms) : ∃ (rd : Reader) (fs : List Bytes), 2 ^ 256 + 2 * P256.p ≤ 3 * (2 ^ 256 - 1) ∧
    Cuts fs (V.first 2 ++ (handshakeBytes 12 ([3] ++ beBytes 2 23 ++ (65 :: (4 :: (beBytes 32 (2 ^ 256 - 1) ++ beBytes 32 0))) ++ [4, 1] ++ beBytes 2 ([] : Bytes).length ++ []) ++ [])) ∧
    rd.stream = ofBytes (fs.flatMap (recordBytes 22 3 3)) ++ [] := by
  refine ⟨byteByByte _, _, by decide, cuts_exists _ ?_, by rw [stream_byteByByte]; exact (List.append_nil _).symm⟩
  have := flight_length hV (S := V.session random P) rfl
  have := first_le (V := V) random P 2
  simp [handshakeBytes]
  omega

/-- A server that sends 16385 zero bytes in a protected record in place of the Finished. -/
example (random : Bytes) (P : Spec.P256.curve.Point) (V : ServerValues) (hV : V.Conforms) (S : Session) : ∃ (rd : Reader) (fs : List Bytes) (f : Bytes), 2 ^ 14 < f.length ∧ f.length ≤ 2 ^ 14 + 2032 ∧
    Cuts fs (V.first 4) ∧
    rd.stream = ofBytes (fs.flatMap (recordBytes 22 3 3) ++ (recordBytes 20 3 3 [1] ++ protectedRecord S.keys.serverKey S.keys.serverIv 0 ContentType.ApplicationDataTy.toU8 f)) ++ [] := by
  refine ⟨byteByByte _, _, List.replicate 16385 0, by rw [List.length_replicate]; decide, by rw [List.length_replicate]; decide, cuts_exists _ ?_, by rw [stream_byteByByte]; exact (List.append_nil _).symm⟩
  have := flight_length hV (S := V.session random P) rfl
  have := first_le (V := V) random P 4
  omega

theorem append_record {b : Bytes} {p l : List Sym} {ty a c : UInt8} {f : Bytes} (h : ofBytes b = p ++ (ofBytes (recordBytes ty a c f) ++ l)) : f.length ≤ b.length := by
  have := congrArg List.length h
  simp only [ofBytes, recordBytes, List.length_append, List.length_map] at this
  simp at this
  omega

/-- A server that answers with any bytes, 16400 at most: there is no long record, and in release builds `new` does not panic. -/
example (b : Bytes) (hb : b.length ≤ 16400) (wr : Writer) (rng : Rng) : (TlsClient.new .release (byteByByte b) wr rng).1 ≠ .panic := by
  refine C61_short_records_partial .release _ wr rng ?_ ?_ (by intro h; cases h)
  · rw [stream_byteByByte]
    have : countBytes (ofBytes b) = b.length := by
      clear hb
      induction b with
      | nil => rfl
      | cons x b ih => exact congrArg (· + 1) ih
    omega
  · intro p l ty a c f h
    rw [stream_byteByByte] at h
    have := append_record h
    omega

end Husk
