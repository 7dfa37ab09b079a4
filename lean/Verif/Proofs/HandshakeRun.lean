import Verif.Proofs.HandshakeSteps
/-! The four parts of `handshake`: every outcome of the parts that write, what was read if the parts that read succeed. -/

namespace Husk

open Item Spec TlsReader

namespace TlsClient

/-- A step that does not touch the record writer. -/
def Keeps (x : St TlsClient α) : Prop := ∀ c, (x.run c).2.writer = c.writer

namespace Keeps

theorem pure (a : α) : Keeps (pure a : St TlsClient α) := fun _ => rfl
theorem lift (r : Res α) : Keeps (St.lift r : St TlsClient α) := fun _ => rfl
theorem onReader (x : St TlsReader α) : Keeps (onReader x) := fun _ => rfl
theorem onRng (x : St Rng α) : Keeps (onRng x) := fun _ => rfl
theorem bind {x : St TlsClient α} {f : α → St TlsClient β} (hx : Keeps x) (hf : ∀ a, Keeps (f a)) : Keeps (x >>= f) := by
  intro c
  have h := hx c
  rw [St.bind_run]
  rcases hr : x.run c with ⟨r, c1⟩
  rw [hr] at h
  cases r with
  | ok a => exact (hf a c1).trans h
  | err k => exact h
  | panic => exact h
  | diverge => exact h

end Keeps

theorem readFlight_keeps (m : Mode) : Keeps (readFlight m) :=
  Keeps.bind (Keeps.onReader _) fun _ => Keeps.bind (Keeps.lift _) fun _ => Keeps.bind (Keeps.onReader _) fun _ => Keeps.bind (Keeps.onReader _) fun _ =>
    Keeps.bind (Keeps.onRng _) fun _ => Keeps.bind (Keeps.onReader _) fun _ => Keeps.pure _

theorem readFinished_keeps (m : Mode) (master readKey msgs : Bytes) (finished : Handshake) : Keeps (readFinished m master readKey msgs finished) :=
  Keeps.bind (Keeps.onReader _) fun _ => Keeps.bind (Keeps.onReader _) fun _ => Keeps.bind (Keeps.onReader _) fun _ => Keeps.lift _

/-- Writing a message of one record on the client. -/
theorem client_write_one (m : Mode) (h : Handshake) (data : Bytes) (hd : TlsItem.write h = .ok data) (c : TlsClient) (hs : c.writer.SealsShort) (h0 : data ≠ [])
    (hl : data.length ≤ RECORD_MAX_LEN) (hn : c.writer.writeCount.toNat + 1 < 2 ^ 64) :
    (∃ s w', (onWriter (TlsWriter.writeHandshake m h)).run c = (.ok (), { c with writer := w' }) ∧ c.writer.Wrote ⟨.HandshakeTy, 3, 3, data⟩ s w') ∨
    (∃ s w' n, (onWriter (TlsWriter.writeHandshake m h)).run c = (.err .IoFailure, { c with writer := w' }) ∧ c.writer.sealed ⟨.HandshakeTy, 3, 3, data⟩ = .ok s ∧
      w'.writer.wire = c.writer.writer.wire ++ (recordBytes 22 3 3 s).take n ∧ c.writer.writer.faults ≠ [] ∧
      w'.encryptor = c.writer.encryptor ∧ w'.iv = c.writer.iv ∧ w'.writeCount = c.writer.writeCount) := by
  have e : (TlsWriter.writeHandshake m h).run c.writer = (TlsWriter.writeData m .HandshakeTy data).run c.writer := by
    rw [TlsWriter.writeHandshake, hd, St.bind_of_ok (St.lift_run _ _)]
  rcases write_one m .HandshakeTy data c.writer hs h0 hl hn with ⟨s, w', h1, h2⟩ | ⟨s, w', n, h1, h2⟩
  · exact Or.inl ⟨s, w', onWriter_ok (e.trans h1), h2⟩
  · exact Or.inr ⟨s, w', n, onWriter_ok (e.trans h1), h2⟩

/-- `sendHello`. -/
theorem sendHello_cases (m : Mode) (c : TlsClient) (h1 : c.writer.encryptor = none) (h2 : c.writer.writeCount = 0) :
    ((sendHello m).run c = (.diverge, { c with rng := ⟨[]⟩ }) ∧ c.rng.bytes.length < 32) ∨
    ∃ cr rest, c.rng.bytes = cr ++ rest ∧ cr.length = 32 ∧
      ((∃ w', (sendHello m).run c = (.ok (cr, helloMessage cr), { c with rng := ⟨rest⟩, writer := w' }) ∧
          c.writer.Wrote ⟨.HandshakeTy, 3, 3, clientHelloBytes cr⟩ (clientHelloBytes cr) w') ∨
       (∃ w' n, (sendHello m).run c = (.err .IoFailure, { c with rng := ⟨rest⟩, writer := w' }) ∧ c.writer.writer.faults ≠ [] ∧
          w'.writer.wire = c.writer.writer.wire ++ (recordBytes 22 3 3 (clientHelloBytes cr)).take n ∧
          w'.encryptor = none ∧ w'.writeCount = 0)) := by
  by_cases hr : 32 ≤ c.rng.bytes.length
  · right
    refine ⟨c.rng.bytes.take 32, c.rng.bytes.drop 32, (List.take_append_drop _ _).symm, by rw [List.length_take]; omega, ?_⟩
    have hl : (c.rng.bytes.take 32).length = 32 := by rw [List.length_take]; omega
    obtain ⟨cr, hcr⟩ : ∃ cr, cr = c.rng.bytes.take 32 := ⟨_, rfl⟩
    have hrun : (onRng (Rng.fillBytes 32)).run c = (.ok (c.rng.bytes.take 32), { c with rng := ⟨c.rng.bytes.drop 32⟩ }) := onRng_ok (Ecdhe.fillBytes_ok hr)
    rw [← hcr] at hl hrun ⊢
    obtain ⟨e1, e2, e3⟩ := clientHello_eq cr hl
    rw [sendHello, St.bind_of_ok hrun, e1, St.bind_of_ok (St.lift_run _ _)]
    have hne : clientHelloBytes cr ≠ [] := by intro h; rw [h] at e3; cases e3
    rcases client_write_one m (helloMessage cr) _ e2 { c with rng := ⟨c.rng.bytes.drop 32⟩ } (sealsShort_plain h1) hne (by rw [e3]; decide)
      (by show c.writer.writeCount.toNat + 1 < _; rw [h2]; decide) with ⟨s, w', g1, g2⟩ | ⟨s, w', n, g1, g2, g3, g4, g5, _, g7⟩
    · left
      have hs := g2.seal_ok
      rw [sealed_plain (show ({ c with rng := ⟨c.rng.bytes.drop 32⟩ } : TlsClient).writer.encryptor = none from h1)] at hs
      cases hs
      exact ⟨w', by rw [St.bind_of_ok g1, St.pure_run], g2⟩
    · right
      rw [sealed_plain (show ({ c with rng := ⟨c.rng.bytes.drop 32⟩ } : TlsClient).writer.encryptor = none from h1)] at g2
      cases g2
      exact ⟨w', n, by rw [St.bind_of_err g1], g4, g3, g5.trans h1, g7.trans h2⟩
  · left
    have hrun : (onRng (Rng.fillBytes 32)).run c = (.diverge, { c with rng := ⟨[]⟩ }) := onRng_ok (Ecdhe.fillBytes_short hr)
    exact ⟨St.bind_of_diverge hrun, by omega⟩

/-- What a successful `readFlight` has read. -/
structure FlightRead (m : Mode) (c : TlsClient) (f : ServerFlight) (s1 s2 s3 s4 : TlsReader) (rng : Rng) : Prop where
  hello : (readMessage m).run c.reader = (.ok (.HandshakeMessage (.server_hello f.hello)), s1)
  check : f.hello.serverVersion = ⟨3, 3⟩ ∧ f.hello.cipherSuite = .TLS_ECDHE_RSA_WITH_CHACHA20_POLY1305_SHA256 ∧ f.hello.compressionMethod = .null
  certs : (readMessage m).run s1 = (.ok (.HandshakeMessage (.certificate f.certs)), s2)
  ske : (readMessage m).run s2 = (.ok (.HandshakeMessage (.server_key_exchange f.ske)), s3)
  keys : (Ecdhe.computeKeys m f.ske.data).run c.rng = (.ok (f.keyData, f.preMasterSecret), rng)
  done : (readMessage m).run s3 = (.ok (.HandshakeMessage (.server_hello_done {})), s4)

theorem readFlight_ok {m : Mode} {c : TlsClient} {f : ServerFlight} {s1 s2 s3 s4 : TlsReader} {rng : Rng} (h : FlightRead m c f s1 s2 s3 s4 rng) :
    (readFlight m).run c = (.ok f, { c with reader := s4, rng := rng }) := by
  rw [readFlight, St.bind_of_ok (onReader_ok (expectServerHello_iff.mpr h.hello)), checkServerHello_eq, if_pos h.check, St.bind_of_ok (St.lift_run _ _),
    St.bind_of_ok (onReader_ok (c := { c with reader := s1 }) (expectCertificate_iff.mpr h.certs)),
    St.bind_of_ok (onReader_ok (c := { c with reader := s2 }) (expectServerKeyExchange_iff.mpr h.ske)),
    St.bind_of_ok (onRng_ok (c := { c with reader := s3 }) h.keys)]
  dsimp only
  rw [St.bind_of_ok (onReader_ok (c := { c with reader := s3, rng := rng }) (expectServerHelloDone_iff.mpr h.done))]
  rfl

theorem readFlight_inv {m : Mode} {c c' : TlsClient} {f : ServerFlight} (h : (readFlight m).run c = (.ok f, c')) :
    ∃ s1 s2 s3 s4 rng, FlightRead m c f s1 s2 s3 s4 rng ∧ c' = { c with reader := s4, rng := rng } := by
  obtain ⟨hello, c1, h1, h⟩ := St.bind_eq_ok h
  obtain ⟨s1, g1, rfl⟩ := onReader_inv h1
  obtain ⟨_, c1, h2, h⟩ := St.bind_eq_ok h
  rw [St.lift_run, checkServerHello_eq] at h2
  split at h2
  · rename_i hchk
    cases h2
    obtain ⟨certs, c1, h3, h⟩ := St.bind_eq_ok h
    obtain ⟨s2, g3, rfl⟩ := onReader_inv h3
    obtain ⟨ske, c1, h4, h⟩ := St.bind_eq_ok h
    obtain ⟨s3, g4, rfl⟩ := onReader_inv h4
    obtain ⟨⟨kd, pms⟩, c1, h5, h⟩ := St.bind_eq_ok h
    obtain ⟨rng, g5, rfl⟩ := onRng_inv h5
    obtain ⟨d, c1, h6, h⟩ := St.bind_eq_ok h
    obtain ⟨s4, g6, rfl⟩ := onReader_inv h6
    cases h
    exact ⟨s1, s2, s3, s4, rng, ⟨expectServerHello_iff.mp g1, hchk, expectCertificate_iff.mp g3, expectServerKeyExchange_iff.mp g4, g5, expectServerHelloDone_iff.mp g6⟩, rfl⟩
  · cases h2

/-- The server's first flight as the client serialises it again. -/
def serverMessages (f : ServerFlight) : Bytes :=
  bytesOf (.server_hello f.hello) ++ (bytesOf (.certificate f.certs) ++ (bytesOf (.server_key_exchange f.ske) ++ handshakeBytes 14 []))

/-- What the flight must satisfy for the second flight to be computed. -/
structure FlightFit (f : ServerFlight) (pub : Bytes) : Prop where
  suite : f.hello.cipherSuite = suite
  random : f.hello.random.data.length = 32
  key : f.keyData = 65 :: pub
  point : pub.length = 65
  pms : f.preMasterSecret.length ≤ 64
  len : (serverMessages f).length < 2 ^ 60

theorem transcript_eq (cr : Bytes) (f : ServerFlight) (pub : Bytes) (hc : cr.length = 32) (hf : FlightFit f pub) :
    transcript (helloMessage cr) f.hello f.certs f.ske (.client_key_exchange ⟨65 :: pub⟩) = .ok (handshakeMessages cr (serverMessages f) pub) ∧
      (handshakeMessages cr (serverMessages f) pub).length < 2 ^ 61 := by
  obtain ⟨_, e1, l1⟩ := clientHello_eq cr hc
  obtain ⟨b2, e2⟩ := write_serverHello_ok f.hello hf.suite
  obtain ⟨b3, e3⟩ := write_certificate_ok f.certs
  obtain ⟨b4, e4⟩ := write_serverKeyExchange_ok f.ske
  obtain ⟨_, e6, l6⟩ := clientKeyExchange_eq pub hf.point
  have hlen := hf.len
  constructor
  · rw [transcript, e1, Res.bind_ok, e2, Res.bind_ok, e3, Res.bind_ok, e4, Res.bind_ok, write_serverHelloDone, Res.bind_ok, e6, Res.bind_ok,
      handshakeMessages, serverMessages, bytesOf_eq e2, bytesOf_eq e3, bytesOf_eq e4]
    simp only [List.append_assoc]
    rfl
  · simp only [handshakeMessages, List.length_append, l1, l6]
    omega

/-- The master secret, the keys and the client's Finished value, by the specification. -/
noncomputable def ServerFlight.master (f : ServerFlight) (cr : Bytes) : Bytes := tlsMaster f.preMasterSecret cr f.hello.random.data
noncomputable def ServerFlight.keys (f : ServerFlight) (cr : Bytes) : Keys := keysOf (f.master cr) cr f.hello.random.data
noncomputable def ServerFlight.messages (f : ServerFlight) (cr pub : Bytes) : Bytes := handshakeMessages cr (serverMessages f) pub
noncomputable def ServerFlight.clientVerify (f : ServerFlight) (cr pub : Bytes) : Bytes := verifyDataOf (f.master cr) (ascii "client finished") (f.messages cr pub)

theorem FlightFit.master_length {f : ServerFlight} {pub : Bytes} (hf : FlightFit f pub) {cr : Bytes} (hc : cr.length = 32) : (f.master cr).length = 48 :=
  tlsMaster_length _ _ _ hf.pms hc hf.random

theorem FlightFit.clientVerify {f : ServerFlight} {pub : Bytes} (hf : FlightFit f pub) {cr : Bytes} (hc : cr.length = 32) (m : Mode) :
    verifyData m (f.master cr) clientFinishedLabel (f.messages cr pub) = .ok (f.clientVerify cr pub) ∧ (f.clientVerify cr pub).length = 12 := by
  have := verifyData_eq m (f.master cr) clientFinishedLabel (f.messages cr pub) (by rw [hf.master_length hc]; decide) (by decide) (transcript_eq cr f pub hc hf).2
  rw [clientFinishedLabel_eq] at this ⊢
  exact this

theorem FlightFit.keys_length {f : ServerFlight} {pub : Bytes} (hf : FlightFit f pub) {cr : Bytes} (hc : cr.length = 32) :
    (f.keys cr).clientKey.length = 32 ∧ (f.keys cr).serverKey.length = 32 ∧ (f.keys cr).clientIv.length = 12 ∧ (f.keys cr).serverIv.length = 12 := by
  obtain ⟨_, _, _, _, _, _, _, _, _, _, h1, h2, h3, h4⟩ := expand_eq .debug (f.master cr) cr f.hello.random.data (by rw [hf.master_length hc]; decide) hc hf.random
  exact ⟨h1, h2, h3, h4⟩

/-- `sendFinished`: either all three records go out, or the transport fails. -/
theorem sendFinished_cases (m : Mode) (cr : Bytes) (f : ServerFlight) (pub : Bytes) (hc : cr.length = 32) (hf : FlightFit f pub) (c : TlsClient)
    (h1 : c.writer.encryptor = none) (h2 : c.writer.iv = none) (h3 : c.reader.iv = none) (h4 : c.writer.writeCount.toNat ≤ 1) :
    (∃ w', (sendFinished m cr (helloMessage cr) f).run c =
        (.ok (f.master cr, (f.keys cr).serverKey, f.messages cr pub, .finished ⟨f.clientVerify cr pub⟩),
          { c with writer := w', reader := { c.reader with iv := some (f.keys cr).serverIv } }) ∧
      w'.writer.wire = c.writer.writer.wire ++ ((clientFlight cr pub (f.keys cr) (f.clientVerify cr pub)).drop 1).flatten ∧
      w'.encryptor = some (.chacha m (f.keys cr).clientKey) ∧ w'.iv = some (f.keys cr).clientIv ∧ w'.writeCount = 1 ∧
      (c.writer.writer.faults = [] → w'.writer.faults = [])) ∨
    (∃ c' n, (sendFinished m cr (helloMessage cr) f).run c = (.err .IoFailure, c') ∧ c.writer.writer.faults ≠ [] ∧
      c'.writer.writer.wire = c.writer.writer.wire ++ ((clientFlight cr pub (f.keys cr) (f.clientVerify cr pub)).drop 1).flatten.take n ∧
      (c'.writer.encryptor = none ∨ CrateWriter c'.writer) ∧ c'.writer.writeCount.toNat ≤ 3) := by
  obtain ⟨e1, e2, l2⟩ := clientKeyExchange_eq pub hf.point
  obtain ⟨v1, l3⟩ := hf.clientVerify hc m
  obtain ⟨e3, e4, l4⟩ := finished_eq _ l3
  obtain ⟨k1, k2, k3, k4⟩ := hf.keys_length hc
  have wne : clientKeyExchangeBytes pub ≠ [] := by intro h; rw [h] at l2; cases l2
  have fne : finishedBytes (f.clientVerify cr pub) ≠ [] := by intro h; rw [h] at l4; cases l4
  have hm48 : (f.master cr).length ≤ 64 := by rw [hf.master_length hc]; decide
  obtain ⟨R1, hR1⟩ : ∃ R, R = recordBytes 22 3 3 (clientKeyExchangeBytes pub) := ⟨_, rfl⟩
  obtain ⟨R2, hR2⟩ : ∃ R, R = recordBytes 20 3 3 [1] := ⟨_, rfl⟩
  obtain ⟨R3, hR3⟩ : ∃ R, R = protectedRecord (f.keys cr).clientKey (f.keys cr).clientIv 0 22 (finishedBytes (f.clientVerify cr pub)) := ⟨_, rfl⟩
  have hfl : ((clientFlight cr pub (f.keys cr) (f.clientVerify cr pub)).drop 1).flatten = R1 ++ (R2 ++ R3) := by
    rw [hR1, hR2, hR3, clientFlight]; simp
  rw [hfl]
  rcases client_write_one m _ _ e2 c (sealsShort_plain h1) wne (by rw [l2]; decide) (by omega) with ⟨s, w1, g1, g2⟩ | ⟨s, w1, n, g1, g2, g3, g4, g5, g6, g7⟩
  rotate_left
  · right
    rw [sealed_plain h1] at g2
    cases g2
    obtain ⟨n', hn'⟩ := TlsWriter.take_append_prefix [] R1 n (R2 ++ R3)
    refine ⟨_, n', by rw [sendFinished, hf.key, e1, St.bind_of_ok (St.lift_run _ _)]; exact St.bind_of_err g1, g4, ?_, Or.inl (g5.trans h1), by rw [g7]; omega⟩
    rw [g3, ← hR1]
    simpa using hn'
  have hs := g2.seal_ok
  rw [sealed_plain h1] at hs
  cases hs
  have w1e : w1.encryptor = none := g2.encryptor.trans h1
  have w1n : w1.writeCount.toNat ≤ 2 := by
    rw [g2.count]
    simp only [UInt64.toNat_add, UInt64.toNat_ofNat]
    omega
  rcases write_one m .ChangeCipherSpecTy [1] w1 (sealsShort_plain w1e) (by decide) (by decide) (by omega) with ⟨s, w2, q1, q2⟩ | ⟨s, w2, n, q1, q2, q3, q4, q5, q6, q7⟩
  rotate_left
  · right
    rw [sealed_plain w1e] at q2
    cases q2
    obtain ⟨n', hn'⟩ := TlsWriter.take_append_prefix R1 R2 n R3
    refine ⟨_, n', by rw [sendFinished, hf.key, e1, St.bind_of_ok (St.lift_run _ _), St.bind_of_ok g1]; exact St.bind_of_err (onWriter_ok (c := { c with writer := w1 }) q1), fun h => q4 (g2.faults h), ?_, Or.inl (q5.trans w1e), by rw [q7]; omega⟩
    show w2.writer.wire = _
    rw [q3, g2.wire, ← hn', hR1, hR2, List.append_assoc]
    rfl
  have hs := q2.seal_ok
  rw [sealed_plain w1e] at hs
  cases hs
  have w2e : w2.encryptor = none := q2.encryptor.trans w1e
  have v1' : verifyData m (tlsMaster f.preMasterSecret cr f.hello.random.data) clientFinishedLabel (handshakeMessages cr (serverMessages f) pub) = .ok (f.clientVerify cr pub) := v1
  obtain ⟨w3, hw3⟩ : ∃ w3 : TlsWriter, w3 = { w2 with encryptor := some (.chacha m (f.keys cr).clientKey), writeCount := 0, iv := some (f.keys cr).clientIv } := ⟨_, rfl⟩
  have hcw : CrateWriter w3 := ⟨m, _, k1, by rw [hw3]⟩
  have hseal : w3.sealed ⟨.HandshakeTy, 3, 3, finishedBytes (f.clientVerify cr pub)⟩ = _ :=
    sealed_chacha (m := m) (key := (f.keys cr).clientKey) (iv := (f.keys cr).clientIv) (by rw [hw3]) k1 (by rw [hw3]) k3 .HandshakeTy _ (by rw [l4]; decide)
  have hwire : w3.writer.wire = c.writer.writer.wire ++ (R1 ++ R2) := by
    rw [hw3]
    show w2.writer.wire = _
    rw [q2.wire, g2.wire, hR1, hR2, List.append_assoc]
    rfl
  have hfa : c.writer.writer.faults = [] → w3.writer.faults = [] := by
    intro h; rw [hw3]; exact q2.faults (g2.faults h)
  have hcnt : w3.writeCount = 0 := by rw [hw3]
  obtain ⟨c3, hc3⟩ : ∃ c3 : TlsClient, c3 = { c with writer := w3, reader := { c.reader with iv := some (f.keys cr).serverIv } } := ⟨_, rfl⟩
  have hc3w : c3.writer = w3 := by rw [hc3]
  rw [hcnt] at hseal
  have hrec : R3 = recordBytes 22 3 3 (Spec.Aead.sealMsg (f.keys cr).clientKey (recordNonce (f.keys cr).clientIv (0 : UInt64).toNat)
      (recordAad (0 : UInt64).toNat ContentType.HandshakeTy.toU8 3 3 (finishedBytes (f.clientVerify cr pub)).length) (finishedBytes (f.clientVerify cr pub))) := by
    rw [hR3]; rfl
  have hgo : (sendFinished m cr (helloMessage cr) f).run c = (onWriter (TlsWriter.writeHandshake m (.finished ⟨f.clientVerify cr pub⟩)) >>= fun _ =>
      (pure (f.master cr, (f.keys cr).serverKey, f.messages cr pub, Handshake.finished ⟨f.clientVerify cr pub⟩) : St TlsClient _)).run c3 := by
    rw [sendFinished, hf.key, e1, St.bind_of_ok (St.lift_run _ _), St.bind_of_ok g1, TlsWriter.writeChangeCipherSpec,
      St.bind_of_ok (onWriter_ok (c := { c with writer := w1 }) q1), masterSecret_eq m _ _ _ hf.pms hc hf.random, St.bind_of_ok (St.lift_run _ _),
      St.bind_of_ok (installKeys_eq m (tlsMaster f.preMasterSecret cr f.hello.random.data) _ _ hm48 hc hf.random _ (by exact w2e)
        (by show w2.iv = none; rw [q2.iv, g2.iv, h2]) (by exact h3)),
      (transcript_eq cr f pub hc hf).1, St.bind_of_ok (St.lift_run _ _), v1', St.bind_of_ok (St.lift_run _ _), e3, St.bind_of_ok (St.lift_run _ _), hc3, hw3]
    rfl
  rw [hgo]
  rcases client_write_one m _ _ e4 c3 (by rw [hc3w]; exact hcw.sealsShort) fne (by rw [l4]; decide) (by rw [hc3w, hcnt]; decide) with
    ⟨s, w4, r1, r2⟩ | ⟨s, w4, n, r1, r2, r3, r4, r5, r6, r7⟩
  · left
    have hs := r2.seal_ok
    rw [hc3w, hseal] at hs
    cases hs
    refine ⟨w4, ?_, ?_, ?_, ?_, ?_, ?_⟩
    · rw [St.bind_of_ok r1, St.pure_run, hc3]
    · rw [r2.wire, hc3w, hwire, hrec]; simp only [List.append_assoc]; rfl
    · rw [r2.encryptor, hc3w, hw3]
    · rw [r2.iv, hc3w, hw3]
    · rw [r2.count, hc3w, hcnt]; rfl
    · intro h; exact r2.faults (by rw [hc3w]; exact hfa h)
  · right
    rw [hc3w, hseal] at r2
    cases r2
    obtain ⟨n', hn'⟩ := TlsWriter.take_append_prefix (R1 ++ R2) R3 n []
    refine ⟨_, n', St.bind_of_err r1, fun h => r4 (by rw [hc3w]; exact hfa h), ?_, Or.inr ⟨m, _, k1, ?_⟩, ?_⟩
    · show w4.writer.wire = _
      rw [List.append_nil] at hn'
      rw [r3, hc3w, hwire, ← hrec, List.append_assoc, hn', List.append_assoc]
    · show w4.encryptor = _; rw [r5, hc3w, hw3]
    · show w4.writeCount.toNat ≤ 3; rw [r7, hc3w, hcnt]; decide

/-! ### Reading -/

theorem Took.same {s s' : TlsReader} {recs : List Record} (h : Took s recs s') : s'.decryptor = s.decryptor ∧ s'.iv = s.iv := by
  induction h with
  | nil _ a _ c => exact ⟨a, c⟩
  | cons _ _ _ b _ d _ ih => exact ⟨ih.1.trans b, ih.2.trans d⟩

theorem readMessage_same {m : Mode} {s s' : TlsReader} {msg : Message} (h : (readMessage m).run s = (.ok msg, s')) :
    s'.decryptor = s.decryptor ∧ s'.iv = s.iv := by
  obtain ⟨recs, h1, _⟩ := readMessage_inv h
  exact Took.same h1

/-- A handshake message that was delivered is complete and well formed, and no longer than the 24-bit length allows. -/
theorem delivered_wf {m : Mode} {s s' : TlsReader} {h : Handshake} (e : (readMessage m).run s = (.ok (.HandshakeMessage h), s')) :
    wf h ∧ ∀ b, TlsItem.write h = .ok b → b.length < 2 ^ 24 + 4 := by
  obtain ⟨recs, _, _, h2⟩ := readMessage_inv e
  refine ⟨?_, fun b hb => takes_write h2 hb⟩
  obtain ⟨ty, body, hl, _, hr⟩ := takes_inv h2
  obtain ⟨-, n, body0, _, _, _, w, _⟩ := Handshake.read_inv hr
  exact w

/-- A flight that was read lets the client go on. -/
theorem FlightRead.fit {m : Mode} {c : TlsClient} {f : ServerFlight} {s1 s2 s3 s4 : TlsReader} {rng : Rng} (h : FlightRead m c f s1 s2 s3 s4 rng) :
    ∃ X Y, FlightFit f (4 :: (beBytes 32 X ++ beBytes 32 Y)) ∧ X < P256.p ∧ Y < P256.p := by
  obtain ⟨⟨X, Y, hk, hX, hY⟩, hp⟩ := C53_shape m _ _ _ _ _ h.keys
  obtain ⟨b1, e1⟩ := write_serverHello_ok f.hello h.check.2.1
  obtain ⟨b2, e2⟩ := write_certificate_ok f.certs
  obtain ⟨b3, e3⟩ := write_serverKeyExchange_ok f.ske
  have l1 := (delivered_wf h.hello).2 b1 e1
  have l2 := (delivered_wf h.certs).2 b2 e2
  have l3 := (delivered_wf h.ske).2 b3 e3
  refine ⟨X, Y, ⟨h.check.2.1, (delivered_wf h.hello).1.1, hk, by simp, by rw [hp]; decide, ?_⟩, hX, hY⟩
  simp only [serverMessages, bytesOf_eq e1, bytesOf_eq e2, bytesOf_eq e3, List.length_append]
  simp only [handshakeBytes, List.length_cons, List.length_append, beBytes_length, List.length_nil]
  omega

theorem FlightRead.same {m : Mode} {c : TlsClient} {f : ServerFlight} {s1 s2 s3 s4 : TlsReader} {rng : Rng} (h : FlightRead m c f s1 s2 s3 s4 rng) :
    s4.decryptor = c.reader.decryptor ∧ s4.iv = c.reader.iv := by
  have a := readMessage_same h.hello
  have b := readMessage_same h.certs
  have d := readMessage_same h.ske
  have e := readMessage_same h.done
  exact ⟨e.1.trans (d.1.trans (b.1.trans a.1)), e.2.trans (d.2.trans (b.2.trans a.2))⟩

/-- The server's Finished value by the specification. -/
noncomputable def ServerFlight.serverVerify (f : ServerFlight) (cr pub : Bytes) : Bytes :=
  verifyDataOf (f.master cr) (ascii "server finished") (f.messages cr pub ++ finishedBytes (f.clientVerify cr pub))

theorem checkFinished_eq {f : ServerFlight} {pub cr : Bytes} (hf : FlightFit f pub) (hc : cr.length = 32) (m : Mode) (vd : VerifyData) (hv : vd.data.length = 12) :
    checkFinished m (f.master cr) (f.messages cr pub) (.finished ⟨f.clientVerify cr pub⟩) vd =
      if vd.data = f.serverVerify cr pub then .ok () else .err .DecryptError := by
  obtain ⟨_, l3⟩ := hf.clientVerify hc m
  obtain ⟨_, e4, l4⟩ := finished_eq _ l3
  have hlen : (f.messages cr pub ++ finishedBytes (f.clientVerify cr pub)).length < 2 ^ 61 := by
    have := hf.len
    obtain ⟨_, _, l1⟩ := clientHello_eq cr hc
    obtain ⟨_, _, l6⟩ := clientKeyExchange_eq pub hf.point
    simp only [ServerFlight.messages, handshakeMessages, List.length_append, l1, l4, l6]
    omega
  obtain ⟨v1, v2⟩ := verifyData_eq m (f.master cr) serverFinishedLabel _ (by rw [hf.master_length hc]; decide) (by decide) hlen
  rw [serverFinishedLabel_eq] at v1 v2
  rw [checkFinished, e4, Res.bind_ok, serverFinishedLabel_eq, v1, Res.bind_ok, C43_crypto_compare_is_equality m _ _ (hv.trans v2.symm), Res.bind_ok]
  rw [ServerFlight.serverVerify]
  by_cases he : vd.data = verifyDataOf (f.master cr) (ascii "server finished") (f.messages cr pub ++ finishedBytes (f.clientVerify cr pub))
  · rw [decide_eq_true he, if_pos he]; rfl
  · rw [decide_eq_false he, if_neg he]; rfl

/-- The reader once the key of the server is installed. -/
def keyed (m : Mode) (s : TlsReader) (key : Bytes) : TlsReader := { s with decryptor := some (.chacha m key), readCount := 0 }

/-- `readFinished` when ChangeCipherSpec and a Finished message come. -/
theorem readFinished_eq {f : ServerFlight} {pub cr : Bytes} (hf : FlightFit f pub) (hc : cr.length = 32) {m : Mode} {c : TlsClient} {s1 s2 : TlsReader} {vd : VerifyData}
    (hd : c.reader.decryptor = none) (h1 : (readMessage m).run c.reader = (.ok .ChangeCipherSpecMessage, s1))
    (h2 : (readMessage m).run (keyed m s1 (f.keys cr).serverKey) = (.ok (.HandshakeMessage (.finished vd)), s2)) :
    (readFinished m (f.master cr) (f.keys cr).serverKey (f.messages cr pub) (.finished ⟨f.clientVerify cr pub⟩)).run c =
      (if vd.data = f.serverVerify cr pub then .ok () else .err .DecryptError, { c with reader := s2 }) := by
  have hs1 := (readMessage_same h1).1.trans hd
  have hset : (TlsReader.setDecryptor (.chacha m (f.keys cr).serverKey)).run s1 = (.ok (), keyed m s1 (f.keys cr).serverKey) := by
    simp only [TlsReader.setDecryptor, hs1, keyed]
  rw [readFinished, St.bind_of_ok (onReader_ok (readChangeCipherSpec_ok h1)), St.bind_of_ok (onReader_ok (c := { c with reader := s1 }) hset),
    St.bind_of_ok (onReader_ok (c := { c with reader := keyed m s1 (f.keys cr).serverKey }) (expectFinished_iff.mpr h2)), St.lift_run,
    checkFinished_eq hf hc m vd (delivered_wf h2).1]

/-- What a successful `readFinished` has read. -/
theorem readFinished_inv {f : ServerFlight} {pub cr : Bytes} (hf : FlightFit f pub) (hc : cr.length = 32) {m : Mode} {c c' : TlsClient} {u : Unit}
    (hd : c.reader.decryptor = none)
    (h : (readFinished m (f.master cr) (f.keys cr).serverKey (f.messages cr pub) (.finished ⟨f.clientVerify cr pub⟩)).run c = (.ok u, c')) :
    ∃ s1 s2, (readMessage m).run c.reader = (.ok .ChangeCipherSpecMessage, s1) ∧
      (readMessage m).run (keyed m s1 (f.keys cr).serverKey) = (.ok (.HandshakeMessage (.finished ⟨f.serverVerify cr pub⟩)), s2) ∧ c' = { c with reader := s2 } := by
  have hall := h
  obtain ⟨_, c1, h1, h⟩ := St.bind_eq_ok h
  obtain ⟨s1, g1, rfl⟩ := onReader_inv h1
  obtain ⟨_, c1, h2, h⟩ := St.bind_eq_ok h
  obtain ⟨s1', g2, rfl⟩ := onReader_inv h2
  have g1 := readChangeCipherSpec_inv g1
  have hs1 := (readMessage_same g1).1.trans hd
  have hset : (TlsReader.setDecryptor (.chacha m (f.keys cr).serverKey)).run s1 = (.ok (), keyed m s1 (f.keys cr).serverKey) := by
    simp only [TlsReader.setDecryptor, hs1, keyed]
  have e := g2.symm.trans hset
  simp only [Prod.mk.injEq, true_and] at e
  subst e
  obtain ⟨vd, c1, h3, h⟩ := St.bind_eq_ok h
  obtain ⟨s2, g3, rfl⟩ := onReader_inv h3
  have g3 := expectFinished_iff.mp g3
  rw [readFinished_eq hf hc hd g1 g3] at hall
  split at hall
  · rename_i he
    cases hall
    refine ⟨s1, s2, g1, ?_, rfl⟩
    rw [← he]
    exact g3
  · cases hall

/-! ### The whole handshake -/

/-- A client before the handshake. -/
structure Fresh (c : TlsClient) : Prop where
  encryptor : c.writer.encryptor = none
  writerIv : c.writer.iv = none
  count : c.writer.writeCount = 0
  decryptor : c.reader.decryptor = none
  readerIv : c.reader.iv = none

/-- The ways a handshake can go. -/
inductive Outcome (m : Mode) (c : TlsClient) : Res Unit → TlsClient → Prop
  /-- The random generator does not return. -/
  | noRandom {c'} : c.rng.bytes.length < 32 → c'.writer = c.writer → Outcome m c .diverge c'
  /-- The transport failed during the ClientHello. -/
  | helloLost {c'} (cr rest : Bytes) (n : Nat) : c.rng.bytes = cr ++ rest → cr.length = 32 → c.writer.writer.faults ≠ [] →
      c'.writer.writer.wire = c.writer.writer.wire ++ (recordBytes 22 3 3 (clientHelloBytes cr)).take n → c'.writer.encryptor = none →
      c'.writer.writeCount.toNat ≤ 3 → Outcome m c (.err .IoFailure) c'
  /-- Only the ClientHello was sent. -/
  | flightFailed {x c'} (cr rest : Bytes) : c.rng.bytes = cr ++ rest → cr.length = 32 → x ≠ .ok () →
      c'.writer.writer.wire = c.writer.writer.wire ++ recordBytes 22 3 3 (clientHelloBytes cr) → c'.writer.encryptor = none →
      c'.writer.writeCount.toNat ≤ 3 → (c.writer.writer.faults = [] → c'.writer.writer.faults = []) → Outcome m c x c'
  /-- The transport failed during the second flight. -/
  | secondLost {c'} (cr rest : Bytes) (f : ServerFlight) (pub : Bytes) (n : Nat) : c.rng.bytes = cr ++ rest → cr.length = 32 → FlightFit f pub →
      c.writer.writer.faults ≠ [] →
      c'.writer.writer.wire = c.writer.writer.wire ++ (clientFlight cr pub (f.keys cr) (f.clientVerify cr pub)).flatten.take n →
      (c'.writer.encryptor = none ∨ CrateWriter c'.writer) → c'.writer.writeCount.toNat ≤ 3 → Outcome m c (.err .IoFailure) c'
  /-- Everything was sent. -/
  | sent {x c'} (cr rest : Bytes) (f : ServerFlight) (pub : Bytes) (s1 s2 s3 s4 : TlsReader) (rng : Rng) (c4 : TlsClient) : c.rng.bytes = cr ++ rest → cr.length = 32 →
      FlightRead m { c with rng := ⟨rest⟩ } f s1 s2 s3 s4 rng → FlightFit f pub →
      c4.reader = { s4 with iv := some (f.keys cr).serverIv } → c4.rng = rng → c4.buf = c.buf →
      (readFinished m (f.master cr) (f.keys cr).serverKey (f.messages cr pub) (.finished ⟨f.clientVerify cr pub⟩)).run c4 = (x, c') →
      c'.writer.writer.wire = c.writer.writer.wire ++ (clientFlight cr pub (f.keys cr) (f.clientVerify cr pub)).flatten →
      c'.writer.encryptor = some (.chacha m (f.keys cr).clientKey) → c'.writer.iv = some (f.keys cr).clientIv → c'.writer.writeCount = 1 →
      (c.writer.writer.faults = [] → c'.writer.writer.faults = []) → Outcome m c x c'

theorem handshake_outcome (m : Mode) (c : TlsClient) (hfr : Fresh c) : Outcome m c ((handshake m).run c).1 ((handshake m).run c).2 := by
  rcases sendHello_cases m c hfr.encryptor hfr.count with ⟨h1, h2⟩ | ⟨cr, rest, hr, hl, ⟨w1, h1, h2⟩ | ⟨w1, n, h1, h2, h3, h4, h5⟩⟩
  · rw [handshake, St.bind_of_diverge h1]
    exact .noRandom h2 rfl
  rotate_left
  · rw [handshake, St.bind_of_err h1]
    exact .helloLost cr rest n hr hl h2 h3 h4 (by rw [h5]; decide)
  rw [handshake, St.bind_of_ok h1]
  dsimp only
  have hw1 : w1.encryptor = none := h2.encryptor.trans hfr.encryptor
  have hn1 : w1.writeCount = 1 := by rw [h2.count, hfr.count]; rfl
  rcases hrf : (readFlight m).run { c with rng := ⟨rest⟩, writer := w1 } with ⟨x, c2⟩
  have hk : c2.writer = w1 := by have := readFlight_keeps m { c with rng := ⟨rest⟩, writer := w1 }; rw [hrf] at this; exact this
  have hfail : ∀ x : Res Unit, x ≠ .ok () → Outcome m c x c2 := fun x hx =>
    .flightFailed cr rest hr hl hx (by rw [hk]; exact h2.wire) (by rw [hk]; exact hw1) (by rw [hk, hn1]; decide) (by rw [hk]; exact h2.faults)
  cases x with
  | err k => rw [St.bind_of_err hrf]; exact hfail _ (by simp)
  | panic => rw [St.bind_of_panic hrf]; exact hfail _ (by simp)
  | diverge => rw [St.bind_of_diverge hrf]; exact hfail _ (by simp)
  | ok f =>
    rw [St.bind_of_ok hrf]
    obtain ⟨s1, s2, s3, s4, rng, hR, rfl⟩ := readFlight_inv hrf
    obtain ⟨X, Y, hfit, _⟩ := hR.fit
    have hR' : FlightRead m { c with rng := ⟨rest⟩ } f s1 s2 s3 s4 rng := ⟨hR.hello, hR.check, hR.certs, hR.ske, hR.keys, hR.done⟩
    generalize (4 :: (beBytes 32 X ++ beBytes 32 Y) : Bytes) = pub at hfit
    have hflat : (clientFlight cr pub (f.keys cr) (f.clientVerify cr pub)).flatten = recordBytes 22 3 3 (clientHelloBytes cr) ++
        ((clientFlight cr pub (f.keys cr) (f.clientVerify cr pub)).drop 1).flatten := rfl
    rcases sendFinished_cases m cr f pub hl hfit { c with rng := rng, writer := w1, reader := s4 } hw1 (h2.iv.trans hfr.writerIv) (hR.same.2.trans hfr.readerIv)
      (by show w1.writeCount.toNat ≤ 1; rw [hn1]; decide) with ⟨w', g1, g2, g3, g4, g5, g6⟩ | ⟨c', n, g1, g2, g3, g4, g5⟩
    · rw [St.bind_of_ok g1]
      dsimp only
      generalize hc4 : TlsClient.mk { s4 with iv := some (f.keys cr).serverIv } w' rng c.buf = c4
      have hkeep := readFinished_keeps m (f.master cr) (f.keys cr).serverKey (f.messages cr pub) (.finished ⟨f.clientVerify cr pub⟩) c4
      have hw' : c4.writer = w' := by rw [← hc4]
      rw [hw'] at hkeep
      refine .sent cr rest f pub s1 s2 s3 s4 rng c4 hr hl hR' hfit (by rw [← hc4]) (by rw [← hc4]) (by rw [← hc4]) rfl ?_ ?_ ?_ ?_ ?_
      · rw [hkeep, g2, hflat, ← List.append_assoc]
        congr 1
        exact h2.wire
      · rw [hkeep, g3]
      · rw [hkeep, g4]
      · rw [hkeep, g5]
      · intro hf; rw [hkeep]; exact g6 (h2.faults hf)
    · rw [St.bind_of_err g1]
      obtain ⟨n', hn'⟩ := TlsWriter.take_append_prefix (recordBytes 22 3 3 (clientHelloBytes cr)) ((clientFlight cr pub (f.keys cr) (f.clientVerify cr pub)).drop 1).flatten n []
      rw [List.append_nil] at hn'
      refine .secondLost cr rest f pub n' hr hl hfit (fun h => g2 (h2.faults h)) ?_ g4 g5
      rw [g3, hflat, ← hn', ← List.append_assoc]
      congr 1
      exact h2.wire

end TlsClient
end Husk
