import Verif.Props.ServerFlight
/-! The handshake messages the client has taken from the stream, before there are keys. -/

namespace Husk

open Item Spec TlsReader TlsClient

/-- Handshake records in clear at the front of a stream, what they carry, and the rest of the stream. -/
def ClearFront (stream : List Sym) (bytes : Bytes) (rest : List Sym) : Prop :=
  ∃ recs : List (UInt8 × UInt8 × Bytes), stream = ofBytes (recs.flatMap fun r => recordBytes 22 r.1 r.2.1 r.2.2) ++ rest ∧ recs.flatMap (fun r => r.2.2) = bytes

theorem ClearFront.nil (l : List Sym) : ClearFront l [] l := ⟨[], rfl, rfl⟩

theorem ClearFront.trans {l1 l2 l3 : List Sym} {a b : Bytes} (h1 : ClearFront l1 a l2) (h2 : ClearFront l2 b l3) : ClearFront l1 (a ++ b) l3 := by
  obtain ⟨r1, e1, f1⟩ := h1
  obtain ⟨r2, e2, f2⟩ := h2
  refine ⟨r1 ++ r2, ?_, by rw [List.flatMap_append, f1, f2]⟩
  rw [e1, e2, List.flatMap_append, ofBytes_append, List.append_assoc]

/-- The reader got from `s` to `s'` by taking the handshake bytes `b`. -/
structure ClearRead (s : TlsReader) (b : Bytes) (s' : TlsReader) : Prop where
  front : ∃ x, ClearFront s.reader.stream x s'.reader.stream ∧ s.handshakeBuffer.buf ++ x = b ++ s'.handshakeBuffer.buf
  decryptor : s'.decryptor = none
  iv : s'.iv = s.iv
  room : ∀ k, s.readCount.toNat + countBytes s.reader.stream + k < 2 ^ 64 → s'.readCount.toNat + countBytes s'.reader.stream + k < 2 ^ 64

theorem ClearRead.trans {s1 s2 s3 : TlsReader} {a b : Bytes} (h1 : ClearRead s1 a s2) (h2 : ClearRead s2 b s3) : ClearRead s1 (a ++ b) s3 := by
  obtain ⟨x, e1, f1⟩ := h1.front
  obtain ⟨y, e2, f2⟩ := h2.front
  refine ⟨⟨x ++ y, e1.trans e2, ?_⟩, h2.decryptor, h2.iv.trans h1.iv, fun k h => h2.room k (h1.room k h)⟩
  rw [← List.append_assoc, f1, List.append_assoc, f2, List.append_assoc]

/-- A message that was delivered. -/
theorem clearRead_message {m : Mode} {s s' : TlsReader} {h : Handshake} (hd : s.decryptor = none) (hr : (readMessage m).run s = (.ok (.HandshakeMessage h), s')) :
    ∃ ty body, ClearRead s (handshakeBytes ty body) s' ∧ body.length < 2 ^ 24 ∧ (TlsItem.read (α := Handshake)).run (handshakeBytes ty body) = (.ok h, []) ∧
      ∀ ty' body', TlsItem.write h = .ok (handshakeBytes ty' body') → ∃ junk, ty' = ty ∧ body = body' ++ junk ∧ (¬ Spec.HasExtensionBlock h → junk = []) := by
  obtain ⟨recs, T, A, M⟩ := readMessage_inv hr
  obtain ⟨ty, body, hl, e, hd'⟩ := takes_inv M
  refine ⟨ty, body, ⟨⟨frags recs, ⟨parts recs, ?_, parts_frags recs⟩, e⟩, (Took.same T).1.trans hd, (Took.same T).2, fun k => Took.room T k⟩, hl, hd', ?_⟩
  · rw [← parts_wire A]; exact Took.plain T hd
  · intro ty' body' hw
    obtain ⟨junk, e1, e2⟩ := takes_bytes M hw
    rw [e] at e1
    have hlen : (handshakeBytes ty body).length = (handshakeBytes ty' (body' ++ junk)).length := by
      have := congrArg List.length e1
      rw [List.length_append, List.length_append] at this
      omega
    obtain ⟨e3, _⟩ := List.append_inj e1 hlen
    simp only [handshakeBytes, List.cons.injEq] at e3
    obtain ⟨rfl, e3⟩ := e3
    exact ⟨junk, rfl, (List.append_inj e3 (by simp)).2, e2⟩

/-- The three messages before the key exchange is used. -/
theorem clearRead_keyExchange {m : Mode} {s s1 s2 s3 : TlsReader} {sh : ServerHello} {certs : CertificateList} {ske : ObscureData} (hd : s.decryptor = none)
    (h1 : (readMessage m).run s = (.ok (.HandshakeMessage (.server_hello sh)), s1))
    (hc : sh.serverVersion = ⟨3, 3⟩ ∧ sh.cipherSuite = .TLS_ECDHE_RSA_WITH_CHACHA20_POLY1305_SHA256 ∧ sh.compressionMethod = .null)
    (h2 : (readMessage m).run s1 = (.ok (.HandshakeMessage (.certificate certs)), s2))
    (h3 : (readMessage m).run s2 = (.ok (.HandshakeMessage (.server_key_exchange ske)), s3)) :
    ∃ junk, ClearRead s (serverHelloBytes sh.random.data sh.sessionId.items (extBytes sh.extensions ++ junk) ++
        (certificateBytes (certs.items.map TlsVec.items) ++ handshakeBytes 12 ske.data)) s3 ∧
      (extBytes sh.extensions = [] → junk = []) := by
  obtain ⟨t1, b1, c1, -, -, w1⟩ := clearRead_message hd h1
  obtain ⟨t2, b2, c2, -, -, w2⟩ := clearRead_message c1.decryptor h2
  obtain ⟨t3, b3, c3, -, -, w3⟩ := clearRead_message c2.decryptor h3
  obtain ⟨j1, rfl, rfl, i1⟩ := w1 _ _ (write_serverHello (delivered_wf h1).1 hc.1 hc.2.1 hc.2.2)
  obtain ⟨j2, rfl, rfl, i2⟩ := w2 _ _ (write_certificate certs)
  obtain ⟨j3, rfl, rfl, i3⟩ := w3 _ _ (write_obscure ske.data)
  have i2 := i2 (by simp [Spec.HasExtensionBlock])
  have i3 := i3 (by simp [Spec.HasExtensionBlock])
  subst i2 i3
  refine ⟨j1, ?_, fun he => i1 ?_⟩
  · have := c1.trans (c2.trans c3)
    rw [List.append_nil, List.append_nil] at this
    rw [serverHelloBytes, ← List.append_assoc _ (extBytes _)]
    exact this
  · simp only [Spec.HasExtensionBlock, ne_eq, Decidable.not_not]
    cases hx : sh.extensions with
    | none => rfl
    | some v =>
      rw [hx] at he
      have hv := extBytes_eq (some v)
      rw [he] at hv
      obtain ⟨bs, _, hb⟩ := Res.bind_eq_ok.mp (show (TlsVec.writeItems v.items >>= fun body => pure (writeNum 2 (TlsVec.sizes v.items) ++ body)) = Res.ok [] from hv)
      have := congrArg List.length (Res.ok.inj hb)
      rw [writeNum_eq] at this
      simp at this

/-- The whole flight, as a session. -/
theorem clearRead_flight {m : Mode} {c : TlsClient} {f : ServerFlight} {s1 s2 s3 s4 : TlsReader} {rng : Rng} (hd : c.reader.decryptor = none)
    (h : FlightRead m c f s1 s2 s3 s4 rng) (cr pub : Bytes) : ∃ S : Session, ClearRead c.reader S.flight s4 ∧ (S.ext = [] → S.junk = []) ∧ S.random = cr ∧ S.point = pub ∧
      S.pms = f.preMasterSecret ∧ S.keyExchange = f.ske.data ∧ S.serverRandom = f.hello.random.data ∧ S.master = f.master cr ∧ S.keys = f.keys cr ∧
      S.messages = f.messages cr pub ∧ S.clientVerify = f.clientVerify cr pub ∧ S.serverVerify = f.serverVerify cr pub := by
  obtain ⟨junk, c3, hj⟩ := clearRead_keyExchange hd h.hello h.check h.certs h.ske
  obtain ⟨t4, b4, c4, -, -, w4⟩ := clearRead_message c3.decryptor h.done
  obtain ⟨j4, rfl, rfl, i4⟩ := w4 _ _ write_serverHelloDone
  have i4 := i4 (by simp [Spec.HasExtensionBlock])
  subst i4
  obtain ⟨S, hS⟩ : ∃ S : Session, S = ⟨cr, f.hello.random.data, f.hello.sessionId.items, extBytes f.hello.extensions, junk, f.certs.items.map TlsVec.items, f.ske.data, pub, f.preMasterSecret⟩ := ⟨_, rfl⟩
  have w1 := write_serverHello (delivered_wf h.hello).1 h.check.1 h.check.2.1 h.check.2.2
  have hsrv : S.server = serverMessages f := by
    rw [serverMessages, bytesOf_eq w1, bytesOf_eq (write_certificate f.certs), bytesOf_eq (write_obscure f.ske.data), hS]; rfl
  have hmaster : S.master = f.master cr := by rw [hS]; rfl
  have hkeys : S.keys = f.keys cr := by rw [Session.keys, hmaster, hS]; rfl
  have hmsgs : S.messages = f.messages cr pub := by rw [Session.messages, hsrv, hS]; rfl
  have hcv : S.clientVerify = f.clientVerify cr pub := by rw [Session.clientVerify, hmsgs, hmaster]; rfl
  have hsv : S.serverVerify = f.serverVerify cr pub := by rw [Session.serverVerify, hmsgs, hmaster, hcv]; rfl
  refine ⟨S, ?_, by rw [hS]; exact hj, by rw [hS], by rw [hS], by rw [hS], by rw [hS], by rw [hS], hmaster, hkeys, hmsgs, hcv, hsv⟩
  have := c3.trans c4
  rw [hS]
  simpa only [Session.flight, List.append_assoc, List.append_nil] using this

end Husk
