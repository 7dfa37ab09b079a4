import Verif.Proofs.Trouble
/-! C103: what the error returned by `TlsClient::new` says. -/

namespace Husk

open Item Spec TlsReader TlsClient

/-! ### Specification -/

/-- `msg` is what comes next on `s`, and `s'` is what is left. -/
def Delivers (s : TlsReader) (msg : Message) (s' : TlsReader) : Prop := ∃ recs, Took s recs s' ∧ Origin s.handshakeBuffer.buf recs msg s'.handshakeBuffer.buf

/-- Instead of a message that satisfies `wanted` comes an alert, another message, or none. -/
inductive NotDelivered (s : TlsReader) (wanted : Handshake → Prop) : TlsErrorKind → Prop
  | bad {k l} : BadMessage s k l → NotDelivered s wanted k
  | alert {s1} (a : Alert) : Delivers s (.AlertMessage a) s1 → NotDelivered s wanted .AlertReceived
  | other {s1} (msg : Message) : Delivers s msg s1 → (∀ a, msg ≠ .AlertMessage a) → (∀ h, msg = .HandshakeMessage h → ¬ wanted h) → NotDelivered s wanted .UnexpectedMessage

/-- A ServerHello that the client goes on with: TLS 1.2, the suite offered, no compression. -/
def Agreed (sh : ServerHello) : Prop := sh.serverVersion = ⟨3, 3⟩ ∧ sh.cipherSuite = .TLS_ECDHE_RSA_WITH_CHACHA20_POLY1305_SHA256 ∧ sh.compressionMethod = .null

/-- What is wrong with the content of a ServerKeyExchange: it ends too early, a value or a length in it is not allowed, or the point is refused. -/
inductive BadKeyExchange (m : Mode) (data : Bytes) : TlsErrorKind → Prop
  | short : ((TlsItem.read (α := EcdheServerKeyExchange)).run data).1 = .err .IoFailure → BadKeyExchange m data .IoFailure
  | value : ((TlsItem.read (α := EcdheServerKeyExchange)).run data).1 = .err .DecodeError → BadKeyExchange m data .DecodeError
  | point (ps : EcdheServerKeyExchange) (rest : Bytes) : (TlsItem.read (α := EcdheServerKeyExchange)).run data = (.ok ps, rest) →
      NPoint256.fromUncompressedBytes m ps.params.pub.items = .ok none → BadKeyExchange m data .IllegalParameter

/-- The first flight as it came. -/
structure FlightCame (m : Mode) (rd : Reader) (cr rest : Bytes) (f : ServerFlight) (s : TlsReader) (rng' : Rng) : Prop where
  came : ∃ s1 s2 s3, Delivers (TlsReader.new rd) (.HandshakeMessage (.server_hello f.hello)) s1 ∧ Delivers s1 (.HandshakeMessage (.certificate f.certs)) s2 ∧
    Delivers s2 (.HandshakeMessage (.server_key_exchange f.ske)) s3 ∧ Delivers s3 (.HandshakeMessage (.server_hello_done {})) s
  agreed : Agreed f.hello
  keys : (Ecdhe.computeKeys m f.ske.data).run ⟨rest⟩ = (.ok (f.keyData, f.preMasterSecret), rng')
  key_length : (f.keys cr).serverKey.length = 32
  iv_length : (f.keys cr).serverIv.length = 12

/-- Why the handshake stops with the error `k`, the random bytes of the client being `cr`, then `rest`. -/
inductive Cause (m : Mode) (rd : Reader) (cr rest : Bytes) : TlsErrorKind → Prop
  | hello {k} : NotDelivered (TlsReader.new rd) (fun h => ∃ d, h = .server_hello d) k → Cause m rd cr rest k
  | parameters {s1} (sh : ServerHello) : Delivers (TlsReader.new rd) (.HandshakeMessage (.server_hello sh)) s1 → ¬ Agreed sh → Cause m rd cr rest .IllegalParameter
  | certificate {s1 k} (sh : ServerHello) : Delivers (TlsReader.new rd) (.HandshakeMessage (.server_hello sh)) s1 → Agreed sh →
      NotDelivered s1 (fun h => ∃ d, h = .certificate d) k → Cause m rd cr rest k
  | keyExchange {s1 s2 k} (sh : ServerHello) (certs : CertificateList) : Delivers (TlsReader.new rd) (.HandshakeMessage (.server_hello sh)) s1 → Agreed sh →
      Delivers s1 (.HandshakeMessage (.certificate certs)) s2 → NotDelivered s2 (fun h => ∃ d, h = .server_key_exchange d) k → Cause m rd cr rest k
  | keys {s1 s2 s3 k} (sh : ServerHello) (certs : CertificateList) (ske : ObscureData) : Delivers (TlsReader.new rd) (.HandshakeMessage (.server_hello sh)) s1 → Agreed sh →
      Delivers s1 (.HandshakeMessage (.certificate certs)) s2 → Delivers s2 (.HandshakeMessage (.server_key_exchange ske)) s3 → BadKeyExchange m ske.data k → Cause m rd cr rest k
  | done {s1 s2 s3 k} (sh : ServerHello) (certs : CertificateList) (ske : ObscureData) : Delivers (TlsReader.new rd) (.HandshakeMessage (.server_hello sh)) s1 → Agreed sh →
      Delivers s1 (.HandshakeMessage (.certificate certs)) s2 → Delivers s2 (.HandshakeMessage (.server_key_exchange ske)) s3 →
      NotDelivered s3 (fun h => h = .server_hello_done {}) k → Cause m rd cr rest k
  | change {s k l rng'} (f : ServerFlight) : FlightCame m rd cr rest f s rng' → BadMessage { s with iv := some (f.keys cr).serverIv } k l → Cause m rd cr rest k
  | noChange {s s1 rng'} (f : ServerFlight) (msg : Message) : FlightCame m rd cr rest f s rng' → Delivers { s with iv := some (f.keys cr).serverIv } msg s1 →
      msg ≠ .ChangeCipherSpecMessage → Cause m rd cr rest .UnexpectedMessage
  | finished {s s1 k rng'} (f : ServerFlight) : FlightCame m rd cr rest f s rng' → Delivers { s with iv := some (f.keys cr).serverIv } .ChangeCipherSpecMessage s1 →
      NotDelivered (keyed m s1 (f.keys cr).serverKey) (fun h => ∃ d, h = .finished d) k → Cause m rd cr rest k
  | verify {s s1 s2 rng'} (f : ServerFlight) (pub vd : Bytes) : FlightCame m rd cr rest f s rng' → f.keyData = 65 :: pub →
      Delivers { s with iv := some (f.keys cr).serverIv } .ChangeCipherSpecMessage s1 →
      Delivers (keyed m s1 (f.keys cr).serverKey) (.HandshakeMessage (.finished ⟨vd⟩)) s2 → vd ≠ f.serverVerify cr pub → Cause m rd cr rest .DecryptError

/-! ### Proof -/

theorem delivers {m : Mode} {s s' : TlsReader} {msg : Message} (h : (readMessage m).run s = (.ok msg, s')) : Delivers s msg s' := readMessage_inv h

/-- What comes of the message that was read. -/
theorem refused_cause {m : Mode} {s s1 : TlsReader} {x : Res Message} {k : TlsErrorKind} {wanted : Handshake → Prop} (h : (readMessage m).run s = (x, s1))
    (hk : (refused x : Res α) = .err k) (hw : ∀ hh, x = .ok (.HandshakeMessage hh) → ¬ wanted hh) : NotDelivered s wanted k := by
  rcases x with (hh | _ | a | b) | k' | _ | _
  · cases hk
    exact .other _ (delivers h) (by simp) (fun hh' e => by cases e; exact hw _ rfl)
  · cases hk
    exact .other _ (delivers h) (by simp) (fun hh' e => by cases e)
  · cases hk
    exact .alert a (delivers h)
  · cases hk
    exact .other _ (delivers h) (by simp) (fun hh' e => by cases e)
  · cases hk
    exact .bad (readMessage_err h)
  · cases hk
  · cases hk

theorem expectHello_err {m : Mode} {s s' : TlsReader} {k : TlsErrorKind} (h : (expectServerHello m).run s = (.err k, s')) : NotDelivered s (fun h => ∃ d, h = .server_hello d) k := by
  rcases hx : (readMessage m).run s with ⟨x, s1⟩
  by_cases hne : ∀ d, x ≠ .ok (.HandshakeMessage (.server_hello d))
  · rw [expectServerHello_other hx hne] at h
    exact refused_cause hx (Prod.mk.inj h).1 fun hh e hw => by obtain ⟨d, rfl⟩ := hw; exact hne d e
  · obtain ⟨d, hd⟩ := Classical.not_forall.mp hne
    rw [Classical.not_not.mp hd] at hx
    rw [expectServerHello_iff.mpr hx] at h
    cases h

theorem expectCertificate_err {m : Mode} {s s' : TlsReader} {k : TlsErrorKind} (h : (expectCertificate m).run s = (.err k, s')) : NotDelivered s (fun h => ∃ d, h = .certificate d) k := by
  rcases hx : (readMessage m).run s with ⟨x, s1⟩
  by_cases hne : ∀ d, x ≠ .ok (.HandshakeMessage (.certificate d))
  · rw [expectCertificate_other hx hne] at h
    exact refused_cause hx (Prod.mk.inj h).1 fun hh e hw => by obtain ⟨d, rfl⟩ := hw; exact hne d e
  · obtain ⟨d, hd⟩ := Classical.not_forall.mp hne
    rw [Classical.not_not.mp hd] at hx
    rw [expectCertificate_iff.mpr hx] at h
    cases h

theorem expectKeyExchange_err {m : Mode} {s s' : TlsReader} {k : TlsErrorKind} (h : (expectServerKeyExchange m).run s = (.err k, s')) : NotDelivered s (fun h => ∃ d, h = .server_key_exchange d) k := by
  rcases hx : (readMessage m).run s with ⟨x, s1⟩
  by_cases hne : ∀ d, x ≠ .ok (.HandshakeMessage (.server_key_exchange d))
  · rw [expectServerKeyExchange_other hx hne] at h
    exact refused_cause hx (Prod.mk.inj h).1 fun hh e hw => by obtain ⟨d, rfl⟩ := hw; exact hne d e
  · obtain ⟨d, hd⟩ := Classical.not_forall.mp hne
    rw [Classical.not_not.mp hd] at hx
    rw [expectServerKeyExchange_iff.mpr hx] at h
    cases h

theorem expectDone_err {m : Mode} {s s' : TlsReader} {k : TlsErrorKind} (h : (expectServerHelloDone m).run s = (.err k, s')) : NotDelivered s (fun h => h = .server_hello_done {}) k := by
  rcases hx : (readMessage m).run s with ⟨x, s1⟩
  by_cases hne : ∀ d, x ≠ .ok (.HandshakeMessage (.server_hello_done d))
  · rw [expectServerHelloDone_other hx hne] at h
    exact refused_cause hx (Prod.mk.inj h).1 fun hh e hw => by subst hw; exact hne {} e
  · obtain ⟨d, hd⟩ := Classical.not_forall.mp hne
    rw [Classical.not_not.mp hd] at hx
    rw [expectServerHelloDone_iff.mpr hx] at h
    cases h

theorem expectFinished_err {m : Mode} {s s' : TlsReader} {k : TlsErrorKind} (h : (expectFinished m).run s = (.err k, s')) : NotDelivered s (fun h => ∃ d, h = .finished d) k := by
  rcases hx : (readMessage m).run s with ⟨x, s1⟩
  by_cases hne : ∀ d, x ≠ .ok (.HandshakeMessage (.finished d))
  · rw [expectFinished_other hx hne] at h
    exact refused_cause hx (Prod.mk.inj h).1 fun hh e hw => by obtain ⟨d, rfl⟩ := hw; exact hne d e
  · obtain ⟨d, hd⟩ := Classical.not_forall.mp hne
    rw [Classical.not_not.mp hd] at hx
    rw [expectFinished_iff.mpr hx] at h
    cases h

theorem computeKeys_err {m : Mode} {data : Bytes} {rng rng' : Rng} {k : TlsErrorKind} (h : (Ecdhe.computeKeys m data).run rng = (.err k, rng')) : BadKeyExchange m data k := by
  rcases hr : (TlsItem.read (α := EcdheServerKeyExchange)).run data with ⟨ps | k' | _ | _, rest⟩
  · rw [computeKeys_point m data rest ps rng hr] at h
    rcases hq : NPoint256.fromUncompressedBytes m ps.params.pub.items with (_ | q) | k' | _ | _
    · rw [hq] at h
      cases h
      exact .point ps rest hr hq
    · rw [hq] at h
      rcases keys_run m q rng with ⟨s, hs⟩ | ⟨x, s, hx, hs⟩
      · exact absurd (h.symm.trans hs) (by intro hc; cases hc)
      · obtain ⟨pms, hk, _⟩ := Ecdhe.keysFrom_returns m q x
        have := hs.symm.trans h
        rw [hk] at this
        cases this
    · rcases fromUncompressed_no_err m ps.params.pub.items with ⟨r, hr⟩ | ⟨_, hr⟩
      · rw [hq] at hr; cases hr
      · rw [hq] at hr; cases hr
    · rw [hq] at h; cases h
    · rw [hq] at h; cases h
  · rw [computeKeys_reject m data rest k' rng hr] at h
    cases h
    rcases Decodable'.kinds (α := EcdheServerKeyExchange) data k (by rw [hr]) with rfl | rfl
    · exact .short (by rw [hr])
    · exact .value (by rw [hr])
  · have := LawfulItem.read_returns (α := EcdheServerKeyExchange) data
    rw [hr] at this; exact absurd this (by simp [Res.Returns])
  · have := LawfulItem.read_returns (α := EcdheServerKeyExchange) data
    rw [hr] at this; exact absurd this (by simp [Res.Returns])

/-- Where a sequence of steps fails. -/
theorem bind_err {σ α β : Type} {x : St σ α} {f : α → St σ β} {s s' : σ} {k : TlsErrorKind} (h : (x >>= f).run s = (.err k, s')) :
    (∃ s1, x.run s = (.err k, s1)) ∨ ∃ a s1, x.run s = (.ok a, s1) ∧ (f a).run s1 = (.err k, s') := by
  rw [St.bind_run] at h
  rcases hr : x.run s with ⟨r, s1⟩
  rw [hr] at h
  cases r with
  | ok a => exact Or.inr ⟨a, s1, rfl, h⟩
  | err k' => cases h; exact Or.inl ⟨_, rfl⟩
  | panic => cases h
  | diverge => cases h

theorem readFlight_err {m : Mode} {c c' : TlsClient} {k : TlsErrorKind} {rd : Reader} {cr rest : Bytes} (hc : c.reader = TlsReader.new rd)
    (h : (readFlight m).run c = (.err k, c')) : Cause m rd cr rest k := by
  rcases bind_err h with ⟨c1, h1⟩ | ⟨sh, c1, h1, h⟩
  · obtain ⟨s1, g1, rfl⟩ := onReader_inv h1
    rw [hc] at g1
    exact .hello (expectHello_err g1)
  obtain ⟨s1, g1, rfl⟩ := onReader_inv h1
  rw [hc] at g1
  have d1 := delivers (expectServerHello_iff.mp g1)
  rcases bind_err h with ⟨c1, h2⟩ | ⟨_, c1, h2, h⟩
  · rw [St.lift_run, checkServerHello_eq] at h2
    split at h2
    · cases h2
    · rename_i hn
      cases h2
      exact .parameters sh d1 hn
  rw [St.lift_run, checkServerHello_eq] at h2
  split at h2
  rotate_left
  · cases h2
  rename_i hok
  cases h2
  rcases bind_err h with ⟨c1, h3⟩ | ⟨certs, c1, h3, h⟩
  · obtain ⟨s2, g3, rfl⟩ := onReader_inv h3
    exact .certificate sh d1 hok (expectCertificate_err g3)
  obtain ⟨s2, g3, rfl⟩ := onReader_inv h3
  have d2 := delivers (expectCertificate_iff.mp g3)
  rcases bind_err h with ⟨c1, h4⟩ | ⟨ske, c1, h4, h⟩
  · obtain ⟨s3, g4, rfl⟩ := onReader_inv h4
    exact .keyExchange sh certs d1 hok d2 (expectKeyExchange_err g4)
  obtain ⟨s3, g4, rfl⟩ := onReader_inv h4
  have d3 := delivers (expectServerKeyExchange_iff.mp g4)
  rcases bind_err h with ⟨c1, h5⟩ | ⟨⟨kd, pms⟩, c1, h5, h⟩
  · obtain ⟨rng, g5, rfl⟩ := onRng_inv h5
    exact .keys sh certs ske d1 hok d2 d3 (computeKeys_err g5)
  obtain ⟨rng, g5, rfl⟩ := onRng_inv h5
  rcases bind_err h with ⟨c1, h6⟩ | ⟨d, c1, h6, h⟩
  · obtain ⟨s4, g6, rfl⟩ := onReader_inv h6
    exact .done sh certs ske d1 hok d2 d3 (expectDone_err g6)
  · cases h

theorem readFinished_err {m : Mode} {c c' : TlsClient} {k : TlsErrorKind} {rd : Reader} {cr rest : Bytes} (hcr : cr.length = 32) {f : ServerFlight} {pub : Bytes} (hf : FlightFit f pub)
    {s : TlsReader} {rng' : Rng} (hfl : FlightCame m rd cr rest f s rng') (hs : s.decryptor = none) (hc : c.reader = { s with iv := some (f.keys cr).serverIv })
    (h : (readFinished m (f.master cr) (f.keys cr).serverKey (f.messages cr pub) (.finished ⟨f.clientVerify cr pub⟩)).run c = (.err k, c')) : Cause m rd cr rest k := by
  have hall := h
  have hd : c.reader.decryptor = none := by rw [hc]; exact hs
  rcases bind_err h with ⟨c1, h1⟩ | ⟨_, c1, h1, h⟩
  · obtain ⟨s1, g1, rfl⟩ := onReader_inv h1
    rcases hx : (readMessage m).run c.reader with ⟨x, s2⟩
    by_cases hok : ∀ msg, x ≠ .ok msg
    · rw [readChangeCipherSpec_fails hx hok] at g1
      have e := (Prod.mk.inj g1).1
      rcases x with msg | k' | _ | _
      · exact absurd rfl (hok msg)
      · cases e
        rw [hc] at hx
        exact .change f hfl (readMessage_err hx)
      · cases e
      · cases e
    · obtain ⟨msg, hm⟩ := Classical.not_forall.mp hok
      rw [Classical.not_not.mp hm] at hx
      by_cases hcc : msg = .ChangeCipherSpecMessage
      · subst hcc
        rw [readChangeCipherSpec_ok hx] at g1
        cases g1
      · rw [readChangeCipherSpec_other hx hcc] at g1
        cases g1
        rw [hc] at hx
        exact .noChange f msg hfl (delivers hx) hcc
  obtain ⟨s1, g1, rfl⟩ := onReader_inv h1
  have g1 := readChangeCipherSpec_inv g1
  have hs1 := (readMessage_same g1).1.trans hd
  have hset : (TlsReader.setDecryptor (.chacha m (f.keys cr).serverKey)).run s1 = (.ok (), keyed m s1 (f.keys cr).serverKey) := by
    simp only [TlsReader.setDecryptor, hs1, keyed]
  rw [St.bind_of_ok (onReader_ok (c := { c with reader := s1 }) hset)] at h
  have g1' := g1
  rw [hc] at g1
  rcases bind_err h with ⟨c1, h3⟩ | ⟨vd, c1, h3, h⟩
  · obtain ⟨s2, g3, rfl⟩ := onReader_inv h3
    exact .finished f hfl (delivers g1) (expectFinished_err g3)
  obtain ⟨s2, g3, rfl⟩ := onReader_inv h3
  have g3 := expectFinished_iff.mp g3
  rw [readFinished_eq hf hcr hd g1' g3] at hall
  split at hall
  · cases hall
  · rename_i hne
    cases hall
    exact .verify f pub vd.data hfl hf.key (delivers g1) (delivers g3) hne

theorem handshake_err {m : Mode} {rd : Reader} {wr : Writer} {rng : Rng} {k : TlsErrorKind} {c : TlsClient} (h : (handshake m).run (fresh rd wr rng) = (.err k, c)) :
    (k = .IoFailure ∧ wr.faults ≠ []) ∨ ∃ cr rest, rng.bytes = cr ++ rest ∧ cr.length = 32 ∧ Cause m rd cr rest k := by
  have hfr := fresh_fresh rd wr rng
  rcases sendHello_cases m (fresh rd wr rng) hfr.encryptor hfr.count with ⟨g1, _⟩ | ⟨cr, rest, hr, hl, ⟨w1, g1, g2⟩ | ⟨w1, n, g1, g2, _⟩⟩
  · rw [handshake, St.bind_of_diverge g1] at h
    cases h
  rotate_left
  · exact Or.inl ⟨by rw [handshake, St.bind_of_err g1] at h; cases h; rfl, g2⟩
  have hw1 : w1.encryptor = none := g2.encryptor.trans hfr.encryptor
  have hn1 : w1.writeCount = 1 := by rw [g2.count, hfr.count]; rfl
  rw [handshake, St.bind_of_ok g1] at h
  rcases bind_err h with ⟨c1, h⟩ | ⟨f, c1, hok, h⟩
  · exact Or.inr ⟨cr, rest, hr, hl, readFlight_err rfl h⟩
  obtain ⟨s1, s2, s3, s4, rng', hR, rfl⟩ := readFlight_inv hok
  obtain ⟨X, Y, hfit, _⟩ := hR.fit
  generalize (4 :: (beBytes 32 X ++ beBytes 32 Y) : Bytes) = pub at hfit
  rcases sendFinished_cases m cr f pub hl hfit { fresh rd wr rng with rng := rng', writer := w1, reader := s4 } hw1 (g2.iv.trans hfr.writerIv) (hR.same.2.trans hfr.readerIv)
    (by show w1.writeCount.toNat ≤ 1; rw [hn1]; decide) with ⟨w', e1, e2, e3, e4, e5, e6⟩ | ⟨c', n, e1, e2, _⟩
  · rw [St.bind_of_ok e1] at h
    refine Or.inr ⟨cr, rest, hr, hl, readFinished_err hl hfit (rng' := rng') (s := s4) ?_ ?_ rfl h⟩
    · exact ⟨⟨s1, s2, s3, delivers hR.hello, delivers hR.certs, delivers hR.ske, delivers hR.done⟩, hR.check, hR.keys, (hfit.keys_length hl).2.1, (hfit.keys_length hl).2.2.2⟩
    · exact hR.same.1
  · rw [St.bind_of_err e1] at h
    exact Or.inl ⟨by cases h; rfl, fun hf => e2 (g2.faults hf)⟩

/-- C103: if `new` returns an error, then the transport failed when something was to be sent, and the error is an I/O error; or the error is that of the first thing
that was wrong with what the server sent. -/
theorem C103_cause (m : Mode) (rd : Reader) (wr : Writer) (rng : Rng) (k : TlsErrorKind) (c : TlsClient) (h : TlsClient.new m rd wr rng = (.err k, c)) :
    (k = .IoFailure ∧ wr.faults ≠ []) ∨ ∃ cr rest, rng.bytes = cr ++ rest ∧ cr.length = 32 ∧ Cause m rd cr rest k := by
  rcases hr : (handshake m).run (fresh rd wr rng) with ⟨x, c0⟩
  have hx : ∃ k0, x = .err k0 := by
    rw [new_run, hr] at h
    cases x with
    | err k0 => exact ⟨k0, rfl⟩
    | _ => cases h
  obtain ⟨k0, rfl⟩ := hx
  obtain ⟨e1, e2, e3⟩ := C32_error m rd wr rng k0 c0 hr
  rw [h] at e1 e2 e3
  by_cases hk : k0 = .IoFailure
  · cases e1 hk
    subst hk
    exact handshake_err hr
  · by_cases hfa : wr.faults = []
    · cases e2 hk hfa
      exact handshake_err hr
    · rcases e3 hk with e | e
      · cases e
        exact handshake_err hr
      · cases e
        exact Or.inl ⟨rfl, hfa⟩

/-! ### What each error says -/

theorem TlsReader.Took.keeps {s s' : TlsReader} {recs : List Record} (h : Took s recs s') :
    s'.decryptor = s.decryptor ∧ s'.iv = s.iv ∧ ∃ q, s.reader.stream = ofBytes q ++ s'.reader.stream := by
  induction h with
  | nil a b _ d => exact ⟨b, d, [], by rw [a]; rfl⟩
  | @cons s s1 s' ty a b f rec recs hl hs hu d1 d2 d3 _ ih =>
    obtain ⟨e1, e2, q, e3⟩ := ih
    refine ⟨e1.trans d1, e2.trans d3, recordBytes ty.toU8 a b f ++ q, ?_⟩
    rw [hs, e3]
    simp only [ofBytes, List.map_append, List.append_assoc]

/-- A state of the record layer between two messages: without keys, or with the keys of the flight that came. -/
structure Awaits (m : Mode) (rd : Reader) (cr rest : Bytes) (s : TlsReader) : Prop where
  stream : ∃ q, rd.stream = ofBytes q ++ s.reader.stream
  state : s.decryptor = none ∨ ∃ f s0 rng', FlightCame m rd cr rest f s0 rng' ∧ s.decryptor = some (.chacha m (f.keys cr).serverKey) ∧ s.iv = some (f.keys cr).serverIv

theorem Awaits.took {m : Mode} {rd : Reader} {cr rest : Bytes} {s s' : TlsReader} {recs : List Record} (h : Awaits m rd cr rest s) (ht : Took s recs s') : Awaits m rd cr rest s' := by
  obtain ⟨e1, e2, q, e3⟩ := ht.keeps
  obtain ⟨q0, e0⟩ := h.stream
  refine ⟨⟨q0 ++ q, by rw [e0, e3]; simp only [ofBytes, List.map_append, List.append_assoc]⟩, ?_⟩
  rcases h.state with hd | ⟨f, s0, rng', hf, h1, h2⟩
  · exact Or.inl (e1.trans hd)
  · exact Or.inr ⟨f, s0, rng', hf, e1.trans h1, e2.trans h2⟩

theorem Awaits.next {m : Mode} {rd : Reader} {cr rest : Bytes} {s s' : TlsReader} {msg : Message} (h : Awaits m rd cr rest s) (ht : Delivers s msg s') : Awaits m rd cr rest s' := by
  obtain ⟨recs, h1, _⟩ := ht
  exact h.took h1

theorem Delivers.clear {s s' : TlsReader} {msg : Message} (ht : Delivers s msg s') (h : s.decryptor = none) : s'.decryptor = none := by
  obtain ⟨recs, h1, _⟩ := ht
  exact h1.keeps.1.trans h

theorem awaits_new (m : Mode) (rd : Reader) (cr rest : Bytes) : Awaits m rd cr rest (TlsReader.new rd) := ⟨⟨[], rfl⟩, Or.inl rfl⟩

theorem FlightCame.awaits {m : Mode} {rd : Reader} {cr rest : Bytes} {f : ServerFlight} {s : TlsReader} {rng' : Rng} (h : FlightCame m rd cr rest f s rng') (iv : Option Bytes) :
    Awaits m rd cr rest { s with iv := iv } := by
  obtain ⟨s1, s2, s3, d1, d2, d3, d4⟩ := h.came
  obtain ⟨q, e⟩ := (((awaits_new m rd cr rest).next d1).next d2 |>.next d3 |>.next d4).stream
  exact ⟨⟨q, e⟩, Or.inl (d4.clear (d3.clear (d2.clear (d1.clear rfl))))⟩

theorem FlightCame.keyed {m : Mode} {rd : Reader} {cr rest : Bytes} {f : ServerFlight} {s s1 : TlsReader} {rng' : Rng} (h : FlightCame m rd cr rest f s rng')
    (hc : Delivers { s with iv := some (f.keys cr).serverIv } .ChangeCipherSpecMessage s1) : Awaits m rd cr rest (keyed m s1 (f.keys cr).serverKey) := by
  obtain ⟨q, e⟩ := ((h.awaits _).next hc).stream
  obtain ⟨recs, h1, _⟩ := hc
  exact ⟨⟨q, e⟩, Or.inr ⟨f, s, rng', h, rfl, h1.keeps.2.1⟩⟩

/-- Where the handshake stops, and what comes there. -/
inductive Found (m : Mode) (rd : Reader) (cr rest : Bytes) (s : TlsReader) : TlsErrorKind → Prop
  | bad {k l} : BadMessage s k l → Found m rd cr rest s k
  | alert {s1} (a : Alert) : Delivers s (.AlertMessage a) s1 → Found m rd cr rest s .AlertReceived
  | other {s1} (msg : Message) : Delivers s msg s1 → Found m rd cr rest s .UnexpectedMessage
  | parameters {s1} (sh : ServerHello) : Delivers s (.HandshakeMessage (.server_hello sh)) s1 → ¬ Agreed sh → Found m rd cr rest s .IllegalParameter
  | keys {s1 k} (ske : ObscureData) : Delivers s (.HandshakeMessage (.server_key_exchange ske)) s1 → BadKeyExchange m ske.data k → Found m rd cr rest s k
  | verify {s0 s1 rng'} (f : ServerFlight) (pub vd : Bytes) : FlightCame m rd cr rest f s0 rng' → f.keyData = 65 :: pub →
      s.decryptor = some (.chacha m (f.keys cr).serverKey) → s.iv = some (f.keys cr).serverIv →
      Delivers s (.HandshakeMessage (.finished ⟨vd⟩)) s1 → vd ≠ f.serverVerify cr pub → Found m rd cr rest s .DecryptError

theorem NotDelivered.found {m : Mode} {rd : Reader} {cr rest : Bytes} {s : TlsReader} {wanted : Handshake → Prop} {k : TlsErrorKind} (h : NotDelivered s wanted k) : Found m rd cr rest s k := by
  cases h with
  | bad h => exact .bad h
  | alert a h => exact .alert a h
  | other msg h => exact .other msg h

theorem Cause.found {m : Mode} {rd : Reader} {cr rest : Bytes} {k : TlsErrorKind} (h : Cause m rd cr rest k) : ∃ s, Awaits m rd cr rest s ∧ Found m rd cr rest s k := by
  have b0 := awaits_new m rd cr rest
  cases h with
  | hello h => exact ⟨_, b0, h.found⟩
  | parameters sh d h => exact ⟨_, b0, .parameters sh d h⟩
  | certificate sh d _ h => exact ⟨_, b0.next d, h.found⟩
  | keyExchange sh certs d _ d2 h => exact ⟨_, (b0.next d).next d2, h.found⟩
  | keys sh certs ske d _ d2 d3 h => exact ⟨_, (b0.next d).next d2, .keys ske d3 h⟩
  | done sh certs ske d _ d2 d3 h => exact ⟨_, ((b0.next d).next d2).next d3, h.found⟩
  | change f hf h => exact ⟨_, hf.awaits _, .bad h⟩
  | noChange f msg hf h _ => exact ⟨_, hf.awaits _, .other msg h⟩
  | finished f hf hc h => exact ⟨_, hf.keyed hc, h.found⟩
  | verify f pub vd hf hk hc h hv =>
    refine ⟨_, hf.keyed hc, .verify f pub vd hf hk rfl ?_ h hv⟩
    obtain ⟨recs, h1, _⟩ := hc
    exact h1.keeps.2.1

/-- A handshake message, presented somewhere in the stream, of type `ty` with this body. -/
def Presented (m : Mode) (rd : Reader) (cr rest : Bytes) (ty : UInt8) (body : Bytes) : Prop :=
  ∃ s s1 recs more, Awaits m rd cr rest s ∧ Took s recs s1 ∧ Filled recs ∧ s.handshakeBuffer.buf ++ frags recs = handshakeBytes ty body ++ more

/-- The kinds of trouble with a message. -/
theorem TlsReader.BadMessage.why {m : Mode} {rd : Reader} {cr rest : Bytes} {s : TlsReader} {k : TlsErrorKind} {l : List Sym} (hb : Awaits m rd cr rest s) (h : BadMessage s k l) :
    (∃ s1 l, Awaits m rd cr rest s1 ∧ BadRecord s1 k l) ∨ k = .UnexpectedMessage ∨ ∃ ty body, Presented m rd cr rest ty body ∧ BadBody ty body k := by
  cases h with
  | record recs ht _ _ h => exact Or.inl ⟨_, _, hb.took ht, h⟩
  | noMessage => exact Or.inr (Or.inl rfl)
  | body recs ty body more ht hf _ he h => exact Or.inr (Or.inr ⟨ty, body, ⟨s, _, recs, more, hb, ht, hf, he⟩, h⟩)

/-- C103 (`IoFailure`): the transport failed when something was to be sent; or it ended, or failed, inside a record or between two records; or a handshake message, or
the content of a ServerKeyExchange, is too short. -/
theorem C103_io_partial (m : Mode) (rd : Reader) (wr : Writer) (rng : Rng) (c : TlsClient) (h : TlsClient.new m rd wr rng = (.err .IoFailure, c)) :
    wr.faults ≠ [] ∨ (∃ q p l, StopsAfter rd.stream (q ++ p) l ∧ RecordCut p) ∨
    ∃ cr rest, rng.bytes = cr ++ rest ∧ cr.length = 32 ∧
      ((∃ ty body, Presented m rd cr rest ty body ∧ ((Handshake.readArm ty.toNat).run body).1 = .err .IoFailure) ∨
       ∃ s s1 ske, Awaits m rd cr rest s ∧ Delivers s (.HandshakeMessage (.server_key_exchange ske)) s1 ∧ ((TlsItem.read (α := EcdheServerKeyExchange)).run ske.data).1 = .err .IoFailure) := by
  rcases C103_cause m rd wr rng _ c h with ⟨_, h⟩ | ⟨cr, rest, hr, hl, h⟩
  · exact Or.inl h
  obtain ⟨s, hb, hf⟩ := h.found
  right
  cases hf with
  | bad h =>
    rcases h.why hb with ⟨s1, l, b1, h⟩ | h | ⟨ty, body, hp, h⟩
    · left
      cases h with
      | stops p l hc hs =>
        obtain ⟨q, e⟩ := b1.stream
        exact ⟨q, p, l, by rw [e]; exact hs.prepend, hc⟩
      | refused ty a b f k l hf hs hu =>
        rcases b1.state with hd | ⟨f, s0, rng', hf', h1, h2⟩
        · exact absurd (refused_clear hu hd).1 (by simp)
        · exact absurd (refused_keyed hu h1 hf'.key_length h2 hf'.iv_length hf).1 (by simp)
    · cases h
    · right
      cases h with
      | short _ h => exact ⟨cr, rest, hr, hl, Or.inl ⟨ty, body, hp, h⟩⟩
  | keys ske d h =>
    cases h with
    | short h => exact Or.inr ⟨cr, rest, hr, hl, Or.inr ⟨s, _, ske, hb, d, h⟩⟩

/-- C103 (`BadRecordMac`): a record which is numbered, and does not open under RFC 8439 with the server key that follows from the first flight. -/
theorem C103_mac (m : Mode) (rd : Reader) (wr : Writer) (rng : Rng) (c : TlsClient) (h : TlsClient.new m rd wr rng = (.err .BadRecordMac, c)) :
    ∃ cr rest f s rng', rng.bytes = cr ++ rest ∧ cr.length = 32 ∧ FlightCame m rd cr rest f s rng' ∧
      ∃ (q : Bytes) (l : List Sym) (n : Nat) (ty : ContentType) (a b : UInt8) (ct : Bytes), ct.length ≤ 18432 ∧ rd.stream = ofBytes (q ++ recordBytes ty.toU8 a b ct) ++ l ∧
        Spec.Aead.openMsg (f.keys cr).serverKey (recordNonce (f.keys cr).serverIv n) (recordAad n ty.toU8 a b (ct.length - 16)) ct = none := by
  rcases C103_cause m rd wr rng _ c h with ⟨h, _⟩ | ⟨cr, rest, hr, hl, h⟩
  · cases h
  obtain ⟨s, hb, hf⟩ := h.found
  cases hf with
  | bad h =>
    rcases h.why hb with ⟨s1, l, b1, h⟩ | h | ⟨ty, body, hp, h⟩
    · cases h with
      | refused ty a b ct k l hf hs hu =>
        rcases b1.state with hd | ⟨f, s0, rng', hf', h1, h2⟩
        · exact absurd (refused_clear hu hd).1 (by simp)
        · obtain ⟨q, e⟩ := b1.stream
          refine ⟨cr, rest, f, s0, rng', hr, hl, hf', q, l, s1.readCount.toNat, ty, a, b, ct, hf, ?_, (refused_keyed hu h1 hf'.key_length h2 hf'.iv_length hf).2⟩
          rw [e, hs]
          simp only [ofBytes, List.map_append, List.append_assoc]
    · cases h
    · cases h
  | keys ske d h => cases h

/-- C103 (`RecordOverflow`): a record announced with more than 2^14 + 2048 bytes; or one in the clear with more than 2^14. -/
theorem C103_overflow (m : Mode) (rd : Reader) (wr : Writer) (rng : Rng) (c : TlsClient) (h : TlsClient.new m rd wr rng = (.err .RecordOverflow, c)) :
    ∃ (q : Bytes) (l : List Sym) (ty a b : UInt8) (n : Nat), ty ∈ [20, 21, 22, 23] ∧ 2 ^ 14 < n ∧ n < 2 ^ 16 ∧ rd.stream = ofBytes (q ++ [ty, a, b] ++ beBytes 2 n) ++ l := by
  rcases C103_cause m rd wr rng _ c h with ⟨h, _⟩ | ⟨cr, rest, hr, hl, h⟩
  · cases h
  obtain ⟨s, hb, hf⟩ := h.found
  cases hf with
  | bad h =>
    rcases h.why hb with ⟨s1, l, b1, h⟩ | h | ⟨ty, body, hp, h⟩
    · obtain ⟨q, e⟩ := b1.stream
      cases h with
      | announced ty a b n l hty hn hn' hs =>
        exact ⟨q, l, ty, a, b, n, hty, by omega, hn', by rw [e, hs]; simp only [ofBytes, List.map_append, List.append_assoc]⟩
      | refused ty a b ct k l hf hs hu =>
        rcases b1.state with hd | ⟨f, s0, rng', hf', h1, h2⟩
        · refine ⟨q, ofBytes ct ++ l, ty.toU8, a, b, ct.length, type_mem ty, (refused_clear hu hd).2, by omega, ?_⟩
          rw [e, hs]
          simp only [recordBytes, ofBytes, List.map_append, List.append_assoc]
        · exact absurd (refused_keyed hu h1 hf'.key_length h2 hf'.iv_length hf).1 (by simp)
    · cases h
    · cases h
  | keys ske d h => cases h

/-- C103 (`AlertReceived`): an alert of the server stood where a handshake message was expected. -/
theorem C103_alert (m : Mode) (rd : Reader) (wr : Writer) (rng : Rng) (c : TlsClient) (h : TlsClient.new m rd wr rng = (.err .AlertReceived, c)) :
    ∃ cr rest s s1 a, rng.bytes = cr ++ rest ∧ cr.length = 32 ∧ Awaits m rd cr rest s ∧ Delivers s (.AlertMessage a) s1 := by
  rcases C103_cause m rd wr rng _ c h with ⟨h, _⟩ | ⟨cr, rest, hr, hl, h⟩
  · cases h
  obtain ⟨s, hb, hf⟩ := h.found
  cases hf with
  | bad h =>
    rcases h.why hb with ⟨s1, l, b1, h⟩ | h | ⟨ty, body, hp, h⟩
    · cases h with
      | refused ty a b ct k l hf hs hu =>
        rcases b1.state with hd | ⟨f, s0, rng', hf', h1, h2⟩
        · exact absurd (refused_clear hu hd).1 (by simp)
        · exact absurd (refused_keyed hu h1 hf'.key_length h2 hf'.iv_length hf).1 (by simp)
    · cases h
    · cases h
  | alert a d => exact ⟨cr, rest, s, _, a, hr, hl, hb, d⟩
  | keys ske d h => cases h

/-- C103 (`IllegalParameter`): the ServerHello does not agree to what was offered, or the point of the ServerKeyExchange is refused. -/
theorem C103_parameter (m : Mode) (rd : Reader) (wr : Writer) (rng : Rng) (c : TlsClient) (h : TlsClient.new m rd wr rng = (.err .IllegalParameter, c)) :
    ∃ cr rest s s1, rng.bytes = cr ++ rest ∧ cr.length = 32 ∧ Awaits m rd cr rest s ∧
      ((∃ sh, Delivers s (.HandshakeMessage (.server_hello sh)) s1 ∧ ¬ Agreed sh) ∨
       ∃ ske ps more, Delivers s (.HandshakeMessage (.server_key_exchange ske)) s1 ∧ (TlsItem.read (α := EcdheServerKeyExchange)).run ske.data = (.ok ps, more) ∧
         NPoint256.fromUncompressedBytes m ps.params.pub.items = .ok none) := by
  rcases C103_cause m rd wr rng _ c h with ⟨h, _⟩ | ⟨cr, rest, hr, hl, h⟩
  · cases h
  obtain ⟨s, hb, hf⟩ := h.found
  cases hf with
  | bad h =>
    rcases h.why hb with ⟨s1, l, b1, h⟩ | h | ⟨ty, body, hp, h⟩
    · cases h with
      | refused ty a b ct k l hf hs hu =>
        rcases b1.state with hd | ⟨f, s0, rng', hf', h1, h2⟩
        · exact absurd (refused_clear hu hd).1 (by simp)
        · exact absurd (refused_keyed hu h1 hf'.key_length h2 hf'.iv_length hf).1 (by simp)
    · cases h
    · cases h
  | parameters sh d h => exact ⟨cr, rest, s, _, hr, hl, hb, Or.inl ⟨sh, d, h⟩⟩
  | keys ske d h =>
    cases h with
    | point ps more h1 h2 => exact ⟨cr, rest, s, _, hr, hl, hb, Or.inr ⟨ske, ps, more, d, h1, h2⟩⟩

/-- C103 (`DecryptError`): a Finished message, protected with the keys that follow from the first flight, has other verify data than the messages that were exchanged call for. -/
theorem C103_decrypt (m : Mode) (rd : Reader) (wr : Writer) (rng : Rng) (c : TlsClient) (h : TlsClient.new m rd wr rng = (.err .DecryptError, c)) :
    ∃ cr rest f s0 rng' s s1 pub vd, rng.bytes = cr ++ rest ∧ cr.length = 32 ∧ FlightCame m rd cr rest f s0 rng' ∧ f.keyData = 65 :: pub ∧
      Awaits m rd cr rest s ∧ s.decryptor = some (.chacha m (f.keys cr).serverKey) ∧ s.iv = some (f.keys cr).serverIv ∧
      Delivers s (.HandshakeMessage (.finished ⟨vd⟩)) s1 ∧ vd ≠ f.serverVerify cr pub := by
  rcases C103_cause m rd wr rng _ c h with ⟨h, _⟩ | ⟨cr, rest, hr, hl, h⟩
  · cases h
  obtain ⟨s, hb, hf⟩ := h.found
  cases hf with
  | bad h =>
    rcases h.why hb with ⟨s1, l, b1, h⟩ | h | ⟨ty, body, hp, h⟩
    · cases h with
      | refused ty a b ct k l hf hs hu =>
        rcases b1.state with hd | ⟨f, s0, rng', hf', h1, h2⟩
        · exact absurd (refused_clear hu hd).1 (by simp)
        · exact absurd (refused_keyed hu h1 hf'.key_length h2 hf'.iv_length hf).1 (by simp)
    · cases h
    · cases h
  | keys ske d h => cases h
  | verify f pub vd h1 h2 h3 h4 h5 h6 => exact ⟨cr, rest, f, _, _, s, _, pub, vd, hr, hl, h1, h2, hb, h3, h4, h5, h6⟩

/-- C103 (`InternalError`): nothing internal; a handshake message with bytes after its end. -/
theorem C103_internal_partial (m : Mode) (rd : Reader) (wr : Writer) (rng : Rng) (c : TlsClient) (h : TlsClient.new m rd wr rng = (.err .InternalError, c)) :
    ∃ cr rest ty body hh x more, rng.bytes = cr ++ rest ∧ cr.length = 32 ∧ Presented m rd cr rest ty body ∧ (Handshake.readArm ty.toNat).run body = (.ok hh, x :: more) := by
  rcases C103_cause m rd wr rng _ c h with ⟨h, _⟩ | ⟨cr, rest, hr, hl, h⟩
  · cases h
  obtain ⟨s, hb, hf⟩ := h.found
  cases hf with
  | bad h =>
    rcases h.why hb with ⟨s1, l, b1, h⟩ | h | ⟨ty, body, hp, h⟩
    · cases h with
      | refused ty a b ct k l hf hs hu =>
        rcases b1.state with hd | ⟨f, s0, rng', hf', h1, h2⟩
        · exact absurd (refused_clear hu hd).1 (by simp)
        · exact absurd (refused_keyed hu h1 hf'.key_length h2 hf'.iv_length hf).1 (by simp)
    · cases h
    · cases h with
      | long hh x more _ h => exact ⟨cr, rest, ty, body, hh, x, more, hr, hl, hp, h⟩
  | keys ske d h => cases h

/-- C103 (`DecodeError`): a value or a length inside a handshake message, or in the content of a ServerKeyExchange, is not allowed. -/
theorem C103_decode (m : Mode) (rd : Reader) (wr : Writer) (rng : Rng) (c : TlsClient) (h : TlsClient.new m rd wr rng = (.err .DecodeError, c)) :
    ∃ cr rest, rng.bytes = cr ++ rest ∧ cr.length = 32 ∧
      ((∃ ty body, Presented m rd cr rest ty body ∧ ((Handshake.readArm ty.toNat).run body).1 = .err .DecodeError) ∨
       ∃ s s1 ske, Awaits m rd cr rest s ∧ Delivers s (.HandshakeMessage (.server_key_exchange ske)) s1 ∧ ((TlsItem.read (α := EcdheServerKeyExchange)).run ske.data).1 = .err .DecodeError) := by
  rcases C103_cause m rd wr rng _ c h with ⟨h, _⟩ | ⟨cr, rest, hr, hl, h⟩
  · cases h
  obtain ⟨s, hb, hf⟩ := h.found
  cases hf with
  | bad h =>
    rcases h.why hb with ⟨s1, l, b1, h⟩ | h | ⟨ty, body, hp, h⟩
    · cases h with
      | refused ty a b ct k l hf hs hu =>
        rcases b1.state with hd | ⟨f, s0, rng', hf', h1, h2⟩
        · exact absurd (refused_clear hu hd).1 (by simp)
        · exact absurd (refused_keyed hu h1 hf'.key_length h2 hf'.iv_length hf).1 (by simp)
    · cases h
    · cases h with
      | value _ h => exact ⟨cr, rest, hr, hl, Or.inl ⟨ty, body, hp, h⟩⟩
  | keys ske d h =>
    cases h with
    | value h => exact ⟨cr, rest, hr, hl, Or.inr ⟨s, _, ske, hb, d, h⟩⟩

/-! ### Two errors say something else than what happened -/

theorem handshakeRead_arm {ty : UInt8} {body : Bytes} {k : TlsErrorKind} {rest : Bytes} (h : (Handshake.readArm ty.toNat).run body = (.err k, rest)) :
    ((TlsItem.read (α := Handshake)).run (handshakeBytes ty body)).1 = .err k := by
  have e1 : (Item.readNum 1).run (handshakeBytes ty body) = (.ok ty.toNat, beBytes 3 body.length ++ body) := by
    rw [handshakeBytes, Item.readNum, St.bind_of_ok (s' := beBytes 3 body.length ++ body) (a := [ty]) (by simp [Item.readExact]), St.pure_run]
    simp [beNat, leNat]
  have e2 : (Item.readNum 3).run (beBytes 3 body.length ++ body) = (.ok (beNat (beBytes 3 body.length)), body) := by
    rw [Item.readNum, St.bind_of_ok (s' := body) (a := beBytes 3 body.length) (by simp [Item.readExact]), St.pure_run]
  show ((Item.readNum 1 >>= fun ty => Item.readNum 3 >>= fun _ => Handshake.readArm ty >>= fun ret => Handshake.checkEnd ret : P Handshake).run (handshakeBytes ty body)).1 = .err k
  rw [St.bind_of_ok e1, St.bind_of_ok e2, St.bind_of_err h]

/-- A first record that holds one handshake message which cannot be decoded. -/
theorem bad_first (m : Mode) (rd : Reader) {a b ty : UInt8} {body : Bytes} {more : List Sym} {k : TlsErrorKind} (hb : body.length + 4 ≤ 2 ^ 14)
    (hs : rd.stream = ofBytes (recordBytes 22 a b (handshakeBytes ty body)) ++ more) (h : ((TlsItem.read (α := Handshake)).run (handshakeBytes ty body)).1 = .err k) :
    ∃ s', (readMessage m).run (TlsReader.new rd) = (.err k, s') ∧ s'.reader.stream = more := by
  have hl : (handshakeBytes ty body).length = body.length + 4 := by simp [handshakeBytes]; omega
  have hu := unprotect_clear (s := TlsReader.new rd) rfl .HandshakeTy a b (f := handshakeBytes ty body) (by omega)
  obtain ⟨r, hr1, hr⟩ := readRecord_front (m := m) (s := TlsReader.new rd) (ty := .HandshakeTy) (a := a) (b := b) (f := handshakeBytes ty body) (l := more)
    (by show _ ≤ 18432; omega) hs
  have ht : Took (TlsReader.new rd) [⟨.HandshakeTy, a, b, handshakeBytes ty body⟩] { TlsReader.new rd with reader := r, readCount := 1 } :=
    .cons (s1 := { TlsReader.new rd with reader := r, readCount := 1 }) (by show _ ≤ 18432; omega) (by rw [hr1]; exact hs) hu rfl rfl rfl (.nil rfl rfl rfl rfl)
  obtain ⟨r', hrec, ht'⟩ := ht.record (m := m) (fun _ => (by decide : (0 : UInt64).toNat + 1 < 2 ^ 64))
  have hr' : r'.stream = more := by cases ht' with | nil e => rw [← hr1]; exact e.symm
  have hg : HandshakeBuffer.getMessage.run ⟨handshakeBytes ty body⟩ = (.err k, ⟨[]⟩) := by
    have h3 : beNat (((handshakeBytes ty body).drop 1).take 3) = body.length := by
      rw [handshakeBytes, List.drop_succ_cons, List.drop_zero, List.take_left' (by simp)]
      rw [beNat_beBytes, Nat.mod_eq_of_lt (by omega)]
    simp only [HandshakeBuffer.getMessage]
    rw [if_neg (by omega), h3, if_neg (by omega), List.take_of_length_le (by omega), List.drop_eq_nil_of_le (by omega), h]
  refine ⟨{ TlsReader.new rd with reader := r', readCount := (TlsReader.new rd).readCount + 1 }, ?_, hr'⟩
  have h0 : (onBuffer HandshakeBuffer.getMessage).run (TlsReader.new rd) = (.ok none, TlsReader.new rd) := rfl
  rw [readMessage, St.bind_of_ok h0]
  show (messageLoop m ((TlsReader.new rd).reader.bytes + 1)).run _ = _
  rw [messageLoop, St.bind_of_err]
  rw [messageStep, St.bind_of_ok hrec]
  simp only
  rw [if_neg (by simp [handshakeBytes]), St.bind_of_ok (s' := { TlsReader.new rd with reader := r', readCount := (TlsReader.new rd).readCount + 1, handshakeBuffer := ⟨handshakeBytes ty body⟩ }) (a := ()) rfl,
    St.bind_of_err]
  simp only [onBuffer, St.zoom_run, hg]
  rfl

/-- What becomes of the handshake then. -/
theorem new_bad_first (m : Mode) (rd : Reader) (wr : Writer) (cr rest : Bytes) (hfa : wr.faults = []) (hcr : cr.length = 32) {k : TlsErrorKind} {s' : TlsReader}
    (h : (readMessage m).run (TlsReader.new rd) = (.err k, s')) :
    ∃ c, (handshake m).run (fresh rd wr ⟨cr ++ rest⟩) = (.err k, c) ∧ c.reader = s' ∧ c.writer.writer.wire = wr.wire ++ recordBytes 22 3 3 (clientHelloBytes cr) := by
  obtain ⟨w', h1, h2⟩ := after_hello m rd wr ⟨cr ++ rest⟩ hfa rfl hcr
  refine ⟨{ fresh rd wr ⟨cr ++ rest⟩ with rng := ⟨rest⟩, writer := w', reader := s' }, ?_, rfl, h2.wire⟩
  rw [handshake, St.bind_of_ok h1]
  dsimp only
  have he := expectServerHello_other h (fun d hd => by cases hd)
  rw [St.bind_of_err]
  rw [readFlight, St.bind_of_err]
  exact onReader_ok (c := { fresh rd wr ⟨cr ++ rest⟩ with rng := ⟨rest⟩, writer := w' }) he

theorem short_hello {body : Bytes} (hb : body.length ≤ 34) : ∃ rest, (Handshake.readArm 2).run body = (.err .IoFailure, rest) := by
  have harm : Handshake.readArm 2 = Handshake.readBody ServerHello .server_hello := rfl
  have hread : ∃ rest, (TlsItem.read (α := ServerHello)).run body = (.err .IoFailure, rest) := by
    rcases body with _ | ⟨x, _ | ⟨y, t⟩⟩
    · exact ⟨_, rfl⟩
    · exact ⟨_, rfl⟩
    · have hv : (TlsItem.read (α := ProtocolVersion)).run (x :: y :: t) = (.ok ⟨x, y⟩, t) := by
        have hu : ∀ (x : UInt8) (t : Bytes), (TlsItem.read (α := UInt8)).run (x :: t) = (.ok x, t) := fun x t => by
          show (Item.readNum 1 >>= fun n => (pure (UInt8.ofNat n) : P UInt8)).run _ = _
          rw [Item.readNum, St.bind_of_ok (s' := t) (a := beNat [x]) (by rw [St.bind_of_ok (s' := t) (a := [x]) (by simp [Item.readExact]), St.pure_run]), St.pure_run]
          simp [beNat, leNat]
        show ((TlsItem.read (α := UInt8)) >>= fun major => (TlsItem.read (α := UInt8)) >>= fun minor => (pure ⟨major, minor⟩ : P ProtocolVersion)).run _ = _
        rw [St.bind_of_ok (hu _ _), St.bind_of_ok (hu _ _), St.pure_run]
      show ∃ rest, ((TlsItem.read (α := ProtocolVersion)) >>= fun v => (TlsItem.read (α := Random)) >>= fun r => (TlsItem.read (α := SessionId)) >>= fun s => _ : P ServerHello).run _ = _
      rw [St.bind_of_ok hv]
      have ht : t.length ≤ 32 := by simp only [List.length_cons] at hb; omega
      by_cases h32 : t.length = 32
      · have hr : (TlsItem.read (α := Random)).run t = (.ok ⟨t⟩, []) := by
          show (Item.readExact 32 >>= fun data => (pure ⟨data⟩ : P (TlsArray 32))).run t = _
          rw [St.bind_of_ok (a := t) (s' := []) (by simp [Item.readExact, ← h32]), St.pure_run]
        rw [St.bind_of_ok hr]
        exact ⟨[], St.bind_of_err rfl⟩
      · have hr : ∃ r, (TlsItem.read (α := Random)).run t = (.err .IoFailure, r) := by
          show ∃ r, (Item.readExact 32 >>= fun data => (pure ⟨data⟩ : P (TlsArray 32))).run t = _
          refine ⟨[], St.bind_of_err ?_⟩
          simp only [Item.readExact]
          rw [if_neg (by omega)]
        obtain ⟨r, hr⟩ := hr
        exact ⟨r, St.bind_of_err hr⟩
  obtain ⟨rest, h⟩ := hread
  exact ⟨rest, by rw [harm, Handshake.readBody, St.bind_of_err h]⟩

/-- C103 (negation for `IoFailure`): a ServerHello that is too short is reported as a failure of the transport, though the transport delivers every byte and accepts every byte;
nothing is said to the server. -/
theorem C103_not_io (m : Mode) (rd : Reader) (wr : Writer) (cr rest : Bytes) (hfa : wr.faults = []) (hcr : cr.length = 32) {a b : UInt8} {body : Bytes} {more : List Sym}
    (hb : body.length ≤ 34) (hs : rd.stream = ofBytes (recordBytes 22 a b (handshakeBytes 2 body)) ++ more) :
    ∃ c, TlsClient.new m rd wr ⟨cr ++ rest⟩ = (.err .IoFailure, c) ∧ c.reader.reader.stream = more ∧ c.writer.writer.wire = wr.wire ++ recordBytes 22 3 3 (clientHelloBytes cr) := by
  obtain ⟨r, hr⟩ := short_hello hb
  obtain ⟨s', h1, h2⟩ := bad_first m rd (k := .IoFailure) (by omega) hs (handshakeRead_arm hr)
  obtain ⟨c, h3, h4, h5⟩ := new_bad_first m rd wr cr rest hfa hcr h1
  exact ⟨c, (C32_error m rd wr _ _ _ h3).1 rfl, by rw [h4, h2], h5⟩

/-- C103 (negation for `InternalError`): a ServerHelloDone with a byte too many is reported as an internal error. -/
theorem C103_not_internal (m : Mode) (rd : Reader) (wr : Writer) (cr rest : Bytes) (hfa : wr.faults = []) (hcr : cr.length = 32) {a b x : UInt8} {more : List Sym}
    (hs : rd.stream = ofBytes (recordBytes 22 a b (handshakeBytes 14 [x])) ++ more) : (TlsClient.new m rd wr ⟨cr ++ rest⟩).1 = .err .InternalError := by
  obtain ⟨s', h1, h2⟩ := bad_first m rd (k := .InternalError) (by simp) hs rfl
  obtain ⟨c, h3, h4, h5⟩ := new_bad_first m rd wr cr rest hfa hcr h1
  exact (C32_error m rd wr _ _ _ h3).2.1 (by simp) hfa

/-- The hypotheses can be met: an empty ServerHello, and a ServerHelloDone with one byte; more is to come, and the transport never fails. -/
example (m : Mode) : ∃ c, TlsClient.new m ⟨[.data (recordBytes 22 3 3 (handshakeBytes 2 [])), .data [1, 2, 3]]⟩ ⟨[], []⟩ ⟨List.replicate 32 7 ++ []⟩ = (.err .IoFailure, c) ∧
    c.reader.reader.stream = ofBytes [1, 2, 3] ∧ c.writer.writer.wire = recordBytes 22 3 3 (clientHelloBytes (List.replicate 32 7)) :=
  C103_not_io m _ _ _ [] rfl rfl (a := 3) (b := 3) (body := []) (by decide) rfl

example (m : Mode) : (TlsClient.new m ⟨[.data (recordBytes 22 3 3 (handshakeBytes 14 [0]))]⟩ ⟨[], []⟩ ⟨List.replicate 32 7 ++ []⟩).1 = .err .InternalError :=
  C103_not_internal m _ _ _ [] rfl rfl (a := 3) (b := 3) (x := 0) (more := []) rfl

/-- The other errors occur: a record announced as too long, an alert, a ServerHello with another version, one with an unknown compression method. -/
example (m : Mode) : (TlsClient.new m ⟨[.data [22, 3, 3, 255, 255]]⟩ ⟨[], []⟩ ⟨List.replicate 32 7⟩).1 = .err .RecordOverflow := by
  cases m <;> decide +kernel

example (m : Mode) : (TlsClient.new m ⟨[.data [21, 3, 3, 0, 2, 2, 40]]⟩ ⟨[], []⟩ ⟨List.replicate 32 7⟩).1 = .err .AlertReceived := by
  cases m <;> decide +kernel

example (m : Mode) : (TlsClient.new m ⟨[.data (recordBytes 22 3 3 (handshakeBytes 2 ([3, 2] ++ List.replicate 32 9 ++ [0, 0xcc, 0xa8, 0])))]⟩ ⟨[], []⟩ ⟨List.replicate 32 7⟩).1 =
    .err .IllegalParameter := by
  cases m <;> decide +kernel

example (m : Mode) : (TlsClient.new m ⟨[.data (recordBytes 22 3 3 (handshakeBytes 2 ([3, 3] ++ List.replicate 32 9 ++ [0, 0xcc, 0xa8, 7])))]⟩ ⟨[], []⟩ ⟨List.replicate 32 7⟩).1 =
    .err .DecodeError := by
  cases m <;> decide +kernel

end Husk
