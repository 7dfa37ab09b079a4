import Verif.Proofs.HandshakeServer
import Verif.Props.ClientHandshake
/-! The handshake up to some point: the server's messages that were read so far, and what the client does with the next one. -/

namespace Husk

open Item Spec TlsReader

/-! ### Records in clear on their way -/

/-- The reader has no key; the handshake records before it (and its buffer) carry `bs`, then comes `l`. -/
def ClearPending (s : TlsReader) (bs : Bytes) (l : List Sym) : Prop :=
  ∃ w sent w', Incoming w sent w' l s ∧ HandshakeRecords sent ∧ s.handshakeBuffer.buf ++ payload sent = bs ∧ s.decryptor = none ∧
    w.writeCount.toNat + sent.length < 2 ^ 63 ∧ w'.writer.faults = []

theorem ClearPending.start (rd : Reader) {fs : List Bytes} (hf : Fits fs) (hl : fs.length < 2 ^ 63) (l : List Sym)
    (hrd : rd.stream = ofBytes (fs.flatMap (recordBytes 22 3 3)) ++ l) : ClearPending (TlsReader.new rd) fs.flatten l := by
  obtain ⟨wA, sentA, hA, hAm, hAf, hAe, hAi, hAc, hAl⟩ := fragments_sent hf.le .HandshakeTy (TlsWriter.new {}) (sealsShort_plain rfl) rfl (by show 0 + _ < _; omega)
  obtain ⟨hArec, hApay⟩ := hf.records hAm
  have hAwire := sent_plain hA rfl hAm
  refine ⟨TlsWriter.new {}, sentA, wA, ⟨hA, ⟨rfl, rfl, Or.inl ⟨rfl, rfl⟩⟩, fun rc h => (hArec rc h).2.2, ?_, ?_⟩, fun rc h => ⟨(hArec rc h).1, (hArec rc h).2.1⟩, ?_, rfl, ?_, hAf⟩
  · rw [hAl]; show 0 + _ < _; omega
  · show rd.stream = _
    rw [hrd, hAwire]; rfl
  · rw [hApay]; rfl
  · rw [hAl]; show 0 + _ < _; omega

theorem TlsWriter.Sent.counted {w w' : TlsWriter} {sent : List (Record × Bytes)} (h : w.Sent sent w') (hn : w.writeCount.toNat + sent.length < 2 ^ 63) :
    w'.writeCount.toNat = w.writeCount.toNat + sent.length := by
  have := congrArg UInt64.toNat h.same.2.2.1
  rw [UInt64.toNat_add, UInt64.toNat_ofNat'] at this
  omega

/-- The next message is delivered. -/
theorem ClearPending.take (m : Mode) {s : TlsReader} {b bs : Bytes} {l : List Sym} {h : Handshake} (hp : ClearPending s (b ++ bs) l) (hb : Framed b h) :
    ∃ s1, (readMessage m).run s = (.ok (.HandshakeMessage h), s1) ∧ ClearPending s1 bs l ∧ s1.iv = s.iv := by
  obtain ⟨w, sent, w', hi, hh, hbs, hd, hn, hf⟩ := hp
  obtain ⟨w1, sent1, s1, r1, i1, x1, y1, z1⟩ := hi.readFramed m hh hb hbs
  refine ⟨s1, r1, ⟨w1, sent1, w', i1, fun rc h => hh rc (x1.mem h), y1, z1.trans hd, ?_, hf⟩, (TlsClient.readMessage_same r1).2⟩
  have h1 := hi.ok.counted hn
  have h2 := i1.ok.same.2.2.1
  have h3 := i1.count
  have hcc := congrArg UInt64.toNat h2
  rw [UInt64.toNat_add, UInt64.toNat_ofNat'] at hcc
  omega

theorem ClearPending.setIv {s : TlsReader} {bs : Bytes} {l : List Sym} (hp : ClearPending s bs l) (iv : Option Bytes) : ClearPending { s with iv := iv } bs l := by
  obtain ⟨w, sent, w', hi, hh, hbs, hd, hn, hf⟩ := hp
  have hwe : w.encryptor = none := by
    rcases hi.synced.2.2 with ⟨a, _⟩ | ⟨e, d, _, b, _⟩
    · exact a
    · rw [hd] at b; cases b
  exact ⟨_, sent, _, hi.setIv hwe iv, hh, hbs, hd, hn, hf⟩

/-- Another kind of record, or an empty one, after bytes that do not make a message. -/
theorem Incoming.loopOther (m : Mode) {w' : TlsWriter} {l : List Sym} (sent : List (Record × Bytes)) (rec : Record) (hty : rec.contentType = .HandshakeTy → rec.fragment = []) (ct : Bytes) (fuel : Nat) :
    ∀ {w : TlsWriter} {s : TlsReader}, Incoming w (sent ++ [(rec, ct)]) w' l s → HandshakeRecords sent →
      (∀ x t, x ++ t = s.handshakeBuffer.buf ++ payload sent → HandshakeBuffer.getMessage.run ⟨x⟩ = (.ok none, ⟨x⟩)) → countBytes s.reader.stream < fuel →
    ∃ s1, (Husk.TlsReader.messageLoop m fuel).run s = (recordMessage rec, s1) ∧ Incoming w' [] w' l s1 ∧
      s1.handshakeBuffer.buf = s.handshakeBuffer.buf ++ payload sent ∧ s1.decryptor = s.decryptor ∧ s1.iv = s.iv := by
  induction sent generalizing fuel with
  | nil =>
    intro w s hi hh hp hf
    cases fuel with
    | zero => omega
    | succ fuel =>
      obtain ⟨w1, r', h1, h2⟩ := hi.record m
      have hw1 : w1 = w' := by have := h2.ok; cases this; rfl
      subst hw1
      refine ⟨_, ?_, h2, by simp [payload], rfl, rfl⟩
      rw [Husk.TlsReader.messageLoop]
      simp only [St.bind_run, messageStep]
      rw [h1]
      unfold recordMessage
      cases hc : rec.contentType with
      | HandshakeTy => simp only [hc, hty hc, List.isEmpty_nil, if_true, St.err_run]
      | ChangeCipherSpecTy => simp only [hc, St.bind_run, St.lift_run]; cases ccsMessage rec.fragment <;> rfl
      | AlertTy => simp only [hc, St.bind_run, St.lift_run]; cases alertMessage rec.fragment <;> rfl
      | ApplicationDataTy => simp only [hc, St.pure_run]
  | cons rc sent ih =>
    intro w s hi hh hp hf
    cases fuel with
    | zero => omega
    | succ fuel =>
      obtain ⟨w1, r', h1, h2⟩ := Incoming.record m (sent := sent ++ [(rec, ct)]) hi
      have hcons := readRecord_consumes h1
      obtain ⟨hty', hne⟩ := hh rc (by simp)
      rw [payload, List.flatMap_cons, ← List.append_assoc] at hp
      have hg : HandshakeBuffer.getMessage.run ⟨s.handshakeBuffer.buf ++ rc.1.fragment⟩ = (.ok none, ⟨s.handshakeBuffer.buf ++ rc.1.fragment⟩) := hp _ _ rfl
      obtain ⟨s1, g1, g2, g3, g4⟩ := ih fuel (h2.buffer ⟨s.handshakeBuffer.buf ++ rc.1.fragment⟩) (fun rc h => hh rc (List.mem_cons_of_mem _ h)) hp
        (by
          show countBytes r'.stream < fuel
          have : countBytes r'.stream + 5 ≤ countBytes s.reader.stream := hcons
          omega)
      refine ⟨s1, ?_, g2, ?_, g4⟩
      · rw [Husk.TlsReader.messageLoop, St.bind_of_ok (messageStep_handshake h1 hty' hne hg)]
        exact g1
      · rw [g3, payload, payload, List.flatMap_cons, List.append_assoc]

theorem Incoming.readOther (m : Mode) {w w' : TlsWriter} {sent : List (Record × Bytes)} {rec : Record} (hty : rec.contentType = .HandshakeTy → rec.fragment = []) {ct : Bytes} {l : List Sym} {s : TlsReader}
    (hi : Incoming w (sent ++ [(rec, ct)]) w' l s) (hh : HandshakeRecords sent)
    (hp : ∀ x t, x ++ t = s.handshakeBuffer.buf ++ payload sent → HandshakeBuffer.getMessage.run ⟨x⟩ = (.ok none, ⟨x⟩)) :
    ∃ s1, (Husk.TlsReader.readMessage m).run s = (recordMessage rec, s1) ∧ Incoming w' [] w' l s1 ∧
      s1.handshakeBuffer.buf = s.handshakeBuffer.buf ++ payload sent ∧ s1.decryptor = s.decryptor ∧ s1.iv = s.iv := by
  have h1 : (onBuffer HandshakeBuffer.getMessage).run s = (.ok none, s) := by
    have hg := hp _ _ rfl
    have : (⟨s.handshakeBuffer.buf⟩ : HandshakeBuffer) = s.handshakeBuffer := rfl
    rw [this] at hg
    simp only [onBuffer, St.zoom_run, hg]
  obtain ⟨s1, g1, g2⟩ := Incoming.loopOther m sent rec hty ct (s.reader.bytes + 1) hi hh hp (by rw [Reader.bytes_eq]; omega)
  refine ⟨s1, ?_, g2⟩
  rw [Husk.TlsReader.readMessage, St.bind_of_ok h1]
  exact g1

/-- Bytes that neither are nor contain a complete message at their front. -/
def Incomplete (bs : Bytes) : Prop := ∀ x t, x ++ t = bs → HandshakeBuffer.getMessage.run ⟨x⟩ = (.ok none, ⟨x⟩)

theorem Incomplete.nil : Incomplete [] := by
  intro x t h
  obtain ⟨rfl, rfl⟩ := List.append_eq_nil_iff.mp h
  rfl

theorem Framed.incomplete {b : Bytes} {h : Handshake} (hf : Framed b h) {pre post : Bytes} (hp : pre ++ post = b) (hne : post ≠ []) : Incomplete pre := by
  intro x t hx
  refine hf.part (t := t ++ post) ?_ ?_
  · rw [← hp, ← hx, List.append_assoc]
  · intro h; exact hne (List.append_eq_nil_iff.mp h).2

/-- A record of another type, or an empty one, in clear. -/
theorem ClearPending.any (m : Mode) {s : TlsReader} {bs : Bytes} {l : List Sym} {ty : ContentType} {f : Bytes} (hty : ty = .HandshakeTy → f = []) (hl : f.length ≤ 2 ^ 14)
    (hp : ClearPending s bs (ofBytes (recordBytes ty.toU8 3 3 f) ++ l)) (hinc : Incomplete bs) :
    ∃ s1, (readMessage m).run s = (recordMessage ⟨ty, 3, 3, f⟩, s1) ∧ s1.reader.stream = l ∧ s1.handshakeBuffer.buf = bs ∧ s1.decryptor = none ∧ s1.iv = s.iv := by
  obtain ⟨w, sent, w', hi, hh, hbs, hd, hn, hf⟩ := hp
  have hwe : w.encryptor = none := by
    rcases hi.synced.2.2 with ⟨a, _⟩ | ⟨e, d, _, b, _⟩
    · exact a
    · rw [hd] at b; cases b
  have hwe' : w'.encryptor = none := hi.ok.same.1.trans hwe
  have hc' := hi.ok.counted hn
  obtain ⟨wC, sC, hC, hCm, _, _, _, _, hCl⟩ := fragments_sent (fs := [f]) (by intro x hx; rw [List.mem_singleton.mp hx]; exact hl) ty w' (sealsShort_plain hwe') hf
    (by rw [hc', List.length_singleton]; omega)
  have hCw := sent_plain hC hwe' hCm
  obtain ⟨rc, rfl⟩ : ∃ rc, sC = [rc] := List.length_eq_one_iff.mp hCl
  have hrc : rc.1 = ⟨ty, 3, 3, f⟩ := by
    simp only [List.map_cons, List.map_nil, TlsWriter.recordsOf, List.cons.injEq, and_true] at hCm
    exact hCm
  have hi2 : Incoming w (sent ++ [rc]) wC l s := by
    refine Incoming.extend (w' := w') ?_ hC ?_ ?_
    · rw [hCw]; simpa using hi
    · intro x hx; rw [List.mem_singleton.mp hx, hrc]; exact hl
    · rw [List.length_append, List.length_singleton]; omega
  obtain ⟨rec, ct⟩ := rc
  simp only at hrc
  subst hrc
  obtain ⟨s1, g1, g2, g3, g4, g5⟩ := hi2.readOther m hty hh (by rw [hbs]; exact hinc)
  exact ⟨s1, g1, by rw [g2.stream]; rfl, by rw [g3, hbs], g4.trans hd, g5⟩

/-- A record of another type in clear. -/
theorem ClearPending.other (m : Mode) {s : TlsReader} {bs : Bytes} {l : List Sym} {ty : ContentType} {f : Bytes} (hty : ty ≠ .HandshakeTy) (hl : f.length ≤ 2 ^ 14)
    (hp : ClearPending s bs (ofBytes (recordBytes ty.toU8 3 3 f) ++ l)) (hinc : Incomplete bs) :
    ∃ s1, (readMessage m).run s = (recordMessage ⟨ty, 3, 3, f⟩, s1) ∧ s1.reader.stream = l ∧ s1.handshakeBuffer.buf = bs ∧ s1.decryptor = none ∧ s1.iv = s.iv :=
  ClearPending.any m (fun h => absurd h hty) hl hp hinc

namespace TlsClient

/-! ### The next message is not the one expected -/

/-- What comes of something else than the expected message: an alert, another message, or no message at all. -/
def refused : Res Message → Res α
  | .ok (.AlertMessage _) => .err .AlertReceived
  | .ok _ => .err .UnexpectedMessage
  | .err k => .err k
  | .panic => .panic
  | .diverge => .diverge

theorem expectServerHello_other {m : Mode} {s s' : TlsReader} {x : Res Message} (h : (readMessage m).run s = (x, s')) (hne : ∀ d, x ≠ .ok (.HandshakeMessage (.server_hello d))) :
    (expectServerHello m).run s = (refused x, s') := by
  rw [expectServerHello, readHandshake, St.bind_run, St.bind_run, h]
  rcases x with (hs | _ | _ | _) | _ | _ | _
  · cases hs with
    | server_hello d => exact absurd rfl (hne d)
    | _ => rfl
  all_goals rfl

theorem expectCertificate_other {m : Mode} {s s' : TlsReader} {x : Res Message} (h : (readMessage m).run s = (x, s')) (hne : ∀ d, x ≠ .ok (.HandshakeMessage (.certificate d))) :
    (expectCertificate m).run s = (refused x, s') := by
  rw [expectCertificate, readHandshake, St.bind_run, St.bind_run, h]
  rcases x with (hs | _ | _ | _) | _ | _ | _
  · cases hs with
    | certificate d => exact absurd rfl (hne d)
    | _ => rfl
  all_goals rfl

theorem expectServerKeyExchange_other {m : Mode} {s s' : TlsReader} {x : Res Message} (h : (readMessage m).run s = (x, s')) (hne : ∀ d, x ≠ .ok (.HandshakeMessage (.server_key_exchange d))) :
    (expectServerKeyExchange m).run s = (refused x, s') := by
  rw [expectServerKeyExchange, readHandshake, St.bind_run, St.bind_run, h]
  rcases x with (hs | _ | _ | _) | _ | _ | _
  · cases hs with
    | server_key_exchange d => exact absurd rfl (hne d)
    | _ => rfl
  all_goals rfl

theorem expectServerHelloDone_other {m : Mode} {s s' : TlsReader} {x : Res Message} (h : (readMessage m).run s = (x, s')) (hne : ∀ d, x ≠ .ok (.HandshakeMessage (.server_hello_done d))) :
    (expectServerHelloDone m).run s = (refused x, s') := by
  rw [expectServerHelloDone, readHandshake, St.bind_run, St.bind_run, h]
  rcases x with (hs | _ | _ | _) | _ | _ | _
  · cases hs with
    | server_hello_done d => exact absurd rfl (hne d)
    | _ => rfl
  all_goals rfl

theorem expectFinished_other {m : Mode} {s s' : TlsReader} {x : Res Message} (h : (readMessage m).run s = (x, s')) (hne : ∀ d, x ≠ .ok (.HandshakeMessage (.finished d))) :
    (expectFinished m).run s = (refused x, s') := by
  rw [expectFinished, readHandshake, St.bind_run, St.bind_run, h]
  rcases x with (hs | _ | _ | _) | _ | _ | _
  · cases hs with
    | finished d => exact absurd rfl (hne d)
    | _ => rfl
  all_goals rfl

/-- The same for `readChangeCipherSpec`, which does not tell alerts from other messages. -/
theorem readChangeCipherSpec_other {m : Mode} {s s' : TlsReader} {msg : Message} (h : (readMessage m).run s = (.ok msg, s')) (hne : msg ≠ .ChangeCipherSpecMessage) :
    (readChangeCipherSpec m).run s = (.err .UnexpectedMessage, s') := by
  rw [readChangeCipherSpec, St.bind_of_ok h]
  cases msg with
  | ChangeCipherSpecMessage => exact absurd rfl hne
  | _ => rfl

theorem readChangeCipherSpec_fails {m : Mode} {s s' : TlsReader} {x : Res Message} (h : (readMessage m).run s = (x, s')) (hne : ∀ msg, x ≠ .ok msg) :
    (readChangeCipherSpec m).run s = (refused x, s') := by
  rw [readChangeCipherSpec, St.bind_run, h]
  cases x with
  | ok msg => exact absurd rfl (hne msg)
  | _ => rfl

theorem bind_refused {σ α β : Type} {x : St σ α} {f : α → St σ β} {s s' : σ} {y : Res Message} (h : x.run s = (refused y, s')) : (x >>= f).run s = (refused y, s') := by
  rw [St.bind_run, h]
  rcases y with (_ | _ | _ | _) | _ | _ | _ <;> rfl

/-! ### The handshake, position by position -/

/-- The client after its ClientHello. -/
theorem after_hello (m : Mode) (rd : Reader) (wr : Writer) (rng : Rng) (hfa : wr.faults = []) {cr rest : Bytes} (hrng : rng.bytes = cr ++ rest) (hcr : cr.length = 32) :
    ∃ w', (sendHello m).run (fresh rd wr rng) = (.ok (cr, helloMessage cr), { fresh rd wr rng with rng := ⟨rest⟩, writer := w' }) ∧
      (fresh rd wr rng).writer.Wrote ⟨.HandshakeTy, 3, 3, clientHelloBytes cr⟩ (clientHelloBytes cr) w' := by
  rcases sendHello_cases m (fresh rd wr rng) rfl rfl with ⟨_, h2⟩ | ⟨cr', rest', hr, hl, ⟨w1, h1, h2⟩ | ⟨w1, n, h1, h2, _⟩⟩
  · have : rng.bytes.length < 32 := h2
    rw [hrng, List.length_append, hcr] at this; omega
  · rw [show (fresh rd wr rng).rng.bytes = rng.bytes from rfl, hrng] at hr
    obtain ⟨rfl, rfl⟩ := List.append_inj hr (hcr.trans hl.symm)
    exact ⟨w1, h1, h2⟩
  · exact absurd hfa h2

/-- How the handshake ends decides how `new` ends, if nothing fails when writing. -/
theorem new_result {m : Mode} {rd : Reader} {wr : Writer} {rng : Rng} (hfa : wr.faults = []) {x : Res Unit} {c : TlsClient}
    (h : (handshake m).run (fresh rd wr rng) = (x, c)) : (TlsClient.new m rd wr rng).1 = x := by
  cases x with
  | err k =>
    by_cases hk : k = .IoFailure
    · rw [(C32_error m rd wr rng _ _ h).1 hk, hk]
    · exact (C32_error m rd wr rng _ _ h).2.1 hk hfa
  | _ => rw [(new_of_handshake m rd wr rng _ _ (by intro k; simp)).mpr h]

/-- The first flight fails: so does `new`. -/
theorem new_of_flight (m : Mode) (rd : Reader) (wr : Writer) (rng : Rng) (hfa : wr.faults = []) {cr rest : Bytes} (hrng : rng.bytes = cr ++ rest) (hcr : cr.length = 32)
    {x : Res Message} (h : ∀ c : TlsClient, c.reader = TlsReader.new rd → c.rng = ⟨rest⟩ → ∃ c', (readFlight m).run c = (refused x, c')) :
    (TlsClient.new m rd wr rng).1 = refused x := by
  obtain ⟨w', hsh, _⟩ := after_hello m rd wr rng hfa hrng hcr
  obtain ⟨c', he⟩ := h { fresh rd wr rng with rng := ⟨rest⟩, writer := w' } rfl rfl
  refine new_result hfa (c := c') ?_
  rw [handshake, St.bind_of_ok hsh]
  dsimp only
  rw [bind_refused he]

section
variable {m : Mode} {c : TlsClient} {s1 s2 s3 s' : TlsReader} {x : Res Message} {sh : ServerHello} {certs : CertificateList} {ske : ObscureData} {rng' : Rng} {keys : Bytes × Bytes}

theorem flight_not_hello (h1 : (readMessage m).run c.reader = (x, s')) (hne : ∀ d, x ≠ .ok (.HandshakeMessage (.server_hello d))) :
    ∃ c', (readFlight m).run c = (refused x, c') := by
  refine ⟨{ c with reader := s' }, ?_⟩
  rw [readFlight, bind_refused (onReader_ok (expectServerHello_other h1 hne))]

theorem flight_not_certificate (h1 : (readMessage m).run c.reader = (.ok (.HandshakeMessage (.server_hello sh)), s1))
    (hc : sh.serverVersion = ⟨3, 3⟩ ∧ sh.cipherSuite = .TLS_ECDHE_RSA_WITH_CHACHA20_POLY1305_SHA256 ∧ sh.compressionMethod = .null)
    (h2 : (readMessage m).run s1 = (x, s')) (hne : ∀ d, x ≠ .ok (.HandshakeMessage (.certificate d))) :
    ∃ c', (readFlight m).run c = (refused x, c') := by
  refine ⟨{ c with reader := s' }, ?_⟩
  rw [readFlight, St.bind_of_ok (onReader_ok (expectServerHello_iff.mpr h1)), checkServerHello_eq, if_pos hc, St.bind_of_ok (St.lift_run _ _),
    bind_refused (onReader_ok (c := { c with reader := s1 }) (expectCertificate_other h2 hne))]

theorem flight_not_keyExchange (h1 : (readMessage m).run c.reader = (.ok (.HandshakeMessage (.server_hello sh)), s1))
    (hc : sh.serverVersion = ⟨3, 3⟩ ∧ sh.cipherSuite = .TLS_ECDHE_RSA_WITH_CHACHA20_POLY1305_SHA256 ∧ sh.compressionMethod = .null)
    (h2 : (readMessage m).run s1 = (.ok (.HandshakeMessage (.certificate certs)), s2)) (h3 : (readMessage m).run s2 = (x, s'))
    (hne : ∀ d, x ≠ .ok (.HandshakeMessage (.server_key_exchange d))) : ∃ c', (readFlight m).run c = (refused x, c') := by
  refine ⟨{ c with reader := s' }, ?_⟩
  rw [readFlight, St.bind_of_ok (onReader_ok (expectServerHello_iff.mpr h1)), checkServerHello_eq, if_pos hc, St.bind_of_ok (St.lift_run _ _),
    St.bind_of_ok (onReader_ok (c := { c with reader := s1 }) (expectCertificate_iff.mpr h2)),
    bind_refused (onReader_ok (c := { c with reader := s2 }) (expectServerKeyExchange_other h3 hne))]

theorem flight_not_done (h1 : (readMessage m).run c.reader = (.ok (.HandshakeMessage (.server_hello sh)), s1))
    (hc : sh.serverVersion = ⟨3, 3⟩ ∧ sh.cipherSuite = .TLS_ECDHE_RSA_WITH_CHACHA20_POLY1305_SHA256 ∧ sh.compressionMethod = .null)
    (h2 : (readMessage m).run s1 = (.ok (.HandshakeMessage (.certificate certs)), s2))
    (h3 : (readMessage m).run s2 = (.ok (.HandshakeMessage (.server_key_exchange ske)), s3)) (hk : (Ecdhe.computeKeys m ske.data).run c.rng = (.ok keys, rng'))
    (h4 : (readMessage m).run s3 = (x, s')) (hne : ∀ d, x ≠ .ok (.HandshakeMessage (.server_hello_done d))) :
    ∃ c', (readFlight m).run c = (refused x, c') := by
  refine ⟨{ c with reader := s', rng := rng' }, ?_⟩
  rw [readFlight, St.bind_of_ok (onReader_ok (expectServerHello_iff.mpr h1)), checkServerHello_eq, if_pos hc, St.bind_of_ok (St.lift_run _ _),
    St.bind_of_ok (onReader_ok (c := { c with reader := s1 }) (expectCertificate_iff.mpr h2)),
    St.bind_of_ok (onReader_ok (c := { c with reader := s2 }) (expectServerKeyExchange_iff.mpr h3)),
    St.bind_of_ok (onRng_ok (c := { c with reader := s3 }) hk)]
  obtain ⟨a, b⟩ := keys
  dsimp only
  rw [bind_refused (onReader_ok (c := { c with reader := s3, rng := rng' }) (expectServerHelloDone_other h4 hne))]

end

/-- The flight was read and the client's second flight sent: what is left is `readFinished`, on a reader with the bytes `bs` and then `l` before it. -/
theorem handshake_upto_finished (m : Mode) (rd : Reader) (wr : Writer) (rng : Rng) (hfa : wr.faults = [])
    (cr rest : Bytes) (hrng : rng.bytes = cr ++ rest) (hcr : cr.length = 32) (f : ServerFlight) (pub : Bytes) (hfit : FlightFit f pub) (rng' : Rng)
    (hver : f.hello.serverVersion = ⟨3, 3⟩) (hcomp : f.hello.compressionMethod = .null)
    (hkeys : (Ecdhe.computeKeys m f.ske.data).run ⟨rest⟩ = (.ok (f.keyData, f.preMasterSecret), rng'))
    (b1 b2 b3 bs : Bytes) (hb1 : Framed b1 (.server_hello f.hello)) (hb2 : Framed b2 (.certificate f.certs)) (hb3 : Framed b3 (.server_key_exchange f.ske)) (l : List Sym)
    (hp : ClearPending (TlsReader.new rd) (b1 ++ (b2 ++ (b3 ++ (handshakeBytes 14 [] ++ bs)))) l) :
    ∃ s w', (handshake m).run (fresh rd wr rng) =
        (readFinished m (f.master cr) (f.keys cr).serverKey (f.messages cr pub) (.finished ⟨f.clientVerify cr pub⟩)).run
          { fresh rd wr rng with writer := w', rng := rng', reader := s } ∧
      ClearPending s bs l ∧ s.iv = some (f.keys cr).serverIv ∧ w'.writer.wire = wr.wire ++ (clientFlight cr pub (f.keys cr) (f.clientVerify cr pub)).flatten ∧
      w'.encryptor = some (.chacha m (f.keys cr).clientKey) ∧ w'.iv = some (f.keys cr).clientIv ∧ w'.writeCount = 1 ∧ w'.writer.faults = [] := by
  obtain ⟨s1, r1, p1, v1⟩ := hp.take m hb1
  obtain ⟨s2, r2, p2, v2⟩ := p1.take m hb2
  obtain ⟨s3, r3, p3, v3⟩ := p2.take m hb3
  obtain ⟨s4, r4, p4, v4⟩ := p3.take m framed_serverHelloDone
  obtain ⟨wh, hsh, hwr⟩ := after_hello m rd wr rng hfa hrng hcr
  have hR : FlightRead m { fresh rd wr rng with rng := ⟨rest⟩, writer := wh } f s1 s2 s3 s4 rng' := ⟨r1, ⟨hver, hfit.suite, hcomp⟩, r2, r3, hkeys, r4⟩
  have hfr := fresh_fresh rd wr rng
  rcases sendFinished_cases m cr f pub hcr hfit { fresh rd wr rng with rng := rng', writer := wh, reader := s4 } (hwr.encryptor.trans hfr.encryptor) (hwr.iv.trans hfr.writerIv)
      (hR.same.2.trans hfr.readerIv) (by show wh.writeCount.toNat ≤ 1; rw [hwr.count, hfr.count]; decide) with ⟨w', g1, g2, g3, g4, g5, g6⟩ | ⟨c', n, g1, g2, _⟩
  rotate_left
  · exact absurd (hwr.faults hfa) g2
  refine ⟨{ s4 with iv := some (f.keys cr).serverIv }, w', ?_, p4.setIv _, rfl, ?_, g3, g4, g5, g6 (hwr.faults hfa)⟩
  · rw [handshake, St.bind_of_ok hsh]
    dsimp only
    rw [St.bind_of_ok (readFlight_ok hR)]
    rw [St.bind_of_ok g1]
  · rw [g2, clientFlight, List.flatten_cons, ← List.append_assoc]
    congr 1
    exact hwr.wire

/-- The records that come after the ChangeCipherSpec, protected with the server's key. -/
theorem keyed_incoming (m : Mode) (s : TlsReader) {key iv : Bytes} (hk : key.length = 32) (hl : iv.length = 12) (hiv : s.iv = some iv) (ty : ContentType) {fs : List Bytes}
    (hf : ∀ f ∈ fs, f.length ≤ 2 ^ 14) (hn : fs.length < 2 ^ 64) (l : List Sym) (hs : s.reader.stream = ofBytes (protectedRecords key iv ty.toU8 0 fs) ++ l) :
    ∃ w sent w', Incoming w sent w' l (keyed m s key) ∧ sent.map (·.1) = TlsWriter.recordsOf ty fs := by
  obtain ⟨wK, hwK⟩ : ∃ wK : TlsWriter, wK = { writer := {}, encryptor := some (.chacha m key), iv := some iv } := ⟨_, rfl⟩
  have hKs : Synced wK (keyed m s key) := by
    rw [hwK]
    exact ⟨rfl, hiv, Or.inr ⟨_, _, rfl, rfl, matching_chacha m m _ hk⟩⟩
  obtain ⟨wE, sentB, hB, hBm, hBf, hBe, hBi, hBc, hBl⟩ := fragments_sent hf ty wK hKs.sealsShort (by rw [hwK]) (by rw [hwK]; show 0 + _ < _; omega)
  have hBwire := sent_protected (m := m) hk hl hB (by rw [hwK]) (by rw [hwK]) hf hBm (by rw [hwK]; show 0 + _ < _; omega)
  refine ⟨wK, sentB, wE, ⟨hB, hKs, ?_, ?_, ?_⟩, hBm⟩
  · intro rc hrc
    have : rc.1 ∈ TlsWriter.recordsOf ty fs := by rw [← hBm]; exact List.mem_map.mpr ⟨rc, hrc, rfl⟩
    obtain ⟨f, h1, h2⟩ := List.mem_map.mp this
    rw [← h2]; exact hf f h1
  · rw [hBl, hwK]; show 0 + _ < _; omega
  · show s.reader.stream = _
    rw [hs, hBwire, hwK]
    rfl

/-- The same up to the server's Finished, which is read under the server's key. -/
theorem readFinished_keyed (m : Mode) (master readKey msgs : Bytes) (finished : Handshake) (c : TlsClient) (s1 : TlsReader) (hd : s1.decryptor = none)
    (h1 : (readMessage m).run c.reader = (.ok .ChangeCipherSpecMessage, s1)) :
    (readFinished m master readKey msgs finished).run c =
      (onReader (expectFinished m) >>= fun v => St.lift (checkFinished m master msgs finished v)).run { c with reader := keyed m s1 readKey } := by
  have hset : (TlsReader.setDecryptor (.chacha m readKey)).run s1 = (.ok (), keyed m s1 readKey) := by
    simp only [TlsReader.setDecryptor, hd, keyed]
  rw [readFinished, St.bind_of_ok (onReader_ok (readChangeCipherSpec_ok h1)), St.bind_of_ok (onReader_ok (c := { c with reader := s1 }) hset)]

end TlsClient
end Husk
