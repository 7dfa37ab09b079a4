import Verif.Props.HandshakeGaps
import Verif.Props.Transcript
import Verif.Props.SessionData
/-! C102: the streams of a server against which `TlsClient::new` succeeds, exactly. -/

namespace Husk

open Item Spec TlsReader TlsClient

/-! ### Specification -/

/-- The stream `stream` begins with what a server has to send, when the random bytes of the client are those of `rng`; `l` is what follows, and `rng'` what is left of
the random bytes. Here `S` are the values of the session; `clear` are the records in clear (two bytes of version and the fragment), `prot` those that come protected,
as `protWire`; `a` and `b` are the version of the ChangeCipherSpec record; `pre` are the handshake bytes in clear after ServerHelloDone, and `post` those after
Finished. -/
structure Acceptable (m : Mode) (stream : List Sym) (rng rng' : Rng) (S : Session) (clear prot : List (UInt8 × UInt8 × Bytes)) (a b : UInt8) (protWire pre post : Bytes)
    (l : List Sym) : Prop where
  /-- Handshake records, a ChangeCipherSpec record, protected handshake records. -/
  stream : stream = ofBytes (clear.flatMap (fun r => recordBytes 22 r.1 r.2.1 r.2.2) ++ (recordBytes 20 a b [1] ++ protWire)) ++ l
  opened : ProtectedStream S.keys.serverKey S.keys.serverIv 22 0 prot protWire
  /-- They carry ServerHello, Certificate, ServerKeyExchange, ServerHelloDone and Finished. -/
  messages : clear.flatMap (fun r => r.2.2) = S.flight ++ pre
  finished : pre ++ prot.flatMap (fun r => r.2.2) = finishedBytes S.serverVerify ++ post
  short : pre.length < 16
  last : ∃ rs r, prot = rs ++ [r] ∧ (pre ++ rs.flatMap (fun r => r.2.2)).length < 16
  /-- The records: not empty, not too long, and in a debug build not too many. -/
  filled : ∀ r ∈ clear ++ prot, r.2.2 ≠ [] ∧ r.2.2.length ≤ 2 ^ 14
  numbers : m = .debug → clear.length + 1 < 2 ^ 64 ∧ prot.length < 2 ^ 64
  /-- The client's random and what is computed from the server's key exchange (see C53). -/
  random : ∃ rest, rng.bytes = S.random ++ rest ∧ (Ecdhe.computeKeys m S.keyExchange).run ⟨rest⟩ = (.ok (65 :: S.point, S.pms), rng')
  /-- The messages: lengths of their fields and of their bodies. -/
  lengths : S.random.length = 32 ∧ S.serverRandom.length = 32 ∧ S.sessionId.length ≤ 32
  sizes : (serverHelloBytes S.serverRandom S.sessionId (S.ext ++ S.junk)).length < 2 ^ 24 + 4 ∧ (certificateBytes S.certs).length < 2 ^ 24 + 4 ∧ S.keyExchange.length < 2 ^ 24
  extensions : ∃ x : Option ExtensionVec, Wire.ExtensionsInBounds x ∧ (∀ e ∈ (x.map TlsVec.items).getD [], NotShadowed e) ∧ S.ext = Wire.extensions x
  junk : S.ext = [] → S.junk = []
  certificates : ∀ c ∈ S.certs, 1 ≤ c.length

/-! ### Records -/

/-- Handshake records out of their parts. -/
def recordsFrom (rs : List (UInt8 × UInt8 × Bytes)) : List Record := rs.map fun r => ⟨.HandshakeTy, r.1, r.2.1, r.2.2⟩

theorem recordsFrom_frags (rs : List (UInt8 × UInt8 × Bytes)) : frags (recordsFrom rs) = rs.flatMap fun r => r.2.2 := by
  rw [frags, recordsFrom, List.flatMap_map]

theorem recordsFrom_filled {rs : List (UInt8 × UInt8 × Bytes)} (h : ∀ r ∈ rs, r.2.2 ≠ []) : Filled (recordsFrom rs) := by
  intro r hr
  obtain ⟨x, hx, rfl⟩ := List.mem_map.mp hr
  exact ⟨rfl, h x hx⟩

/-- In clear, what is not too long is a record. -/
theorem unprotect_clear {s : TlsReader} (hd : s.decryptor = none) (ty : ContentType) (a b : UInt8) {f : Bytes} (hf : f.length ≤ 2 ^ 14) :
    s.unprotect ty a b f = .ok ⟨ty, a, b, f⟩ := by
  have h : ¬ f.length > RECORD_MAX_LEN := by simpa [RECORD_MAX_LEN] using hf
  simp only [unprotect, hd, if_neg h, Record.new]

theorem took_clear (l : List Sym) (rs : List (UInt8 × UInt8 × Bytes)) : ∀ {s : TlsReader}, s.decryptor = none → (∀ r ∈ rs, r.2.2.length ≤ 2 ^ 14) →
    s.reader.stream = ofBytes (rs.flatMap fun r => recordBytes 22 r.1 r.2.1 r.2.2) ++ l → ∃ s', Took s (recordsFrom rs) s' ∧ s'.reader.stream = l := by
  induction rs with
  | nil => intro s _ _ hs; exact ⟨s, .nil rfl rfl rfl rfl, hs⟩
  | cons r rs ih =>
    intro s hd hf hs
    have hr := hf r (by simp)
    have hE : ENC_RECORD_MAX_LEN = 18432 := rfl
    rw [List.flatMap_cons, ofBytes_append, List.append_assoc] at hs
    obtain ⟨r', h1, -⟩ := readRecord_front (m := .release) (ty := .HandshakeTy) (f := r.2.2) (by omega) hs
    obtain ⟨s', h2, h3⟩ := ih (s := { s with reader := r', readCount := s.readCount + 1 }) hd (fun x hx => hf x (List.mem_cons_of_mem _ hx)) h1
    refine ⟨s', .cons (ty := .HandshakeTy) (f := r.2.2) (s1 := { s with reader := r', readCount := s.readCount + 1 }) (by omega) ?_ (unprotect_clear hd _ _ _ hr) rfl rfl rfl h2, h3⟩
    show s.reader.stream = _ ++ r'.stream
    rw [h1]; exact hs

theorem openMsg_length {key nonce aad ct p : Bytes} (h : Spec.Aead.openMsg key nonce aad ct = some p) : ct.length = p.length + 16 := by
  unfold Spec.Aead.openMsg at h
  split at h
  · cases h
  · rename_i hl
    simp only at h
    split at h
    · have := congrArg List.length (Option.some.inj h)
      simp [Spec.ChaCha20.encrypt] at this
      omega
    · cases h

/-- A record that opens is accepted. -/
theorem unprotect_opened {s : TlsReader} {m : Mode} {key iv : Bytes} (ty : ContentType) (a b : UInt8) {ct p : Bytes} (hd : s.decryptor = some (.chacha m key)) (hk : key.length = 32)
    (hi : s.iv = some iv) (hl : iv.length = 12) (hp : p.length ≤ 2 ^ 14)
    (h : Spec.Aead.openMsg key (recordNonce iv s.readCount.toNat) (recordAad s.readCount.toNat ty.toU8 a b p.length) ct = some p) :
    s.unprotect ty a b ct = .ok ⟨ty, a, b, p⟩ := by
  have hlen := openMsg_length h
  have hmac : (Decryptor.chacha m key).macLen = 16 := rfl
  have hnl : s.nonce.length = 12 := by rw [TlsReader.nonce_eq, nonceFor_length]
  have hn : s.nonce = recordNonce iv s.readCount.toNat := by rw [TlsReader.nonce_eq, hi, nonceFor, xorIv_spec _ _ hl]
  have he : ct.length - 16 = p.length := by omega
  have hdec : (Decryptor.chacha m key).decrypt s.nonce ct (s.ad ty a b (ct.length - 16)) = .ok p := by
    show Aead.decrypt m key s.nonce ct (s.ad ty a b (ct.length - 16)) = .ok p
    rw [C39_decrypt_is_rfc8439 m key _ _ _ hk hnl (by omega), hn, TlsReader.ad_eq, he, h]
  have h1 : ¬ ct.length < 16 := by omega
  have h2 : ¬ p.length > RECORD_MAX_LEN := by simpa [RECORD_MAX_LEN] using hp
  simp only [unprotect, hd, hmac, if_neg h1, hdec, Res.bind_ok, if_neg h2, Record.new]

theorem took_protected {m : Mode} {key iv : Bytes} (hk : key.length = 32) (hl : iv.length = 12) (l : List Sym) {k : Nat} {rs : List (UInt8 × UInt8 × Bytes)} {w : Bytes}
    (h : ProtectedStream key iv 22 k rs w) : ∀ {s : TlsReader}, s.decryptor = some (.chacha m key) → s.iv = some iv → s.readCount.toNat = k % 2 ^ 64 →
    (∀ r ∈ rs, r.2.2.length ≤ 2 ^ 14) → s.reader.stream = ofBytes w ++ l → ∃ s', Took s (recordsFrom rs) s' ∧ s'.reader.stream = l := by
  induction h with
  | nil => intro s _ _ _ _ hs; exact ⟨s, .nil rfl rfl rfl rfl, hs⟩
  | @cons k a b f ct rs w hct ho _ ih =>
    intro s hd hi hc hf hs
    rw [ofBytes_append, List.append_assoc] at hs
    obtain ⟨r', h1, -⟩ := readRecord_front (m := .release) (ty := .HandshakeTy) (f := ct) hct hs
    obtain ⟨s', h2, h3⟩ := ih (s := { s with reader := r', readCount := s.readCount + 1 }) hd hi
      (by
        have one : (1 : UInt64).toNat = 1 := rfl
        show (s.readCount + 1).toNat = _
        rw [UInt64.toNat_add, hc, one]; omega)
      (fun x hx => hf x (List.mem_cons_of_mem _ hx)) h1
    refine ⟨s', .cons (ty := .HandshakeTy) (f := ct) (s1 := { s with reader := r', readCount := s.readCount + 1 }) hct ?_ (unprotect_opened .HandshakeTy a b hd hk hi hl (hf (a, b, f) (by simp)) (by rw [hc]; exact ho)) rfl rfl rfl h2, h3⟩
    show s.reader.stream = _ ++ r'.stream
    rw [h1]; exact hs

/-- The IV does not matter to records in clear. -/
theorem took_setIv {s s' : TlsReader} {recs : List Record} (h : Took s recs s') (hd : s.decryptor = none) (iv : Option Bytes) :
    Took { s with iv := iv } recs { s' with iv := iv } := by
  induction h with
  | nil a b c _ => exact .nil a b c rfl
  | @cons s s1 s' ty a b f rec recs hl hs hu d1 d2 d3 _ ih =>
    refine .cons hl (s1 := { s1 with iv := iv }) hs ?_ d1 d2 rfl (ih (d1.trans hd))
    simp only [unprotect, hd] at hu ⊢
    exact hu

/-! ### Messages -/

theorem framed_hello {random sessionId ext junk : Bytes} {x : Option ExtensionVec} (hr : random.length = 32) (hs : sessionId.length ≤ 32) (hx : wf x) (he : extBytes x = ext)
    (hj : ext = [] → junk = []) (hl : (serverHelloBytes random sessionId (ext ++ junk)).length < 2 ^ 24 + 4) :
    ∃ sh : ServerHello, wf sh ∧ sh.serverVersion = ⟨3, 3⟩ ∧ sh.cipherSuite = suite ∧ sh.compressionMethod = .null ∧ sh.random.data = random ∧
      Framed (serverHelloBytes random sessionId (ext ++ junk)) (.server_hello sh) ∧ TlsItem.write (Handshake.server_hello sh) = .ok (serverHelloBytes random sessionId ext) := by
  obtain ⟨sh, hsh⟩ : ∃ sh : ServerHello, sh = ⟨⟨3, 3⟩, ⟨random⟩, ⟨sessionId⟩, suite, .null, x⟩ := ⟨_, rfl⟩
  have hwf : wf sh := by
    rw [hsh]
    exact ⟨hr, (wf_byteVec _).mpr ⟨Nat.zero_le _, hs⟩, hx⟩
  have hw := write_serverHello hwf (by rw [hsh]) (by rw [hsh]) (by rw [hsh])
  rw [hsh] at hw
  simp only [he] at hw
  rw [← hsh] at hw
  refine ⟨sh, hwf, by rw [hsh], by rw [hsh], by rw [hsh], by rw [hsh], ?_, hw⟩
  by_cases hn : junk = []
  · subst hn
    rw [List.append_nil] at hl ⊢
    refine Framed.of_write hwf hw ?_
    simp only [serverHelloBytes, handshakeBytes, List.length_cons, List.length_append, beBytes_length] at hl ⊢
    omega
  · have hxs : sh.extensions ≠ none := by
      intro h0
      refine hn (hj ?_)
      rw [hsh] at h0
      have h0 : x = none := h0
      rw [← he, h0]
      rfl
    obtain ⟨body, hb, hwb⟩ := Res.bind_eq_ok.mp (show (TlsItem.write sh >>= fun body => pure (writeNum 1 2 ++ writeNum 3 (TlsItem.size sh) ++ body)) = Res.ok _ from hw)
    have hbody : body = [3, 3] ++ random ++ (UInt8.ofNat sessionId.length :: sessionId) ++ [0xcc, 0xa8] ++ [0] ++ ext := by
      have := Res.ok.inj hwb
      rw [serverHelloBytes, handshakeBytes, ← List.singleton_append, ← List.append_assoc] at this
      exact (List.append_inj this (by simp [writeNum_eq])).2
    have hread := read_serverHello_junk (junk := junk) hwf hxs hb
    rw [hbody, List.append_assoc] at hread
    refine ⟨2, _, ?_, rfl, ?_⟩
    · simp only [serverHelloBytes, handshakeBytes, List.length_cons, List.length_append, beBytes_length] at hl ⊢
      omega
    · refine Handshake.read_of_arm (h := .server_hello sh) (n := ([3, 3] ++ random ++ (UInt8.ofNat sessionId.length :: sessionId) ++ [0xcc, 0xa8] ++ [0] ++ (ext ++ junk)).length) ?_
      show (Handshake.readBody ServerHello .server_hello).run _ = _
      rw [Handshake.readBody, St.bind_of_ok hread]
      rfl

theorem framed_certificate {certs : List Bytes} (hc : ∀ c ∈ certs, 1 ≤ c.length) (hl : (certificateBytes certs).length < 2 ^ 24 + 4) :
    ∃ l : CertificateList, Framed (certificateBytes certs) (.certificate l) ∧ TlsItem.write (Handshake.certificate l) = .ok (certificateBytes certs) := by
  obtain ⟨l, hll⟩ : ∃ l : CertificateList, l = ⟨certs.map fun c => ⟨c⟩⟩ := ⟨_, rfl⟩
  have hitems : l.items.map TlsVec.items = certs := by
    rw [hll, List.map_map]
    exact List.map_id _
  have hwl := write_certificate l
  rw [hitems] at hwl
  have hcl : (certs.flatMap fun c => beBytes 3 c.length ++ c).length + 3 < 2 ^ 24 := by
    simp only [certificateBytes, handshakeBytes, List.length_cons, List.length_append, beBytes_length] at hl
    omega
  have hwfl : wf l := by
    refine ⟨?_, Nat.zero_le _, ?_⟩
    · intro c hc'
      rw [hll] at hc'
      obtain ⟨c', h1, rfl⟩ := List.mem_map.mp hc'
      refine (wf_byteVec _).mpr ⟨hc c' h1, ?_⟩
      show c'.length ≤ 16777215
      have : c'.length ≤ (certs.flatMap fun c => beBytes 3 c.length ++ c).length := by
        rw [List.length_flatMap]
        have := List.le_sum_of_mem (List.mem_map.mpr ⟨c', h1, rfl⟩ : (beBytes 3 c'.length ++ c').length ∈ certs.map fun c => (beBytes 3 c.length ++ c).length)
        rw [List.length_append] at this
        omega
      omega
    · show TlsVec.sizes l.items ≤ 16777215
      rw [sizes_certificates, hitems]
      exact Nat.le_of_lt_succ (lt_of_le_of_lt (Nat.le_add_right _ 3) hcl)
  refine ⟨l, Framed.of_write hwfl hwl ?_, hwl⟩
  rw [List.length_append, beBytes_length]
  omega

/-! ### The theorem -/

/-- C102: against such a stream `new` succeeds, and what follows is left: the rest of the stream, the bytes after Finished in the buffer, the rest of the random bytes. -/
theorem C102_accepts (m : Mode) (rd : Reader) (wr : Writer) (rng rng' : Rng) (hfa : wr.faults = []) {S : Session} {clear prot : List (UInt8 × UInt8 × Bytes)} {a b : UInt8}
    {protWire pre post : Bytes} {l : List Sym} (h : Acceptable m rd.stream rng rng' S clear prot a b protWire pre post l) :
    ∃ c, TlsClient.new m rd wr rng = (.ok (), c) ∧ c.reader.reader.stream = l ∧ c.reader.handshakeBuffer.buf = post ∧ c.rng = rng' := by
  obtain ⟨L1, L2, L3⟩ := h.lengths
  obtain ⟨Z1, Z2, Z3⟩ := h.sizes
  obtain ⟨x, X1, X2, X3⟩ := h.extensions
  have hwx : wf x := Codec.wf_opt ((WireLemmas.built_exts_iff x).mpr X1) X2
  have hex : extBytes x = S.ext := by
    have := (WireLemmas.enc_extensions x).1
    rw [extBytes_eq] at this
    rw [X3]; exact Res.ok.inj this
  obtain ⟨sh, -, v1, v2, v3, v4, F1, W1⟩ := framed_hello L2 L3 hwx hex h.junk Z1
  obtain ⟨cl, F2, W2⟩ := framed_certificate h.certificates Z2
  have W3 := write_obscure S.keyExchange
  have F3 : Framed (handshakeBytes 12 S.keyExchange) (.server_key_exchange ⟨S.keyExchange⟩) := Framed.of_write trivial W3 Z3
  obtain ⟨rest, R1, R2⟩ := h.random
  obtain ⟨⟨PX, PY, hP, -, -⟩, hpms⟩ := C53_shape m _ _ _ _ _ R2
  have hpt : S.point.length = 65 := by
    have := (List.cons.inj hP).2
    rw [this]; simp
  obtain ⟨f, hf⟩ : ∃ f : ServerFlight, f = ⟨sh, cl, ⟨S.keyExchange⟩, 65 :: S.point, S.pms⟩ := ⟨_, rfl⟩
  have hsrv : serverMessages f = S.server := by
    rw [serverMessages, hf, bytesOf_eq W1, bytesOf_eq W2, bytesOf_eq W3]; rfl
  have hfit : FlightFit f S.point := by
    refine ⟨by rw [hf]; exact v2, by rw [hf]; show sh.random.data.length = 32; rw [v4]; exact L2, by rw [hf], hpt, by rw [hf]; show S.pms.length ≤ 64; omega, ?_⟩
    rw [hsrv, Session.server]
    simp only [serverHelloBytes, handshakeBytes, List.length_cons, List.length_append, beBytes_length, List.length_nil] at Z1 ⊢
    omega
  have hmaster : f.master S.random = S.master := by
    rw [hf, ServerFlight.master, Session.master]
    show tlsMaster S.pms S.random sh.random.data = _
    rw [v4]
  have hkeys : f.keys S.random = S.keys := by
    rw [ServerFlight.keys, hmaster, Session.keys, hf]
    show keysOf S.master S.random sh.random.data = _
    rw [v4]
  have hmsgs : f.messages S.random S.point = S.messages := by rw [ServerFlight.messages, hsrv]; rfl
  have hcv : f.clientVerify S.random S.point = S.clientVerify := by rw [ServerFlight.clientVerify, hmsgs, hmaster]; rfl
  have hsv : f.serverVerify S.random S.point = S.serverVerify := by rw [ServerFlight.serverVerify, hmsgs, hmaster, hcv]; rfl
  have hvd : S.serverVerify.length = 12 := by rw [← hsv]; exact hfit.serverVerify_length L1
  obtain ⟨k1, k2, k3, k4⟩ := hfit.keys_length L1
  rw [hkeys] at k1 k2 k3 k4
  -- the records in clear
  have hfc : Filled (recordsFrom clear) := recordsFrom_filled fun r hr => (h.filled r (List.mem_append_left _ hr)).1
  have hlen : (recordsFrom clear).length = clear.length := List.length_map _
  obtain ⟨sM, T0, hsM⟩ := took_clear (ofBytes (recordBytes 20 a b [1] ++ protWire) ++ l) clear (s := (fresh rd wr rng).reader) rfl
    (fun r hr => (h.filled r (List.mem_append_left _ hr)).2) (by
      show rd.stream = _
      rw [h.stream, ofBytes_append, List.append_assoc])
  have n0 : m = .debug → (fresh rd wr rng).reader.readCount.toNat + (recordsFrom clear).length < 2 ^ 64 := by
    intro hm
    have := (h.numbers hm).1
    rw [hlen]
    show 0 + _ < _
    omega
  obtain ⟨recs1, s1, r1, t1, n1, x1, y1, z1⟩ := T0.readFramed m n0 hfc F1 (bs := certificateBytes S.certs ++ (handshakeBytes 12 S.keyExchange ++ (handshakeBytes 14 [] ++ pre))) (by
    rw [recordsFrom_frags, h.messages, Session.flight]
    show [] ++ _ = _
    simp only [List.nil_append, List.append_assoc])
  obtain ⟨recs2, s2, r2, t2, n2, x2, y2, z2⟩ := t1.readFramed m n1 (fun r hr => hfc r (x1.mem hr)) F2 y1
  obtain ⟨recs3, s3, r3, t3, n3, x3, y3, z3⟩ := t2.readFramed m n2 (fun r hr => hfc r (x1.mem (x2.mem hr))) F3 y2
  obtain ⟨recs4, s4, r4, t4, n4, x4, y4, z4⟩ := t3.readFramed m n3 (fun r hr => hfc r (x1.mem (x2.mem (x3.mem hr)))) framed_serverHelloDone y3
  have hf4 : Filled recs4 := fun r hr => hfc r (x1.mem (x2.mem (x3.mem (x4.mem hr))))
  have hs4d : s4.decryptor = none := z4.trans (z3.trans (z2.trans z1))
  -- the client's side
  have hsend : ∃ w', (sendHello m).run (fresh rd wr rng) = (.ok (S.random, helloMessage S.random), { fresh rd wr rng with rng := ⟨rest⟩, writer := w' }) ∧
      (fresh rd wr rng).writer.Wrote ⟨.HandshakeTy, 3, 3, clientHelloBytes S.random⟩ (clientHelloBytes S.random) w' := by
    rcases sendHello_cases m (fresh rd wr rng) rfl rfl with ⟨_, h2⟩ | ⟨cr', rest', hr, hl, ⟨w1, h1, h2⟩ | ⟨w1, n, h1, h2, _⟩⟩
    · have h2 : rng.bytes.length < 32 := h2
      rw [R1, List.length_append, L1] at h2; omega
    · have hr : rng.bytes = _ := hr
      rw [R1] at hr
      obtain ⟨rfl, rfl⟩ := List.append_inj hr (L1.trans hl.symm)
      exact ⟨w1, h1, h2⟩
    · exact absurd hfa h2
  obtain ⟨wh, hsh, hwr⟩ := hsend
  have hR : FlightRead m { fresh rd wr rng with rng := ⟨rest⟩, writer := wh } f s1 s2 s3 s4 rng' := by
    rw [hf]
    exact ⟨r1, ⟨v1, v2, v3⟩, r2, r3, R2, r4⟩
  rcases sendFinished_cases m S.random f S.point L1 hfit { fresh rd wr rng with rng := rng', writer := wh, reader := s4 } hwr.encryptor hwr.iv
      hR.same.2 (by show wh.writeCount.toNat ≤ 1; rw [hwr.count]; show (1 : UInt64).toNat ≤ 1; decide) with ⟨w', g1, g2, g3, g4, g5, g6⟩ | ⟨c', n, g1, g2, _⟩
  rotate_left
  · exact absurd (hwr.faults hfa) g2
  -- ChangeCipherSpec
  have hpart : ∀ x t, x ++ t = pre → HandshakeBuffer.getMessage.run ⟨x⟩ = (.ok none, ⟨x⟩) := by
    intro x t hx
    have hfl := (finished_eq _ hvd).2.2
    have hlx : x.length ≤ pre.length := by rw [← hx]; simp
    have hsh := h.short
    have hpre : finishedBytes S.serverVerify = x ++ (finishedBytes S.serverVerify).drop x.length := by
      have hh := congrArg (List.take x.length) h.finished
      rw [List.take_append_of_le_length hlx, List.take_append_of_le_length (by omega), ← hx, List.take_left] at hh
      conv => lhs; rw [← List.take_append_drop x.length (finishedBytes S.serverVerify)]
      rw [← hh]
    refine (framed_finished _ hvd).part hpre.symm ?_
    intro h0
    have := congrArg List.length h0
    rw [List.length_drop, List.length_nil] at this
    omega
  obtain ⟨rC, hrC, -⟩ := readRecord_front (m := .release) (s := sM) (ty := .ChangeCipherSpecTy) (a := a) (b := b) (f := [1]) (by decide) (by
    rw [hsM, ofBytes_append, List.append_assoc]; rfl)
  have hMd : sM.decryptor = none := (Took.same t4).1.trans hs4d
  have tC : Took sM [⟨.ChangeCipherSpecTy, a, b, [1]⟩] { sM with reader := rC, readCount := sM.readCount + 1 } := by
    refine .cons (ty := .ChangeCipherSpecTy) (f := [1]) (s1 := { sM with reader := rC, readCount := sM.readCount + 1 }) (by decide) ?_ (unprotect_clear hMd _ _ _ (by decide)) rfl rfl rfl (.nil rfl rfl rfl rfl)
    show sM.reader.stream = _ ++ rC.stream
    rw [hrC, hsM, ofBytes_append, List.append_assoc]; rfl
  have t5 := took_setIv (t4.trans tC) hs4d (some S.keys.serverIv)
  have hcount : m = .debug → s4.readCount.toNat + (recs4.length + 1) < 2 ^ 64 := by
    intro hm
    have e1 := Took.numbers T0 0 rfl
    have e2 := Took.numbers t4 s4.readCount.toNat (Nat.mod_eq_of_lt s4.readCount.toNat_lt).symm
    have e3 := (h.numbers hm).1
    have e4 := n4 hm
    rw [hlen] at e1
    omega
  obtain ⟨s5, r5, t6, y5⟩ := t5.readChange m hcount hf4 (by
    intro x t hx
    exact hpart x t (hx.trans y4))
  have y5 : s5.handshakeBuffer.buf = pre := y5.trans y4
  have hs5 : s5.reader.stream = ofBytes protWire ++ l := by
    cases t6 with
    | nil e _ _ _ => rw [← e]; exact hrC
  have hs5iv : s5.iv = some S.keys.serverIv := (readMessage_same r5).2
  -- the protected records
  have hfp : Filled (recordsFrom prot) := recordsFrom_filled fun r hr => (h.filled r (List.mem_append_right _ hr)).1
  obtain ⟨sE, T6, hsE⟩ := took_protected (m := m) k2 k4 l h.opened (s := keyed m s5 S.keys.serverKey) rfl hs5iv rfl (fun r hr => (h.filled r (List.mem_append_right _ hr)).2) hs5
  obtain ⟨recs6, s6, r6, t7, n6, ⟨done, x6⟩, y6, z6⟩ := T6.readFramed m (by
      intro hm
      have := (h.numbers hm).2
      rw [recordsFrom, List.length_map]
      show 0 + _ < _
      omega) hfp (framed_finished _ hvd) (bs := post) (by
    rw [show (keyed m s5 S.keys.serverKey).handshakeBuffer.buf = s5.handshakeBuffer.buf from rfl, y5, recordsFrom_frags]
    exact h.finished)
  -- all records are used
  have h6 : recs6 = [] := by
    by_contra hne
    obtain ⟨rs, r, hrs, hlt⟩ := h.last
    obtain ⟨t, q, htq⟩ : ∃ t q, recs6 = t ++ [q] := by
      rcases List.eq_nil_or_concat recs6 with h0 | ⟨t, q, h0⟩
      · exact absurd h0 hne
      · exact ⟨t, q, by rw [h0]; simp⟩
    have hfl := (finished_eq _ hvd).2.2
    rw [htq, hrs] at x6
    have x6' : (done ++ t) ++ [q] = recordsFrom rs ++ [⟨.HandshakeTy, r.1, r.2.1, r.2.2⟩] := by
      rw [List.append_assoc, x6, recordsFrom, List.map_append]; rfl
    obtain ⟨e1, e2⟩ := List.append_inj' x6' rfl
    have e3 : (pre ++ frags done) ++ frags recs6 = (finishedBytes S.serverVerify ++ s6.handshakeBuffer.buf) ++ frags recs6 := by
      rw [List.append_assoc, List.append_assoc, y6, ← h.finished, hrs, ← recordsFrom_frags, ← frags_append, htq, x6]
    have e4 := congrArg List.length (List.append_cancel_right e3)
    have e5 := congrArg List.length (congrArg frags e1)
    rw [frags_append, recordsFrom_frags] at e5
    simp only [List.length_append] at e4 e5 hlt
    omega
  subst h6
  have y6 : s6.handshakeBuffer.buf = post := by simpa [frags] using y6
  have hfin := readFinished_eq hfit L1 (m := m) (c := { fresh rd wr rng with writer := w', reader := { s4 with iv := some (f.keys S.random).serverIv }, rng := rng' }) (s1 := s5) (s2 := s6)
    (vd := ⟨S.serverVerify⟩) hs4d (by rw [hkeys]; exact r5) (by rw [hkeys]; exact r6)
  rw [hsv, if_pos rfl] at hfin
  refine ⟨{ fresh rd wr rng with writer := w', reader := s6, rng := rng' }, (new_of_handshake m rd wr rng (.ok ()) _ (by simp)).mpr ?_, ?_, y6, rfl⟩
  · rw [handshake, St.bind_of_ok hsh]
    dsimp only
    rw [St.bind_of_ok (readFlight_ok hR), St.bind_of_ok g1]
    exact hfin
  · show s6.reader.stream = l
    cases t7 with
    | nil e _ _ _ => rw [← e]; exact hsE

/-- C102: `new` succeeds if and only if the stream begins like this. -/
theorem C102_exact (m : Mode) (rd : Reader) (wr : Writer) (rng : Rng) (hfa : wr.faults = []) :
    (TlsClient.new m rd wr rng).1 = .ok () ↔
      ∃ S clear prot a b protWire pre post l rng', Acceptable m rd.stream rng rng' S clear prot a b protWire pre post l := by
  constructor
  · intro h
    rcases hc : TlsClient.new m rd wr rng with ⟨x, c⟩
    rw [hc] at h
    have h : x = .ok () := h
    subst h
    obtain ⟨S, clear, prot, a, b, w, pre, post, C⟩ := C27_flight_partial m rd wr rng c hc
    refine ⟨S, clear, prot, a, b, w, pre, post, c.reader.reader.stream, c.rng, C.stream, C.opened, C.messages, C.finished, C.short, C.last, ?_, C.numbers, C.random,
      ⟨C.lengths.1, C.lengths.2.1, C.lengths.2.2.1⟩, C.sizes, C.extensions, C.junk, C.certificates⟩
    intro r hr
    refine ⟨C.filled r hr, ?_⟩
    rcases List.mem_append.mp hr with h | h
    · exact C.fits r h
    · exact C.protFits r h
  · rintro ⟨S, clear, prot, a, b, w, pre, post, l, rng', h⟩
    obtain ⟨c, hc, -⟩ := C102_accepts m rd wr rng rng' hfa h
    rw [hc]

/-- C102: the version bytes of the records in clear, and the way they are cut, make no difference. -/
theorem C102_record_versions (m : Mode) (rd rd' : Reader) (wr : Writer) (rng rng' : Rng) (hfa : wr.faults = []) {S : Session} {clear clear' prot : List (UInt8 × UInt8 × Bytes)}
    {a b a' b' : UInt8} {protWire pre post : Bytes} {l : List Sym} (h : Acceptable m rd.stream rng rng' S clear prot a b protWire pre post l)
    (he : clear'.flatMap (fun r => r.2.2) = clear.flatMap (fun r => r.2.2)) (hf : ∀ r ∈ clear', r.2.2 ≠ [] ∧ r.2.2.length ≤ 2 ^ 14) (hn : clear'.length + 1 < 2 ^ 64)
    (hs : rd'.stream = ofBytes (clear'.flatMap (fun r => recordBytes 22 r.1 r.2.1 r.2.2) ++ (recordBytes 20 a' b' [1] ++ protWire)) ++ l) :
    (TlsClient.new m rd' wr rng).1 = .ok () := by
  refine (C102_exact m rd' wr rng hfa).mpr ⟨S, clear', prot, a', b', protWire, pre, post, l, rng', hs, h.opened, he.trans h.messages, h.finished, h.short, h.last, ?_,
    fun hm => ⟨hn, (h.numbers hm).2⟩, h.random, h.lengths, h.sizes, h.extensions, h.junk, h.certificates⟩
  intro r hr
  rcases List.mem_append.mp hr with h1 | h1
  · exact hf r h1
  · exact h.filled r (List.mem_append_right _ h1)

/-- There are such streams. -/
example (m : Mode) : ∃ (rd : Reader) (rng rng' : Rng) (S : Session) (clear prot : List (UInt8 × UInt8 × Bytes)) (a b : UInt8) (protWire pre post : Bytes) (l : List Sym),
    Acceptable m rd.stream rng rng' S clear prot a b protWire pre post l := by
  obtain ⟨rd, wr, rng, c, h, hfa, -⟩ := session_exists m
  obtain ⟨S, clear, prot, a, b, w, pre, post, l, rng', h⟩ := (C102_exact m rd wr rng hfa).mp (by rw [h])
  exact ⟨rd, rng, rng', S, clear, prot, a, b, w, pre, post, l, h⟩

/-- And streams that are not: an empty one. -/
example (m : Mode) (rng : Rng) : ¬ ∃ S clear prot a b protWire pre post l rng', Acceptable m [] rng rng' S clear prot a b protWire pre post l := by
  rintro ⟨S, clear, prot, a, b, w, pre, post, l, rng', h⟩
  have := congrArg List.length h.stream
  simp [recordBytes, ofBytes] at this

end Husk
