import Verif.Props.ServerFlight
/-! C28, C29, C30, C33: the handshake against a server that follows RFC 5246, whatever its values and however it cuts its records. -/

namespace Husk

open Item Spec TlsReader TlsClient

/-! ### Specification -/

/-- The values a server chooses: random, session id, extensions (none, or a block), certificates, private key, signature. -/
structure ServerValues where
  random : Bytes
  sessionId : Bytes := []
  exts : Option (List (Nat × Bytes)) := none
  certs : List Bytes := []
  secret : Nat
  signature : Bytes := []

/-- The values are in the ranges of RFC 5246, and the public key is a point. Nothing is asked of the certificates and of the signature. -/
structure ServerValues.Conforms (V : ServerValues) : Prop where
  random : V.random.length = 32
  sessionId : V.sessionId.length ≤ 32
  exts : ∀ l, V.exts = some l → (∀ e ∈ l, ServerExt e) ∧ (extensionBlock l).length < 2 ^ 16 + 2
  certs : ∀ c ∈ V.certs, 1 ≤ c.length
  certsLen : (certificateBytes V.certs).length < 2 ^ 24
  secret : V.secret • Spec.P256.G ≠ 0
  signature : V.signature.length < 2 ^ 16

noncomputable section
namespace ServerValues

/-- ServerKeyExchange without its header: secp256r1, the server's public key, rsa with sha256, the signature. -/
def keyExchange (V : ServerValues) : Bytes :=
  [3] ++ beBytes 2 23 ++ (65 :: Spec.P256.encode (V.secret • Spec.P256.G)) ++ [4, 1] ++ beBytes 2 V.signature.length ++ V.signature

/-- The session as the server computes it from the client's random and the client's point: the premaster secret is the x-coordinate of its private key times
that point. -/
def session (V : ServerValues) (random : Bytes) (P : Spec.P256.curve.Point) : Session :=
  { random, serverRandom := V.random, sessionId := V.sessionId, ext := extPart V.exts, junk := [], certs := V.certs, keyExchange := V.keyExchange,
    point := Spec.P256.encode P, pms := Spec.P256.xBytes (V.secret • P) }

end ServerValues

/-- What a server sends: the fragments `fs1` in clear, ChangeCipherSpec, the fragments `fs2` protected with the keys of the session. -/
def serverWire (S : Session) (fs1 fs2 : List Bytes) : Bytes :=
  fs1.flatMap (recordBytes 22 3 3) ++ (recordBytes 20 3 3 [1] ++ protectedRecords S.keys.serverKey S.keys.serverIv 22 0 fs2)

/-- Fragments that can be sent, and that together are `bytes`. -/
def Cuts (fs : List Bytes) (bytes : Bytes) : Prop := Fits fs ∧ fs.length < 2 ^ 63 ∧ fs.flatten = bytes

end

/-- What the client draws: 32 bytes of random, then candidates of 32 bytes until one is below p. -/
structure Draws (rng : Bytes) (random block rest : Bytes) : Prop where
  drawn : ∃ blocks : List Bytes, rng = random ++ (blocks.flatten ++ block ++ rest) ∧ ∀ b ∈ blocks, b.length = 32 ∧ P256.p ≤ leNat b
  randomLength : random.length = 32
  blockLength : block.length = 32
  below : leNat block < P256.p

/-- The client's point: the scalar `mult_scalar` uses is made of the low bytes of the first seven 32-bit words of the number drawn (C50), and the point is
that multiple of the base point. -/
noncomputable def clientPoint (block : Bytes) : Spec.P256.curve.Point := (∑ i ∈ Finset.range 7, (leNat block / 2 ^ (32 * i)) % 256 * 256 ^ i) • Spec.P256.G

/-! ### The server's messages -/

theorem ServerValues.Conforms.framed {V : ServerValues} (h : V.Conforms) : ∃ (sh : ServerHello) (l : CertificateList),
    Framed (serverHelloBytes V.random V.sessionId (extPart V.exts)) (.server_hello sh) ∧ Framed (certificateBytes V.certs) (.certificate l) ∧
    Framed (handshakeBytes 12 V.keyExchange) (.server_key_exchange ⟨V.keyExchange⟩) ∧
    TlsItem.write (Handshake.server_hello sh) = .ok (serverHelloBytes V.random V.sessionId (extPart V.exts)) ∧
    TlsItem.write (Handshake.certificate l) = .ok (certificateBytes V.certs) ∧
    sh.serverVersion = ⟨3, 3⟩ ∧ sh.cipherSuite = suite ∧ sh.compressionMethod = .null ∧ sh.random.data = V.random := by
  obtain ⟨x, hx1, hx2⟩ := extPart_exists V.exts h.exts
  have hxb : extBytes x = extPart V.exts := by rw [extBytes, hx2]
  obtain ⟨sh, hsh⟩ : ∃ sh : ServerHello, sh = ⟨⟨3, 3⟩, ⟨V.random⟩, ⟨V.sessionId⟩, suite, .null, x⟩ := ⟨_, rfl⟩
  have hwf : wf sh := by
    rw [hsh]
    exact ⟨h.random, (wf_byteVec _).mpr ⟨Nat.zero_le _, h.sessionId⟩, hx1⟩
  have hw := write_serverHello hwf (by rw [hsh]) (by rw [hsh]) (by rw [hsh])
  rw [hsh, hxb] at hw
  obtain ⟨l, hl⟩ : ∃ l : CertificateList, l = ⟨V.certs.map fun c => ⟨c⟩⟩ := ⟨_, rfl⟩
  have hitems : l.items.map TlsVec.items = V.certs := by
    rw [hl, List.map_map]
    exact List.map_id _
  have hwl := write_certificate l
  rw [hitems] at hwl
  have hcl := h.certsLen
  simp only [certificateBytes, handshakeBytes, List.length_cons, List.length_append, beBytes_length] at hcl
  have hwfl : wf l := by
    refine ⟨?_, Nat.zero_le _, ?_⟩
    · intro c hc
      rw [hl] at hc
      obtain ⟨c', h1, rfl⟩ := List.mem_map.mp hc
      refine (wf_byteVec _).mpr ⟨h.certs c' h1, ?_⟩
      show c'.length ≤ 16777215
      have : c'.length ≤ (V.certs.flatMap fun c => beBytes 3 c.length ++ c).length := by
        rw [List.length_flatMap]
        have := List.le_sum_of_mem (List.mem_map.mpr ⟨c', h1, rfl⟩ : (beBytes 3 c'.length ++ c').length ∈ V.certs.map fun c => (beBytes 3 c.length ++ c).length)
        rw [List.length_append] at this
        omega
      refine le_trans this (Nat.le_of_lt_succ (lt_of_le_of_lt ?_ h.certsLen))
      simp only [certificateBytes, handshakeBytes, List.length_cons, List.length_append, beBytes_length]
      exact le_trans (Nat.le_add_left _ 3) (le_trans (Nat.le_add_left _ 3) (Nat.le_add_right _ 1))
    · show TlsVec.sizes l.items ≤ 16777215
      rw [sizes_certificates, hitems]
      refine Nat.le_of_lt_succ (lt_of_le_of_lt ?_ h.certsLen)
      simp only [certificateBytes, handshakeBytes, List.length_cons, List.length_append, beBytes_length]
      exact le_trans (Nat.le_add_left _ 3) (le_trans (Nat.le_add_left _ 3) (Nat.le_add_right _ 1))
  refine ⟨sh, l, ?_, ?_, ?_, by rw [hsh]; exact hw, hwl, by rw [hsh], by rw [hsh], by rw [hsh], by rw [hsh]⟩
  · refine Framed.of_write hwf (by rw [hsh]; exact hw) ?_
    have hext : (extPart V.exts).length < 2 ^ 16 + 2 := by
      cases he : V.exts with
      | none => decide
      | some e => exact (h.exts e he).2
    have := h.random
    have := h.sessionId
    simp only [List.length_append, List.length_cons, List.length_nil]
    omega
  · refine Framed.of_write hwfl hwl ?_
    simp only [List.length_append, beBytes_length]
    omega
  · refine Framed.of_write trivial (write_obscure _) ?_
    have := h.signature
    simp only [ServerValues.keyExchange, List.length_append, List.length_cons, List.length_nil, beBytes_length, Ecdhe.encode_length]
    omega

theorem keyExchange_eq (pub sig : Bytes) (h : pub.length = 65) : [3] ++ beBytes 2 23 ++ (65 :: pub) ++ [4, 1] ++ beBytes 2 sig.length ++ sig =
    [3] ++ beBytes 2 (TlsEnum.code NamedCurve.secp256r1) ++ (UInt8.ofNat pub.length :: pub) ++ [4, 1] ++ beBytes 2 sig.length ++ sig := by
  rw [h]; rfl

theorem keys_of_point (m : Mode) (Q : Spec.P256.curve.Point) (hQ : Q ≠ 0) (sig : Bytes) (hs : sig.length < 2 ^ 16) (rng rng' : Rng) (x : Int256)
    (hx : (Ecdhe.getRandomX m).run rng = (.ok x, rng')) : (Ecdhe.computeKeys m ([3] ++ beBytes 2 23 ++ (65 :: Spec.P256.encode Q) ++ [4, 1] ++ beBytes 2 sig.length ++ sig)).run rng =
      (.ok (65 :: Spec.P256.encode (Point256.effective x • Spec.P256.G), Spec.P256.xBytes (Point256.effective x • Q)), rng') := by
  obtain ⟨ps, hp, hread⟩ := read_keyExchange .secp256r1 (Spec.P256.encode Q) sig (Ecdhe.encode_length _) hs
  rw [keyExchange_eq _ _ (Ecdhe.encode_length Q)]
  exact C52_keys m _ _ ps Q hQ hread hp _ _ x hx

/-- The client's keys, for the server's key exchange. -/
theorem ServerValues.Conforms.keys {V : ServerValues} (h : V.Conforms) {rng random block rest : Bytes} (D : Draws rng random block rest) (m : Mode) :
    ∃ more, rng = random ++ more ∧ (Ecdhe.computeKeys m V.keyExchange).run ⟨more⟩ =
      (.ok (65 :: Spec.P256.encode (clientPoint block), Spec.P256.xBytes (V.secret • clientPoint block)), ⟨rest⟩) := by
  obtain ⟨blocks, h1, h2⟩ := D.drawn
  obtain ⟨x, hx, hr⟩ := C55_first_below_p m blocks block rest h2 D.blockLength D.below
  refine ⟨_, h1, ?_⟩
  have hP : Point256.effective x • Spec.P256.G = clientPoint block := by rw [clientPoint, effective_sum, hx]
  have hS : Point256.effective x • V.secret • Spec.P256.G = V.secret • clientPoint block := by rw [← hP, ← mul_nsmul, ← mul_nsmul, Nat.mul_comm]
  rw [ServerValues.keyExchange, keys_of_point m _ h.secret _ h.signature _ _ x hr, hP, hS]

/-! ### The run -/

theorem TlsClient.FlightFit.serverVerify_length {f : ServerFlight} {pub cr : Bytes} (hf : FlightFit f pub) (hc : cr.length = 32) : (f.serverVerify cr pub).length = 12 := by
  obtain ⟨_, l3⟩ := hf.clientVerify hc .debug
  obtain ⟨_, e4, l4⟩ := finished_eq _ l3
  have hlen : (f.messages cr pub ++ finishedBytes (f.clientVerify cr pub)).length < 2 ^ 61 := by
    have := hf.len
    obtain ⟨_, _, l1⟩ := clientHello_eq cr hc
    obtain ⟨_, _, l6⟩ := clientKeyExchange_eq pub hf.point
    simp only [ServerFlight.messages, handshakeMessages, List.length_append, l1, l4, l6]
    omega
  obtain ⟨_, v2⟩ := verifyData_eq .debug (f.master cr) serverFinishedLabel _ (by rw [hf.master_length hc]; decide) (by decide) hlen
  rw [serverFinishedLabel_eq] at v2
  exact v2

/-- How a handshake with a server ends: the result depends on the Finished value only; the client has sent its four records and holds the keys of the
session; a peer `wEnd` that writes under the server's keys is in step with it. -/
structure Ran (m : Mode) (rd : Reader) (wr : Writer) (rng : Rng) (rest : Bytes) (S : Session) (vd : Bytes) (fs1 fs2 : List Bytes) (l : List Sym) (c : TlsClient) (wEnd : TlsWriter) : Prop where
  result : (handshake m).run (fresh rd wr rng) = (if vd = S.serverVerify then .ok () else .err .DecryptError, c)
  wire : c.writer.writer.wire = wr.wire ++ (clientFlight S.random S.point S.keys S.clientVerify).flatten
  encryptor : c.writer.encryptor = some (.chacha m S.keys.clientKey)
  writerIv : c.writer.iv = some S.keys.clientIv
  writeCount : c.writer.writeCount = 1
  faults : c.writer.writer.faults = []
  decryptor : c.reader.decryptor = some (.chacha m S.keys.serverKey)
  readerIv : c.reader.iv = some S.keys.serverIv
  readCount : c.reader.readCount = UInt64.ofNat fs2.length
  buffer : c.reader.handshakeBuffer = {}
  stream : c.reader.reader.stream = l
  buf : c.buf = []
  rng : c.rng = ⟨rest⟩
  synced : Synced wEnd c.reader
  peer : wEnd.encryptor = some (.chacha m S.keys.serverKey) ∧ wEnd.iv = some S.keys.serverIv ∧ wEnd.writeCount = UInt64.ofNat fs2.length ∧ wEnd.writer.faults = []
  lengths : S.keys.clientKey.length = 32 ∧ S.keys.serverKey.length = 32 ∧ S.keys.clientIv.length = 12 ∧ S.keys.serverIv.length = 12 ∧ S.serverVerify.length = 12

/-- The flight the client reads from the server's messages, with the values of the session. The last part says how the ServerHello is written again. -/
theorem session_flight_hello {V : ServerValues} (hV : V.Conforms) (random : Bytes) (P : Spec.P256.curve.Point) (S : Session) (hS : S = V.session random P) :
    ∃ f : ServerFlight, FlightFit f (Spec.P256.encode P) ∧ f.hello.serverVersion = ⟨3, 3⟩ ∧ f.hello.compressionMethod = .null ∧ f.ske.data = V.keyExchange ∧
      f.keyData = 65 :: Spec.P256.encode P ∧ f.preMasterSecret = Spec.P256.xBytes (V.secret • P) ∧
      Framed (serverHelloBytes V.random V.sessionId (extPart V.exts)) (.server_hello f.hello) ∧ Framed (certificateBytes V.certs) (.certificate f.certs) ∧
      Framed (handshakeBytes 12 V.keyExchange) (.server_key_exchange f.ske) ∧ f.keys random = S.keys ∧
      f.clientVerify random (Spec.P256.encode P) = S.clientVerify ∧ f.serverVerify random (Spec.P256.encode P) = S.serverVerify ∧
      TlsItem.write (Handshake.server_hello f.hello) = .ok (serverHelloBytes V.random V.sessionId (extPart V.exts)) := by
  obtain ⟨sh, cl, b1, b2, b3, w1, w2, v1, v2, v3, v4⟩ := hV.framed
  obtain ⟨f, hf⟩ : ∃ f : ServerFlight, f = ⟨sh, cl, ⟨V.keyExchange⟩, 65 :: Spec.P256.encode P, Spec.P256.xBytes (V.secret • P)⟩ := ⟨_, rfl⟩
  have f1 : f.hello = sh := by rw [hf]
  have f2 : f.certs = cl := by rw [hf]
  have f3 : f.ske = ⟨V.keyExchange⟩ := by rw [hf]
  have f4 : f.keyData = 65 :: Spec.P256.encode P := by rw [hf]
  have f5 : f.preMasterSecret = Spec.P256.xBytes (V.secret • P) := by rw [hf]
  have hsrv : serverMessages f = S.server := by
    rw [serverMessages, hf, bytesOf_eq w1, bytesOf_eq w2, bytesOf_eq (write_obscure _), hS]; rfl
  have hpms : (Spec.P256.xBytes (V.secret • P)).length = 32 := by
    cases V.secret • P <;> simp [Spec.P256.xBytes]
  have hlen : ∀ {b : Bytes} {h : Handshake}, Framed b h → b.length < 2 ^ 24 + 4 := by
    rintro b h ⟨ty, body, hb, rfl, _⟩
    simp only [handshakeBytes, List.length_cons, List.length_append, beBytes_length]
    omega
  have hfit : FlightFit f (Spec.P256.encode P) := by
    refine ⟨by rw [hf]; exact v2, by rw [hf]; show sh.random.data.length = 32; rw [v4]; exact hV.random, by rw [hf], Ecdhe.encode_length _, by rw [hf]; show _ ≤ 64; rw [hpms]; decide, ?_⟩
    have l1 := hlen b1
    have l2 := hlen b2
    have l3 := hlen b3
    rw [hsrv, hS]
    show (serverHelloBytes V.random V.sessionId (extPart V.exts) ++ (certificateBytes V.certs ++ (handshakeBytes 12 V.keyExchange ++ handshakeBytes 14 []))).length < _
    rw [List.length_append, List.length_append, List.length_append]
    have : (handshakeBytes 14 []).length = 4 := rfl
    omega
  have hmaster : f.master random = S.master := by rw [ServerFlight.master, hf]; show tlsMaster _ _ sh.random.data = _; rw [v4, hS]; rfl
  have hkeys : f.keys random = S.keys := by rw [ServerFlight.keys, hmaster, hf]; show keysOf _ _ sh.random.data = _; rw [v4, hS]; rfl
  have hmsgs : f.messages random (Spec.P256.encode P) = S.messages := by rw [ServerFlight.messages, hsrv, Session.messages, hS]; rfl
  have hcv : f.clientVerify random (Spec.P256.encode P) = S.clientVerify := by rw [ServerFlight.clientVerify, hmsgs, hmaster]; rfl
  have hsv : f.serverVerify random (Spec.P256.encode P) = S.serverVerify := by rw [ServerFlight.serverVerify, hmsgs, hmaster, hcv]; rfl
  exact ⟨f, hfit, by rw [f1]; exact v1, by rw [f1]; exact v3, by rw [f3], f4, f5, by rw [f1]; exact b1, by rw [f2]; exact b2, by rw [f3]; exact b3, hkeys, hcv, hsv, by rw [f1]; exact w1⟩

theorem session_flight {V : ServerValues} (hV : V.Conforms) (random : Bytes) (P : Spec.P256.curve.Point) (S : Session) (hS : S = V.session random P) :
    ∃ f : ServerFlight, FlightFit f (Spec.P256.encode P) ∧ f.hello.serverVersion = ⟨3, 3⟩ ∧ f.hello.compressionMethod = .null ∧ f.ske.data = V.keyExchange ∧
      f.keyData = 65 :: Spec.P256.encode P ∧ f.preMasterSecret = Spec.P256.xBytes (V.secret • P) ∧
      Framed (serverHelloBytes V.random V.sessionId (extPart V.exts)) (.server_hello f.hello) ∧ Framed (certificateBytes V.certs) (.certificate f.certs) ∧
      Framed (handshakeBytes 12 V.keyExchange) (.server_key_exchange f.ske) ∧ f.keys random = S.keys ∧
      f.clientVerify random (Spec.P256.encode P) = S.clientVerify ∧ f.serverVerify random (Spec.P256.encode P) = S.serverVerify := by
  obtain ⟨f, a1, a2, a3, a4, a5, a6, a7, a8, a9, a10, a11, a12, _⟩ := session_flight_hello hV random P S hS
  exact ⟨f, a1, a2, a3, a4, a5, a6, a7, a8, a9, a10, a11, a12⟩

/-- A run of the handshake against a server, for the point P. -/
theorem point_run (m : Mode) (rd : Reader) (wr : Writer) (rng : Rng) (hfa : wr.faults = []) (P : Spec.P256.curve.Point) {random more rest : Bytes} (hm : rng.bytes = random ++ more)
    (hrl : random.length = 32) {V : ServerValues} (hV : V.Conforms)
    (hk : (Ecdhe.computeKeys m V.keyExchange).run ⟨more⟩ = (.ok (65 :: Spec.P256.encode P, Spec.P256.xBytes (V.secret • P)), ⟨rest⟩)) (vd pre post : Bytes) (hvd : vd.length = 12) (hpp : pre ++ post = finishedBytes vd) (hpost : post ≠ [])
    (fs1 fs2 : List Bytes) (h1 : Cuts fs1 ((V.session random P).flight ++ pre)) (h2 : Cuts fs2 post) (l : List Sym)
    (hrd : rd.stream = ofBytes (serverWire (V.session random P) fs1 fs2) ++ l) :
    ∃ c' wEnd, Ran m rd wr rng rest (V.session random P) vd fs1 fs2 l c' wEnd := by
  obtain ⟨S, hS⟩ : ∃ S, S = V.session random P := ⟨_, rfl⟩
  rw [← hS] at h1 hrd ⊢
  obtain ⟨f, hfit, v1, v3, f3, f4, f5, b1, b2, b3, hkeys, hcv, hsv⟩ := session_flight hV random P S hS
  obtain ⟨k1, k2, k3, k4⟩ := hfit.keys_length hrl
  have hflight : S.flight = serverHelloBytes V.random V.sessionId (extPart V.exts) ++ (certificateBytes V.certs ++ (handshakeBytes 12 V.keyExchange ++ handshakeBytes 14 [])) := by
    rw [hS]
    show serverHelloBytes V.random V.sessionId (extPart V.exts ++ []) ++ _ = _
    rw [List.append_nil]; rfl
  have hvl : S.serverVerify.length = 12 := by
    rw [← hsv]
    exact hfit.serverVerify_length hrl
  have hk' : (Ecdhe.computeKeys m f.ske.data).run ⟨more⟩ = (.ok (f.keyData, f.preMasterSecret), ⟨rest⟩) := by
    rw [f4, f5, ← hk, f3]
  obtain ⟨c', wEnd, g⟩ := handshake_forward m (fresh rd wr rng) (fresh_fresh rd wr rng) rfl rfl hfa random more hm hrl f _ hfit ⟨rest⟩
    v1 v3 hk' _ _ _ b1 b2 b3 vd pre post hvd hpp hpost fs1 fs2 l
    (by
      rw [← hflight, hkeys]
      exact ⟨h1.1, h2.1, h1.2.1, h2.2.1, h1.2.2, h2.2.2, hrd⟩)
  rw [hkeys, hcv, hsv] at g
  rw [hkeys] at k1 k2 k3 k4
  obtain ⟨a1, a2, a3, a4, a5, a6, a7, a8, a9, a10, a11, a12, a13, a14, a15, a16, a17, a18⟩ := g
  exact ⟨c', wEnd, a1, by rw [hS] at a2 ⊢; exact a2, a3, a4, a5, a6, a7, a8, a9, a10, a11, a12, a13, a14, ⟨a15, a16, a17, a18⟩, k1, k2, k3, k4, hvl⟩

theorem serverVerify_length {rng random block rest : Bytes} (D : Draws rng random block rest) {V : ServerValues} (hV : V.Conforms) {S : Session}
    (hS : S = V.session random (clientPoint block)) : S.serverVerify.length = 12 := by
  obtain ⟨f, hfit, _, _, _, _, _, _, _, _, _, _, hsv⟩ := session_flight hV random _ S hS
  rw [← hsv]
  exact hfit.serverVerify_length D.randomLength

/-- The same for the point the client computes. -/
theorem server_run (m : Mode) (rd : Reader) (wr : Writer) (rng : Rng) (hfa : wr.faults = []) {random block rest : Bytes} (D : Draws rng.bytes random block rest)
    {V : ServerValues} (hV : V.Conforms) (vd pre post : Bytes) (hvd : vd.length = 12) (hpp : pre ++ post = finishedBytes vd) (hpost : post ≠ [])
    (fs1 fs2 : List Bytes) (h1 : Cuts fs1 ((V.session random (clientPoint block)).flight ++ pre)) (h2 : Cuts fs2 post) (l : List Sym)
    (hrd : rd.stream = ofBytes (serverWire (V.session random (clientPoint block)) fs1 fs2) ++ l) :
    ∃ c' wEnd, Ran m rd wr rng rest (V.session random (clientPoint block)) vd fs1 fs2 l c' wEnd := by
  obtain ⟨more, hm, hk⟩ := hV.keys D m
  exact point_run m rd wr rng hfa _ hm D.randomLength hV hk vd pre post hvd hpp hpost fs1 fs2 h1 h2 l hrd

/-! ### C28 -/

/-- C28: against a server that does everything right but sends another value in its Finished, `new` returns DecryptError. -/
theorem C28_mismatch (m : Mode) (rd : Reader) (wr : Writer) (rng : Rng) (hfa : wr.faults = []) (random block rest : Bytes) (D : Draws rng.bytes random block rest)
    (V : ServerValues) (hV : V.Conforms) (S : Session) (hS : S = V.session random (clientPoint block)) (vd : Bytes) (hvd : vd.length = 12) (hne : vd ≠ S.serverVerify)
    (fs1 fs2 : List Bytes) (h1 : Cuts fs1 S.flight) (h2 : Cuts fs2 (finishedBytes vd)) (l : List Sym) (hrd : rd.stream = ofBytes (serverWire S fs1 fs2) ++ l) :
    (TlsClient.new m rd wr rng).1 = .err .DecryptError := by
  subst hS
  obtain ⟨c, w, hr⟩ := server_run m rd wr rng hfa D hV vd [] (finishedBytes vd) hvd rfl (by simp [finishedBytes, handshakeBytes]) fs1 fs2 (by rw [List.append_nil]; exact h1) h2 l hrd
  have := hr.result
  rw [if_neg hne] at this
  exact (C32_error m rd wr rng _ c this).2.1 (by decide) hfa

/-- C28: if `new` succeeds, the Finished message the client read carries the value of the key schedule for the client's own random, premaster secret and
transcript. -/
theorem C28_verified (m : Mode) (rd : Reader) (wr : Writer) (rng : Rng) (c : TlsClient) (h : TlsClient.new m rd wr rng = (.ok (), c)) :
    ∃ S clear prot a b protWire pre post, Completed m rd wr rng c S clear prot a b protWire pre post ∧
      ∀ vd more, vd.length = 12 → pre ++ prot.flatMap (fun r => r.2.2) = finishedBytes vd ++ more →
        vd = tlsPrf S.master (ascii "server finished") (Spec.Sha256.sha256 (S.messages ++ finishedBytes S.clientVerify)) 12 := by
  obtain ⟨S, clear, prot, a, b, w, pre, post, hC⟩ := C27_flight_partial m rd wr rng c h
  refine ⟨S, clear, prot, a, b, w, pre, post, hC, fun vd more hl he => ?_⟩
  rw [hC.finished] at he
  have hlen : S.serverVerify.length = 12 := hC.lengths.2.2.2.2.2
  have : finishedBytes S.serverVerify = finishedBytes vd := (List.append_inj he (by simp [finishedBytes, handshakeBytes, hlen, hl])).1
  have := (List.cons.inj this).2
  exact ((List.append_inj this (by simp)).2).symm

/-! ### C29 -/

/-- The reply of a server that follows the protocol in the session S, with its records cut in some way; `l` comes after it. -/
structure Reply (S : Session) (fs1 fs2 : List Bytes) (l : List Sym) (rd : Reader) : Prop where
  flight : Cuts fs1 S.flight
  finished : Cuts fs2 (finishedBytes S.serverVerify)
  stream : rd.stream = ofBytes (serverWire S fs1 fs2) ++ l

theorem reply_run (m : Mode) (rd : Reader) (wr : Writer) (rng : Rng) (hfa : wr.faults = []) (random block rest : Bytes) (D : Draws rng.bytes random block rest)
    (V : ServerValues) (hV : V.Conforms) (S : Session) (hS : S = V.session random (clientPoint block)) (hl : S.serverVerify.length = 12)
    (fs1 fs2 : List Bytes) (l : List Sym) (hrd : Reply S fs1 fs2 l rd) :
    ∃ c wEnd, TlsClient.new m rd wr rng = (.ok (), c) ∧ Ran m rd wr rng rest S S.serverVerify fs1 fs2 l c wEnd := by
  subst hS
  obtain ⟨c, w, hr⟩ := server_run m rd wr rng hfa D hV _ [] _ hl rfl (by simp [finishedBytes, handshakeBytes]) fs1 fs2 (by rw [List.append_nil]; exact hrd.flight) hrd.finished l hrd.stream
  have h := hr.result
  rw [if_pos rfl] at h
  exact ⟨c, w, (new_of_handshake m rd wr rng (.ok ()) c (by simp)).mpr h, hr⟩

/-- C29, partial: whatever the client draws, `new` succeeds against a server that follows the protocol, for all its values and all cuts of its records, and
the two sides hold the same keys and IVs: those of the session, whose master secret the server computes from the client's point. Missing: the client's point
is the point at infinity when the seven bytes its scalar is made of are all zero (`C29_point`), and then no server that checks it will go on. -/
theorem C29_completes_partial (m : Mode) (rd : Reader) (wr : Writer) (rng : Rng) (hfa : wr.faults = []) (random block rest : Bytes) (D : Draws rng.bytes random block rest)
    (V : ServerValues) (hV : V.Conforms) (S : Session) (hS : S = V.session random (clientPoint block)) (fs1 fs2 : List Bytes) (l : List Sym) (hrd : Reply S fs1 fs2 l rd) :
    ∃ c, TlsClient.new m rd wr rng = (.ok (), c) ∧ c.reader.reader.stream = l ∧
      c.writer.writer.wire = wr.wire ++ (clientFlight random (Spec.P256.encode (clientPoint block)) S.keys S.clientVerify).flatten ∧
      c.writer.encryptor = some (.chacha m S.keys.clientKey) ∧ c.writer.iv = some S.keys.clientIv ∧
      c.reader.decryptor = some (.chacha m S.keys.serverKey) ∧ c.reader.iv = some S.keys.serverIv ∧
      c.writer.writeCount = 1 ∧ c.reader.readCount = UInt64.ofNat fs2.length := by
  obtain ⟨c, w, h, hr⟩ := reply_run m rd wr rng hfa random block rest D V hV S hS (serverVerify_length D hV hS) fs1 fs2 l hrd
  refine ⟨c, h, hr.stream, ?_, hr.encryptor, hr.writerIv, hr.decryptor, hr.readerIv, hr.writeCount, hr.readCount⟩
  rw [hr.wire]
  rw [show S.random = random by rw [hS]; rfl, show S.point = Spec.P256.encode (clientPoint block) by rw [hS]; rfl]

/-- When the client's point is a point: one of the seven bytes is not zero. -/
theorem C29_point (block : Bytes) (hb : block.length = 32) : clientPoint block = 0 ↔ ∀ i < 7, leNat block / 2 ^ (32 * i) % 256 = 0 := by
  constructor
  · intro h
    have hd := Spec.P256.smul_G_eq_zero h
    obtain ⟨x, hx⟩ : ∃ x : Int256, x.val = leNat block := ⟨Int256.ofNat (leNat block), Int256.val_ofNat (by have := leNat_lt block; rw [hb] at this; exact this)⟩
    have hlt := effective_lt_n x
    rw [effective_sum, hx] at hlt
    have h0 := Nat.eq_zero_of_dvd_of_lt hd hlt
    intro i hi
    have := (Finset.sum_eq_zero_iff.mp h0) i (Finset.mem_range.mpr hi)
    rcases Nat.mul_eq_zero.mp this with h | h
    · exact h
    · exact absurd h (by positivity)
  · intro h
    rw [clientPoint, Finset.sum_eq_zero, zero_nsmul]
    intro i hi
    rw [h i (Finset.mem_range.mp hi), Nat.zero_mul]

/-- C29, application data to the server: after the handshake, `write` sends the data in protected records under the client's keys of the session, which are
the next ones in sequence. -/
theorem C29_client_data_partial (m : Mode) (rd : Reader) (wr : Writer) (rng : Rng) (hfa : wr.faults = []) (random block rest : Bytes) (D : Draws rng.bytes random block rest)
    (V : ServerValues) (hV : V.Conforms) (S : Session) (hS : S = V.session random (clientPoint block)) (fs1 fs2 : List Bytes) (l : List Sym) (hrd : Reply S fs1 fs2 l rd)
    (data : Bytes) (hd : data.length < 2 ^ 63) :
    ∃ c c', TlsClient.new m rd wr rng = (.ok (), c) ∧ (TlsClient.write m data).run c = (.ok data.length, c') ∧
      c'.writer.writer.wire = c.writer.writer.wire ++ protectedRecords S.keys.clientKey S.keys.clientIv 23 1 (chunks 16384 data) := by
  obtain ⟨c, w, h, hr⟩ := reply_run m rd wr rng hfa random block rest D V hV S hS (serverVerify_length D hV hS) fs1 fs2 l hrd
  obtain ⟨k1, k2, k3, k4, _⟩ := hr.lengths
  have hcw : CrateWriter c.writer := ⟨m, _, k1, hr.encryptor⟩
  have hcount : (chunks RECORD_MAX_LEN data).length = (data.length + 16383) / 16384 := chunks_count (by decide) data
  have hc1 : c.writer.writeCount.toNat = 1 := by rw [hr.writeCount]; rfl
  obtain ⟨w', hw⟩ := TlsWriter.writeChunks_ok (m := m) (ty := .ApplicationDataTy) (TlsWriter.chunk_bound data) hcw.sealsShort hr.faults (by rw [hcount, hc1]; omega)
  obtain ⟨sent, hsent, hmap⟩ := TlsWriter.writeData_inv hw
  refine ⟨c, { c with writer := w' }, h, ?_, ?_⟩
  · rw [TlsClient.write, St.bind_run, writeAll_run, writeApplicationData_run _ _ _ (by rw [hr.encryptor]; rfl)]
    rw [show (TlsWriter.writeData m .ApplicationDataTy data).run c.writer = (.ok (), w') from hw]
    rfl
  · show w'.writer.wire = _
    have hp := sent_protected (m := m) k1 k3 hsent hr.encryptor hr.writerIv (TlsWriter.chunk_bound data) hmap (by rw [hcount, hc1]; omega)
    rw [hc1] at hp
    rw [hsent.wire]
    exact congrArg (c.writer.writer.wire ++ ·) hp

/-- C29, application data from the server: protected records under the server's keys that follow the handshake are read back exactly. -/
theorem C29_server_data_partial (m : Mode) (rd : Reader) (wr : Writer) (rng : Rng) (hfa : wr.faults = []) (random block rest : Bytes) (D : Draws rng.bytes random block rest)
    (V : ServerValues) (hV : V.Conforms) (S : Session) (hS : S = V.session random (clientPoint block)) (fs1 fs2 : List Bytes)
    (fs : List Bytes) (hfs : ∀ f ∈ fs, f.length ≤ 2 ^ 14) (hn : fs.length < 2 ^ 63) (l : List Sym)
    (hrd : Reply S fs1 fs2 (ofBytes (protectedRecords S.keys.serverKey S.keys.serverIv 23 fs2.length fs) ++ l) rd) (lens : List Nat) (hlens : lens.sum ≤ fs.flatten.length) :
    ∃ c, TlsClient.new m rd wr rng = (.ok (), c) ∧ ∃ (outs : List Bytes) (c' : TlsClient), readMany m lens c = (outs.map .ok, c') ∧ outs.map List.length = lens ∧
      outs.flatten = fs.flatten.take lens.sum := by
  obtain ⟨c, w, h, hr⟩ := reply_run m rd wr rng hfa random block rest D V hV S hS (serverVerify_length D hV hS) fs1 fs2 _ hrd
  obtain ⟨k1, k2, k3, k4, _⟩ := hr.lengths
  obtain ⟨p1, p2, p3, p4⟩ := hr.peer
  have hc : w.writeCount.toNat = fs2.length := by
    rw [p3, UInt64.toNat_ofNat']
    have := hrd.finished.2.1
    omega
  have hlt : w.writeCount.toNat + fs.length < 2 ^ 64 := by have := hrd.finished.2.1; omega
  obtain ⟨w', sent, hsent, hmap, _, _, _, _, hlen⟩ := fragments_sent hfs .ApplicationDataTy w hr.synced.sealsShort p4 hlt
  have hwire := sent_protected (m := m) k2 k4 hsent p1 p2 hfs hmap hlt
  have hp : Pending w sent fs w' l c.reader := by
    refine ⟨hsent, hr.synced, by rw [hr.decryptor]; rfl, by rw [hr.buffer]; exact NoMessage.empty, ?_, by rw [hlen]; exact hlt, hands_of_records rfl hmap, ?_⟩
    · intro rc hrc
      have : rc.1 ∈ TlsWriter.recordsOf .ApplicationDataTy fs := by rw [← hmap]; exact List.mem_map.mpr ⟨rc, hrc, rfl⟩
      obtain ⟨f, hf, he⟩ := List.mem_map.mp this
      rw [← he]
      exact hfs f hf
    · rw [hr.stream, hwire, hc]; rfl
  obtain ⟨outs, c', _, _, _, g1, g2, g3, _⟩ := Pending.readMany m lens hp (by rw [hr.buf]; exact hlens)
  rw [hr.buf] at g3
  exact ⟨c, h, outs, c', g1, g2, g3⟩

theorem flight_length {V : ServerValues} (hV : V.Conforms) {random : Bytes} {P : Spec.P256.curve.Point} {S : Session} (hS : S = V.session random P) : S.flight.length < 2 ^ 62 := by
  obtain ⟨f, _, _, _, _, _, _, b1, b2, b3, _⟩ := session_flight hV random _ S hS
  have hlen : ∀ {b : Bytes} {h : Handshake}, Framed b h → b.length < 2 ^ 24 + 4 := by
    rintro b h ⟨ty, body, hb, rfl, _⟩
    simp only [handshakeBytes, List.length_cons, List.length_append, beBytes_length]
    omega
  have l1 := hlen b1
  have l2 := hlen b2
  have l3 := hlen b3
  have l4 : (handshakeBytes 14 []).length = 4 := rfl
  rw [hS]
  show (serverHelloBytes V.random V.sessionId (extPart V.exts ++ []) ++ (certificateBytes V.certs ++ (handshakeBytes 12 V.keyExchange ++ handshakeBytes 14 []))).length < _
  rw [List.append_nil, List.length_append, List.length_append, List.length_append]
  omega

/-- Any bytes can be cut into fragments. -/
theorem cuts_exists (bytes : Bytes) (h : bytes.length < 2 ^ 63) : Cuts (chunks 16384 bytes) bytes := by
  refine ⟨fun f hf => ⟨chunks_ne_nil (by decide) bytes f hf, TlsWriter.chunk_bound bytes f hf⟩, ?_, chunks_flatten (by decide) bytes⟩
  rw [chunks_count (by decide)]
  omega

/-- The hypotheses of C29 are met: for every draw and all values, with records as long as possible and the transport delivering everything at once. -/
example (random block : Bytes) (hr : random.length = 32) (hb : block.length = 32) (hlt : leNat block < P256.p) (V : ServerValues) (hV : V.Conforms) (S : Session)
    (hS : S = V.session random (clientPoint block)) : Draws (random ++ block) random block [] ∧ ∃ fs1 fs2 rd, Reply S fs1 fs2 [] rd := by
  have D : Draws (random ++ block) random block [] := ⟨⟨[], by simp, by simp⟩, hr, hb, hlt⟩
  exact ⟨D, _, _, ⟨[.data (serverWire S (chunks 16384 S.flight) (chunks 16384 (finishedBytes S.serverVerify)))]⟩,
    cuts_exists _ (by have := flight_length hV hS; omega), cuts_exists _ (by simp [finishedBytes, handshakeBytes, serverVerify_length D hV hS]), by rw [List.append_nil]; exact List.append_nil _⟩

/-- Values that conform: no certificate, no signature, the private key 1. -/
example : ServerValues.Conforms { random := List.replicate 32 7, secret := 1 } :=
  ⟨by simp, by simp, by simp, by simp, by decide, by rw [one_nsmul]; exact Spec.P256.G_ne_zero, by simp⟩

end Husk
