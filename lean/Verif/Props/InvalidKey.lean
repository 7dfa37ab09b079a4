import Verif.Props.NoPanic

/-!
# Invalid public keys and empty handshake records (C64, C65)
-/

namespace Husk

open Item Spec TlsReader TlsClient

/-! ### C64: a public key that is not a point ends the handshake with IllegalParameter -/

/-- The body of a ServerKeyExchange, RFC 4492 5.4: a named curve, a public key, an algorithm and a signature. -/
def keyExchangeBody (curve : NamedCurve) (point : Bytes) (alg : SignatureAndHashAlgorithm) (sig : Bytes) : Bytes :=
  [3] ++ beBytes 2 (TlsEnum.code curve) ++ (UInt8.ofNat point.length :: point) ++ [UInt8.ofNat (TlsEnum.code alg.hash), UInt8.ofNat (TlsEnum.code alg.signature)] ++
    beBytes 2 sig.length ++ sig

theorem read_keyExchangeBody (curve : NamedCurve) (point : Bytes) (alg : SignatureAndHashAlgorithm) (sig junk : Bytes) (h1 : 1 ≤ point.length) (h2 : point.length ≤ 255)
    (hs : sig.length < 2 ^ 16) : ∃ ps : EcdheServerKeyExchange, ps.params.pub.items = point ∧
      (TlsItem.read (α := EcdheServerKeyExchange)).run (keyExchangeBody curve point alg sig ++ junk) = (.ok ps, junk) := by
  refine ⟨{ params := { curve_params := .named_curve curve, pub := ⟨point⟩ }, signed_params := { algorithm := alg, signature := ⟨sig⟩ } }, rfl, ?_⟩
  apply LawfulItem.read_write (α := EcdheServerKeyExchange)
  · refine ⟨⟨fun _ _ => trivial, ?_⟩, ⟨fun _ _ => trivial, Nat.zero_le _, ?_⟩⟩
    · show 1 ≤ TlsVec.sizes point ∧ TlsVec.sizes point ≤ 255
      rw [Ecdhe.sizes_bytes]; exact ⟨h1, h2⟩
    · show TlsVec.sizes sig ≤ 65535
      rw [Ecdhe.sizes_bytes]; omega
  · obtain ⟨hash, sign⟩ := alg
    simp only [TlsItem.write, Res.bind_ok, Ecdhe.write_bytes, Ecdhe.sizes_bytes, keyExchangeBody]
    show Res.ok _ = Res.ok _
    simp
    rfl

theorem flight_keys_err {m : Mode} {c : TlsClient} {s1 s2 s3 : TlsReader} {sh : ServerHello} {certs : CertificateList} {ske : ObscureData} {rng' : Rng} {k : TlsErrorKind}
    (h1 : (readMessage m).run c.reader = (.ok (.HandshakeMessage (.server_hello sh)), s1))
    (hc : sh.serverVersion = ⟨3, 3⟩ ∧ sh.cipherSuite = .TLS_ECDHE_RSA_WITH_CHACHA20_POLY1305_SHA256 ∧ sh.compressionMethod = .null)
    (h2 : (readMessage m).run s1 = (.ok (.HandshakeMessage (.certificate certs)), s2))
    (h3 : (readMessage m).run s2 = (.ok (.HandshakeMessage (.server_key_exchange ske)), s3)) (hk : (Ecdhe.computeKeys m ske.data).run c.rng = (.err k, rng')) :
    ∃ c', (readFlight m).run c = (.err k, c') := by
  refine ⟨{ c with reader := s3, rng := rng' }, ?_⟩
  rw [readFlight, St.bind_of_ok (onReader_ok (expectServerHello_iff.mpr h1)), checkServerHello_eq, if_pos hc, St.bind_of_ok (St.lift_run _ _),
    St.bind_of_ok (onReader_ok (c := { c with reader := s1 }) (expectCertificate_iff.mpr h2)),
    St.bind_of_ok (onReader_ok (c := { c with reader := s2 }) (expectServerKeyExchange_iff.mpr h3)),
    St.bind_of_err (onRng_ok (c := { c with reader := s3 }) hk)]

/-- A ServerKeyExchange that the key exchange refuses: `new` fails with the same error. -/
theorem new_keys_err (m : Mode) (rd : Reader) (wr : Writer) (rng : Rng) (hfa : wr.faults = []) {random block rest : Bytes} (D : Draws rng.bytes random block rest) {V : ServerValues} (hV : V.Conforms)
    (data : Bytes) (hd : data.length < 2 ^ 24) (k : TlsErrorKind) (hk : ∀ r, (Ecdhe.computeKeys m data).run r = (.err k, r)) (more : Bytes) (fs : List Bytes)
    (hc : Cuts fs (V.first 2 ++ (handshakeBytes 12 data ++ more))) (l : List Sym) (hrd : rd.stream = ofBytes (fs.flatMap (recordBytes 22 3 3)) ++ l) :
    (TlsClient.new m rd wr rng).1 = .err k := by
  obtain ⟨rest', hm, -⟩ := hV.keys D m
  obtain ⟨f, hfit, v1, v3, -, -, -, b1, b2, -⟩ := session_flight hV random (clientPoint block) _ rfl
  have hck := And.intro v1 (And.intro hfit.suite v3)
  have hp := hc.pending rd l hrd
  have hp : ClearPending (TlsReader.new rd) (serverHelloBytes V.random V.sessionId (extPart V.exts) ++ (certificateBytes V.certs ++ (handshakeBytes 12 data ++ more))) l := by
    simpa [ServerValues.first, ServerValues.messages] using hp
  have b3 : Framed (handshakeBytes 12 data) (.server_key_exchange ⟨data⟩) := Framed.of_write (ty := 12) (body := data) trivial (write_obscure _) hd
  obtain ⟨s1, r1, p1, -⟩ := hp.take m b1
  obtain ⟨s2, r2, p2, -⟩ := p1.take m b2
  obtain ⟨s3, r3, p3, -⟩ := p2.take m b3
  obtain ⟨w', hsh, -⟩ := after_hello m rd wr rng hfa hm D.randomLength
  obtain ⟨c', he⟩ := flight_keys_err (c := { fresh rd wr rng with rng := ⟨rest'⟩, writer := w' }) r1 hck r2 r3 (hk _)
  refine new_result hfa (c := c') ?_
  rw [handshake, St.bind_of_ok hsh]
  dsimp only
  rw [St.bind_of_err he]

/-- Not the encoding of a point: another length, another format byte, or coordinates that do not satisfy the equation of the curve. -/
def NotAPoint (point : Bytes) : Prop :=
  point.length ≠ 65 ∨ point.getD 0 0 ≠ 4 ∨ ∃ X Y, point = 4 :: (beBytes 32 X ++ beBytes 32 Y) ∧ X < P256.p ∧ Y < 2 ^ 256 ∧ ¬ OnCurve X Y

theorem fromUncompressed_not_a_point (m : Mode) {point : Bytes} (h : NotAPoint point) : NPoint256.fromUncompressedBytes m point = .ok none := by
  rcases h with h | h | ⟨X, Y, rfl, hX, hY, hne⟩
  · exact C48_rejects_malformed m _ (Or.inl h)
  · exact C48_rejects_malformed m _ (Or.inr h)
  · have hX' : X < 2 ^ 256 := by have := P256.p_eq; omega
    obtain ⟨r, h1, h2⟩ := C48_exact_for_reduced_x_partial m (4 :: (beBytes 32 X ++ beBytes 32 Y)) (by
      rw [List.take_succ_cons, List.drop_succ_cons, List.drop_zero, List.take_left' (beBytes_length _ _), beNat_beBytes]
      exact (Nat.mod_le _ _).trans_lt hX)
    rw [h1]
    cases r with
    | none => rfl
    | some q =>
      exfalso
      obtain ⟨e1, e2⟩ := (h2 q).mp rfl
      obtain ⟨-, e1⟩ := List.cons.inj e1
      obtain ⟨e3, e4⟩ := List.append_inj e1 (by rw [beBytes_length, Int256.toBytes_length])
      have e3 := congrArg beNat e3
      have e4 := congrArg beNat e4
      rw [beNat_beBytes, Int256.beNat_toBytes] at e3 e4
      rw [Nat.mod_eq_of_lt (by exact hX')] at e3
      rw [Nat.mod_eq_of_lt (by exact hY)] at e4
      rw [← e3, ← e4] at e2
      exact hne e2

theorem computeKeys_not_a_point (m : Mode) (curve : NamedCurve) (point : Bytes) (alg : SignatureAndHashAlgorithm) (sig junk : Bytes) (h1 : 1 ≤ point.length) (h2 : point.length ≤ 255)
    (hs : sig.length < 2 ^ 16) (h : NotAPoint point) (rng : Rng) : (Ecdhe.computeKeys m (keyExchangeBody curve point alg sig ++ junk)).run rng = (.err .IllegalParameter, rng) := by
  obtain ⟨ps, e1, e2⟩ := read_keyExchangeBody curve point alg sig junk h1 h2 hs
  rw [computeKeys_point m _ _ _ rng e2, e1, fromUncompressed_not_a_point m h]

/-- Partial C64: after any conforming ServerHello and Certificate, a ServerKeyExchange with a public key that is not a point makes `new` return IllegalParameter, whatever curve
and algorithms it names, whatever the signature is and whatever follows. Missing: x-coordinates that are not below p, which are not refused (`C48_accepts_non_canonical`,
`C48_release_accepts_off_curve`) or make debug builds panic (`C61_debug_panics`). -/
theorem C64_invalid_key_partial (m : Mode) (rd : Reader) (wr : Writer) (rng : Rng) (hfa : wr.faults = []) {random block rest : Bytes} (D : Draws rng.bytes random block rest) {V : ServerValues}
    (hV : V.Conforms) (curve : NamedCurve) (point : Bytes) (alg : SignatureAndHashAlgorithm) (sig junk more : Bytes) (h1 : 1 ≤ point.length) (h2 : point.length ≤ 255)
    (hs : sig.length < 2 ^ 16) (h : NotAPoint point) (hj : junk.length < 2 ^ 23) (fs : List Bytes)
    (hc : Cuts fs (V.first 2 ++ (handshakeBytes 12 (keyExchangeBody curve point alg sig ++ junk) ++ more))) (l : List Sym)
    (hrd : rd.stream = ofBytes (fs.flatMap (recordBytes 22 3 3)) ++ l) : (TlsClient.new m rd wr rng).1 = .err .IllegalParameter :=
  new_keys_err m rd wr rng hfa D hV _ (by simp [keyExchangeBody]; omega) _ (computeKeys_not_a_point m curve point alg sig junk h1 h2 hs h) more fs hc l hrd

/-- The same for a body that names an explicit curve, or begins with anything but 3: DecodeError. -/
theorem C64_curve_type (m : Mode) (rd : Reader) (wr : Writer) (rng : Rng) (hfa : wr.faults = []) {random block rest : Bytes} (D : Draws rng.bytes random block rest) {V : ServerValues}
    (hV : V.Conforms) (t : UInt8) (ht : t ≠ 3) (body more : Bytes) (hb : body.length < 2 ^ 23) (fs : List Bytes) (hc : Cuts fs (V.first 2 ++ (handshakeBytes 12 (t :: body) ++ more)))
    (l : List Sym) (hrd : rd.stream = ofBytes (fs.flatMap (recordBytes 22 3 3)) ++ l) : (TlsClient.new m rd wr rng).1 = .err .DecodeError :=
  new_keys_err m rd wr rng hfa D hV _ (by simp; omega) _ (fun r => C57_named_curve_only_partial m t body ht r) more fs hc l hrd

/-- Some keys that are not points: none at all but the format byte (the point at infinity), a compressed point, (0, 0). -/
example : NotAPoint [0] ∧ NotAPoint (2 :: beBytes 32 5) ∧ NotAPoint (4 :: (beBytes 32 0 ++ beBytes 32 0)) := by
  refine ⟨Or.inl (by decide), Or.inl (by simp), Or.inr (Or.inr ⟨0, 0, rfl, by decide, by decide, ?_⟩)⟩
  decide +kernel

/-! ### C65: empty handshake records -/

/-- C65: an empty handshake record is refused with UnexpectedMessage, unless there is still a message to be delivered. -/
theorem C65_reader (m : Mode) (s s1 : TlsReader) (rec : Record) (hb : HandshakeBuffer.getMessage.run s.handshakeBuffer = (.ok none, s.handshakeBuffer))
    (h : (readRecord m).run s = (.ok rec, s1)) (hty : rec.contentType = .HandshakeTy) (he : rec.fragment = []) : (readMessage m).run s = (.err .UnexpectedMessage, s1) := by
  have h1 : (onBuffer HandshakeBuffer.getMessage).run s = (.ok none, s) := by
    simp only [onBuffer, St.zoom_run, hb]
  rw [readMessage, St.bind_of_ok h1]
  show (messageLoop m (s.reader.bytes + 1)).run s = _
  have hs : (messageStep m).run s = (.err .UnexpectedMessage, s1) := by
    rw [messageStep, St.bind_of_ok h]
    simp only [hty, he, List.isEmpty_nil, if_true, St.err_run]
  rw [messageLoop, St.bind_of_err hs]

/-- C65: in the flight, in clear. Part of a message may have come. -/
theorem C65_flight (m : Mode) (rd : Reader) (wr : Writer) (rng : Rng) (hfa : wr.faults = []) {random block rest : Bytes} (D : Draws rng.bytes random block rest) {V : ServerValues}
    (hV : V.Conforms) (i : Nat) (hi : i < 4) (pre : Bytes) (hpre : Unfinished pre) (fs : List Bytes) (hc : Cuts fs (V.first i ++ pre)) (l : List Sym)
    (hrd : rd.stream = ofBytes (fs.flatMap (recordBytes 22 3 3)) ++ (ofBytes (recordBytes 22 3 3 []) ++ l)) : (TlsClient.new m rd wr rng).1 = .err .UnexpectedMessage := by
  obtain ⟨s, hs, key⟩ := flight_position m rd wr rng hfa D hV i hi _ _ (hc.pending rd _ hrd)
  obtain ⟨s1, r1, -⟩ := hs.any (ty := .HandshakeTy) (f := []) m (fun _ => rfl) (Nat.zero_le _) hpre.incomplete
  exact key _ _ r1 (by rintro h e; cases e)

/-- C65: in place of the ChangeCipherSpec. -/
theorem C65_change (m : Mode) (rd : Reader) (wr : Writer) (rng : Rng) (hfa : wr.faults = []) {random block rest : Bytes} (D : Draws rng.bytes random block rest) {V : ServerValues}
    (hV : V.Conforms) (pre : Bytes) (hpre : Unfinished pre) (fs : List Bytes) (hc : Cuts fs (V.first 4 ++ pre)) (l : List Sym)
    (hrd : rd.stream = ofBytes (fs.flatMap (recordBytes 22 3 3)) ++ (ofBytes (recordBytes 22 3 3 []) ++ l)) : (TlsClient.new m rd wr rng).1 = .err .UnexpectedMessage := by
  obtain ⟨s, master, msgs, fin, c, rfl, h1, h2, -⟩ := change_position m rd wr rng hfa D hV rfl _ _ (hc.pending rd _ hrd)
  obtain ⟨s1, r1, -⟩ := h2.any (ty := .HandshakeTy) (f := []) m (fun _ => rfl) (Nat.zero_le _) hpre.incomplete
  refine new_result hfa (c := { c with reader := s1 }) ?_
  rw [h1, readFinished, bind_refused (onReader_ok (readChangeCipherSpec_fails r1 (by rintro msg e; cases e)))]; rfl

/-- C65: protected, in place of the Finished. -/
theorem C65_finished (m : Mode) (rd : Reader) (wr : Writer) (rng : Rng) (hfa : wr.faults = []) {random block rest : Bytes} (D : Draws rng.bytes random block rest) {V : ServerValues}
    (hV : V.Conforms) {S : Session} (hS : S = V.session random (clientPoint block)) (pre : Bytes) (hpre : Unfinished pre) (fs : List Bytes) (hc : Cuts fs (V.first 4 ++ pre)) (l : List Sym)
    (hrd : rd.stream = ofBytes (fs.flatMap (recordBytes 22 3 3) ++ (recordBytes 20 3 3 [1] ++ protectedRecord S.keys.serverKey S.keys.serverIv 0 22 [])) ++ l) :
    (TlsClient.new m rd wr rng).1 = .err .UnexpectedMessage :=
  protected_other m rd wr rng hfa D hV hS pre hpre .HandshakeTy [] (fun _ => rfl) (Nat.zero_le _) fs hc l hrd

/-- An empty handshake record in clear, at the beginning. -/
example (m : Mode) : ((readMessage m).run (TlsReader.new (byteByByte (recordBytes 22 3 3 [])))).1 = .err .UnexpectedMessage := by
  have hp : ClearPending (TlsReader.new (byteByByte (recordBytes 22 3 3 []))) [] (ofBytes (recordBytes 22 3 3 []) ++ []) :=
    ClearPending.start _ (fs := []) (by intro f hf; cases hf) (by decide) _ (by rw [stream_byteByByte]; exact (List.append_nil _).symm)
  obtain ⟨s1, r1, -⟩ := hp.any (ty := .HandshakeTy) (f := []) m (fun _ => rfl) (Nat.zero_le _) Incomplete.nil
  rw [r1]; rfl

end Husk
