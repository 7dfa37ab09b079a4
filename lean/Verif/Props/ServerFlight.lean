import Verif.Props.ClientHandshake
import Verif.Props.Wire
import Verif.Proofs.Accept
/-! C27, C28, C33 (part): what the server must have sent when `TlsClient::new` succeeds. -/

namespace Husk

open Item Spec TlsReader TlsClient

/-! ### Specification -/

/-- Records protected with a key: each opens, with its sequence number (64 bits), to its fragment. The list holds the two version bytes and the fragment. -/
inductive ProtectedStream (key iv : Bytes) (ty : UInt8) : Nat → List (UInt8 × UInt8 × Bytes) → Bytes → Prop
  | nil {k} : ProtectedStream key iv ty k [] []
  | cons {k a b f ct rs w} : ct.length ≤ 18432 →
      Spec.Aead.openMsg key (recordNonce iv (k % 2 ^ 64)) (recordAad (k % 2 ^ 64) ty a b f.length) ct = some f →
      ProtectedStream key iv ty (k + 1) rs w → ProtectedStream key iv ty k ((a, b, f) :: rs) (recordBytes ty a b ct ++ w)

/-- The values of a handshake: the client's random, the ServerHello (`ext` is its extension block, `junk` what follows it), the certificates, the body of the
ServerKeyExchange, the client's public key and the premaster secret. -/
structure Session where
  random : Bytes
  serverRandom : Bytes
  sessionId : Bytes
  ext : Bytes
  junk : Bytes
  certs : List Bytes
  keyExchange : Bytes
  point : Bytes
  pms : Bytes

noncomputable section
namespace Session

/-- The server's first flight, without what follows the extension block. -/
def server (S : Session) : Bytes :=
  serverHelloBytes S.serverRandom S.sessionId S.ext ++ (certificateBytes S.certs ++ (handshakeBytes 12 S.keyExchange ++ handshakeBytes 14 []))
/-- The server's first flight as it was sent. -/
def flight (S : Session) : Bytes :=
  serverHelloBytes S.serverRandom S.sessionId (S.ext ++ S.junk) ++ (certificateBytes S.certs ++ (handshakeBytes 12 S.keyExchange ++ handshakeBytes 14 []))
def master (S : Session) : Bytes := tlsMaster S.pms S.random S.serverRandom
def keys (S : Session) : Keys := keysOf S.master S.random S.serverRandom
def messages (S : Session) : Bytes := handshakeMessages S.random S.server S.point
def clientVerify (S : Session) : Bytes := verifyDataOf S.master (ascii "client finished") S.messages
def serverVerify (S : Session) : Bytes := verifyDataOf S.master (ascii "server finished") (S.messages ++ finishedBytes S.clientVerify)

end Session
end

/-- The body of a ServerKeyExchange the client accepts: a named curve, a point that passes the curve check, a hash and a signature algorithm, a signature,
and possibly more bytes. What the check says: two 256-bit numbers, and a point of the curve if X is reduced or in a debug build (see C48). -/
def KeyExchangeBody (m : Mode) (body : Bytes) : Prop :=
  ∃ (curve : NamedCurve) (point : Bytes) (alg : SignatureAndHashAlgorithm) (sig more : Bytes) (q : NPoint256),
    body = [3] ++ beBytes 2 (TlsEnum.code curve) ++ (65 :: point) ++ [UInt8.ofNat (TlsEnum.code alg.hash), UInt8.ofNat (TlsEnum.code alg.signature)] ++ beBytes 2 sig.length ++ sig ++ more ∧
    point.length = 65 ∧ NPoint256.fromUncompressedBytes m point = .ok (some q) ∧
    ∃ X Y, point = 4 :: (beBytes 32 X ++ beBytes 32 Y) ∧ X < 2 ^ 256 ∧ Y < 2 ^ 256 ∧ (X < P256.p ∨ m = .debug → OnCurve X Y)

/-- The client holds the keys of the session: for reading, the next record has number `k`; for writing, number 1. Nothing is buffered. -/
structure Ready (m : Mode) (S : Session) (k : Nat) (c : TlsClient) : Prop where
  decryptor : c.reader.decryptor = some (.chacha m S.keys.serverKey)
  readerIv : c.reader.iv = some S.keys.serverIv
  readCount : c.reader.readCount.toNat = k % 2 ^ 64
  encryptor : c.writer.encryptor = some (.chacha m S.keys.clientKey)
  writerIv : c.writer.iv = some S.keys.clientIv
  writeCount : c.writer.writeCount = 1
  buf : c.buf = []
  lengths : S.keys.clientKey.length = 32 ∧ S.keys.serverKey.length = 32 ∧ S.keys.clientIv.length = 12 ∧ S.keys.serverIv.length = 12

/-- A handshake that was completed. -/
structure Completed (m : Mode) (rd : Reader) (wr : Writer) (rng : Rng) (c : TlsClient) (S : Session) (clear prot : List (UInt8 × UInt8 × Bytes)) (a b : UInt8)
    (protWire pre post : Bytes) : Prop where
  /-- The stream: handshake records in clear, ChangeCipherSpec, protected handshake records; the rest was not read. -/
  stream : rd.stream = ofBytes (clear.flatMap (fun r => recordBytes 22 r.1 r.2.1 r.2.2) ++ (recordBytes 20 a b [1] ++ protWire)) ++ c.reader.reader.stream
  opened : ProtectedStream S.keys.serverKey S.keys.serverIv 22 0 prot protWire
  /-- The messages in clear; `pre` is what follows ServerHelloDone. -/
  messages : clear.flatMap (fun r => r.2.2) = S.flight ++ pre
  /-- The server's Finished; `post` is what follows. -/
  finished : pre ++ prot.flatMap (fun r => r.2.2) = finishedBytes S.serverVerify ++ post
  /-- The part of Finished that is in the clear does not complete it. -/
  short : pre.length < 16
  random : ∃ rest, rng.bytes = S.random ++ rest ∧ (Ecdhe.computeKeys m S.keyExchange).run ⟨rest⟩ = (.ok (65 :: S.point, S.pms), c.rng)
  lengths : S.random.length = 32 ∧ S.serverRandom.length = 32 ∧ S.sessionId.length ≤ 32 ∧ S.point.length = 65 ∧ S.pms.length = 32 ∧
    S.serverVerify.length = 12
  junk : S.ext = [] → S.junk = []
  keyExchange : KeyExchangeBody m S.keyExchange
  sent : c.writer.writer.wire = wr.wire ++ (clientFlight S.random S.point S.keys S.clientVerify).flatten
  buffer : c.reader.handshakeBuffer.buf = post
  /-- The client afterwards. -/
  ready : Ready m S prot.length c
  faults : wr.faults = [] → c.writer.writer.faults = []
  /-- The bodies of the messages fit their length fields. -/
  sizes : (serverHelloBytes S.serverRandom S.sessionId (S.ext ++ S.junk)).length < 2 ^ 24 + 4 ∧ (certificateBytes S.certs).length < 2 ^ 24 + 4 ∧ S.keyExchange.length < 2 ^ 24
  /-- No record in clear is longer than 2^14 bytes. -/
  fits : ∀ r ∈ clear, r.2.2.length ≤ 2 ^ 14
  /-- Nor does a protected record carry more. -/
  protFits : ∀ r ∈ prot, r.2.2.length ≤ 2 ^ 14
  /-- The extension block is absent, or it is one of RFC 5246; where an extension has a type of its own in the code, so has its content. -/
  extensions : ∃ x : Option ExtensionVec, Wire.ExtensionsInBounds x ∧ (∀ e ∈ (x.map TlsVec.items).getD [], NotShadowed e) ∧ S.ext = Wire.extensions x
  /-- No certificate is empty. -/
  certificates : ∀ c ∈ S.certs, 1 ≤ c.length
  /-- No handshake record is empty. -/
  filled : ∀ r ∈ clear ++ prot, r.2.2 ≠ []
  /-- The number of records does not overflow the counter, where this is checked. -/
  numbers : m = .debug → clear.length + 1 < 2 ^ 64 ∧ prot.length < 2 ^ 64
  /-- The last record is needed. -/
  last : ∃ rs r, prot = rs ++ [r] ∧ (pre ++ rs.flatMap (fun r => r.2.2)).length < 16

/-! ### The extension block -/

theorem extensions_of_wf {v : Option ExtensionVec} (h : wf v) :
    ∃ x : Option ExtensionVec, Wire.ExtensionsInBounds x ∧ (∀ e ∈ (x.map TlsVec.items).getD [], NotShadowed e) ∧ extBytes v = Wire.extensions x := by
  obtain ⟨h1, h2⟩ := Codec.built_opt h
  refine ⟨v, (WireLemmas.built_exts_iff v).mp h1, h2, ?_⟩
  have := (WireLemmas.enc_extensions v).1
  rw [extBytes_eq] at this
  exact Res.ok.inj this

/-! ### Records -/

theorem unprotect_plain {s : TlsReader} {ty : ContentType} {a b : UInt8} {f : Bytes} {rec : Record} (hd : s.decryptor = none) (h : s.unprotect ty a b f = .ok rec) :
    rec = ⟨ty, a, b, f⟩ := by
  simp only [unprotect, hd] at h
  split at h
  · cases h
  · rw [Record.new] at h
    split at h
    · cases h
    · exact (Res.ok.inj h).symm

theorem Took.plain {s s' : TlsReader} {recs : List Record} (h : Took s recs s') (hd : s.decryptor = none) :
    s.reader.stream = ofBytes (recs.flatMap fun r => recordBytes r.contentType.toU8 r.verMajor r.verMinor r.fragment) ++ s'.reader.stream := by
  induction h with
  | nil h => rw [h]; rfl
  | cons _ hs hu h1 _ _ _ ih =>
    rw [hs, ih (h1.trans hd), unprotect_plain hd hu, List.flatMap_cons, ofBytes_append, List.append_assoc]

theorem Took.fits {s s' : TlsReader} {recs : List Record} (h : Took s recs s') (hd : s.decryptor = none) : ∀ r ∈ recs, r.fragment.length ≤ 2 ^ 14 := by
  induction h with
  | nil => simp
  | cons _ _ hu h1 _ _ _ ih =>
    intro r hr
    rcases List.mem_cons.mp hr with rfl | hr
    · have he := unprotect_plain hd hu
      simp only [unprotect, hd] at hu
      split at hu
      · cases hu
      · rename_i hf
        rw [he]
        simpa [RECORD_MAX_LEN] using hf
    · exact ih (h1.trans hd) r hr

theorem unprotect_chacha {s : TlsReader} {m : Mode} {key iv : Bytes} {ty : ContentType} {a b : UInt8} {f : Bytes} {rec : Record} (hd : s.decryptor = some (.chacha m key))
    (hk : key.length = 32) (hi : s.iv = some iv) (hl : iv.length = 12) (hf : f.length ≤ ENC_RECORD_MAX_LEN) (h : s.unprotect ty a b f = .ok rec) :
    ∃ p, rec = ⟨ty, a, b, p⟩ ∧ Spec.Aead.openMsg key (recordNonce iv s.readCount.toNat) (recordAad s.readCount.toNat ty.toU8 a b p.length) f = some p := by
  simp only [unprotect, hd] at h
  split at h
  · cases h
  · rename_i hm
    obtain ⟨p, h1, h2⟩ := Res.bind_eq_ok.mp h
    have hmac : (Decryptor.chacha m key).macLen = 16 := rfl
    rw [hmac] at hm h1
    have hnl : s.nonce.length = 12 := by rw [TlsReader.nonce_eq, nonceFor_length]
    have hf' : f.length ≤ 2 ^ 38 - 128 := by have : ENC_RECORD_MAX_LEN = 18432 := rfl; omega
    have hn : s.nonce = recordNonce iv s.readCount.toNat := by rw [TlsReader.nonce_eq, hi, nonceFor, xorIv_spec _ _ hl]
    have hp : p.length = f.length - 16 := by
      obtain ⟨ct, e1, e2⟩ := (C38_accepts_iff_tag m key s.nonce f _ p hk hnl hf').mp h1
      have lt : (Spec.Aead.tag key s.nonce (s.ad ty a b (f.length - 16)) ct).length = 16 := Spec.Poly1305.mac_length _ _ _
      rw [e2, e1, List.length_append, lt]
      simp [Spec.ChaCha20.encrypt]
    have h1 : Aead.decrypt m key s.nonce f (s.ad ty a b (f.length - 16)) = .ok p := h1
    rw [C39_decrypt_is_rfc8439 m key _ _ _ hk hnl hf', hn, TlsReader.ad_eq, ← hp] at h1
    split at h2
    · cases h2
    · rw [Record.new] at h2
      split at h2
      · cases h2
      · refine ⟨p, (Res.ok.inj h2).symm, ?_⟩
        cases ho : Spec.Aead.openMsg key (recordNonce iv s.readCount.toNat) (recordAad s.readCount.toNat ty.toU8 a b p.length) f with
        | none => rw [ho] at h1; cases h1
        | some p' => rw [ho] at h1; rw [Res.ok.inj h1]

theorem Took.opened {s s' : TlsReader} {recs : List Record} {m : Mode} {key iv : Bytes} (hk : key.length = 32) (hl : iv.length = 12) (h : Took s recs s')
    (hd : s.decryptor = some (.chacha m key)) (hi : s.iv = some iv) (hh : AllHandshake recs) (k : Nat) (hc : s.readCount.toNat = k % 2 ^ 64) :
    ∃ w, s.reader.stream = ofBytes w ++ s'.reader.stream ∧ ProtectedStream key iv 22 k (recs.map fun r => (r.verMajor, r.verMinor, r.fragment)) w := by
  induction h generalizing k with
  | nil h => exact ⟨[], by rw [h]; rfl, .nil⟩
  | @cons s s1 s' ty a b f rec recs hf hs hu h1 h2 h3 _ ih =>
    obtain ⟨w, e1, e2⟩ := ih (h1.trans hd) (h3.trans hi) (fun r hr => hh r (List.mem_cons_of_mem _ hr)) (k + 1) (by
      rw [h2, UInt64.toNat_add, hc]; show (k % 2 ^ 64 + 1) % 2 ^ 64 = _; omega)
    obtain ⟨p, rfl, ho⟩ := unprotect_chacha hd hk hi hl hf hu
    have hty : ty = .HandshakeTy := hh _ (List.mem_cons_self ..)
    subst hty
    rw [hc] at ho
    refine ⟨_, ?_, .cons hf ho e2⟩
    rw [hs, e1, ofBytes_append, List.append_assoc]
    rfl

theorem Took.numbers {s s' : TlsReader} {recs : List Record} (h : Took s recs s') (k : Nat) (hc : s.readCount.toNat = k % 2 ^ 64) :
    s'.readCount.toNat = (k + recs.length) % 2 ^ 64 := by
  induction h generalizing k with
  | nil _ _ h => rw [h, hc]; rfl
  | cons _ _ _ _ h2 _ _ ih =>
    rw [ih (k + 1) (by rw [h2, UInt64.toNat_add, hc]; show (k % 2 ^ 64 + 1) % 2 ^ 64 = _; omega), List.length_cons]
    congr 1; omega

/-! ### Messages -/

/-- A message taken from the buffer begins with what it is when written again; more bytes follow only after an extension block. -/
theorem takes_bytes {buf rest : Bytes} {h : Handshake} {ty : UInt8} {body : Bytes} (ht : TakesMessage buf h rest) (hw : TlsItem.write h = .ok (handshakeBytes ty body)) :
    ∃ junk, buf = handshakeBytes ty (body ++ junk) ++ rest ∧ (¬ Spec.HasExtensionBlock h → junk = []) := by
  obtain ⟨ty', body', hl, rfl, hr⟩ := takes_inv ht
  obtain ⟨-, n, body0, e1, e2, _, _, body1, junk, f1, f2, f3, f4⟩ := Handshake.read_inv hr
  have hw' := f3 _ hw
  refine ⟨junk, ?_, f4⟩
  rw [List.append_nil] at f1
  have l1 : ∀ x : Nat, writeNum 1 x = [UInt8.ofNat x] := fun _ => rfl
  rw [l1, handshakeBytes, List.singleton_append, List.cons.injEq] at hw' e1
  obtain ⟨g1, g2⟩ := hw'
  obtain ⟨g3, g4⟩ := e1
  obtain ⟨g5, g6⟩ := List.append_inj g2 (by rw [writeNum_eq]; simp)
  obtain ⟨g7, g8⟩ := List.append_inj g4 (by rw [writeNum_eq]; simp)
  rw [g3, ← g1, g8, f1, ← g6]

theorem takes_size {buf rest : Bytes} {h : Handshake} {ty : UInt8} {body : Bytes} (ht : TakesMessage buf h rest) (he : buf = handshakeBytes ty body ++ rest) :
    body.length < 2 ^ 24 := by
  obtain ⟨ty', body', hl, e, _⟩ := takes_inv ht
  have := congrArg List.length (e.symm.trans he)
  simp only [handshakeBytes, List.length_append, List.length_cons, beBytes_length] at this
  omega

/-- The body of a ServerKeyExchange from which keys were computed. -/
theorem keyExchange_body {m : Mode} {data : Bytes} {rng rng' : Rng} {r : Bytes × Bytes} (h : (Ecdhe.computeKeys m data).run rng = (.ok r, rng')) : KeyExchangeBody m data := by
  obtain ⟨ps, more, q, _, h1, h2, _⟩ := computeKeys_ok h
  obtain ⟨⟨⟨curve⟩, ⟨point⟩⟩, ⟨⟨hash, sign⟩, ⟨sig⟩⟩⟩ := ps
  have h65 : point.length = 65 := by
    by_contra hne
    rw [C48_rejects_malformed m _ (Or.inl hne)] at h2
    cases h2
  obtain ⟨_, b, hb, _, hw⟩ := LawfulItem.write_read _ _ _ h1
  refine ⟨curve, point, ⟨hash, sign⟩, sig, more, q, ?_, h65, h2, q.x.val, q.y.val, ?_, q.x.val_lt, q.y.val_lt, ?_⟩
  rotate_left
  · rw [← Int256.toBytes_eq, ← Int256.toBytes_eq]
    exact (C48_reencodes m _ q h2).symm
  · rintro (hx | rfl)
    · have he : point = 4 :: (q.x.toBytes ++ q.y.toBytes) := (C48_reencodes m _ q h2).symm
      obtain ⟨r, e1, e2⟩ := C48_exact_for_reduced_x_partial m point (by
        rw [he, List.take_succ_cons, List.drop_succ_cons, List.drop_zero, List.take_left' (Int256.toBytes_length _), Int256.beNat_toBytes]
        exact hx)
      have h2 : NPoint256.fromUncompressedBytes m point = _ := h2
      rw [h2] at e1
      exact ((e2 q).mp (Res.ok.inj e1).symm).2
    · exact C48_debug_accepts_only_curve_partial _ q h2
  have hwr : TlsItem.write (⟨⟨.named_curve curve, ⟨point⟩⟩, ⟨⟨hash, sign⟩, ⟨sig⟩⟩⟩ : EcdheServerKeyExchange) =
      .ok ([3] ++ beBytes 2 (TlsEnum.code curve) ++ (65 :: point) ++ [UInt8.ofNat (TlsEnum.code hash), UInt8.ofNat (TlsEnum.code sign)] ++ beBytes 2 sig.length ++ sig) := by
    have w1 : TlsVec.writeItems point = .ok point := Ecdhe.write_bytes point
    have w2 : TlsVec.writeItems sig = .ok sig := Ecdhe.write_bytes sig
    have w3 : TlsVec.sizes point = 65 := (Ecdhe.sizes_bytes point).trans h65
    have w4 : TlsVec.sizes sig = sig.length := Ecdhe.sizes_bytes sig
    simp only [TlsItem.write, w1, w2, w3, w4, Res.bind_ok]
    refine congrArg Res.ok ?_
    show [3] ++ beBytes 2 (TlsEnum.code curve) ++ ([65] ++ point) ++ ([UInt8.ofNat (TlsEnum.code hash)] ++ [UInt8.ofNat (TlsEnum.code sign)] ++ (beBytes 2 sig.length ++ sig)) = _
    simp
  rw [hb, ← hw _ hwr]

theorem ccsMessage_fragment {f : Bytes} {msg : Message} (h : ccsMessage f = .ok msg) : f = [1] := by
  unfold ccsMessage at h
  split at h
  · cases h
  · rename_i hn
    match f, hn with
    | [x], hn => simp at hn; rw [hn]
    | [], hn => simp at hn
    | _ :: _ :: _, hn => simp at hn

theorem messageLoop_ccs {m : Mode} (fuel : Nat) {s s' : TlsReader} (h : (messageLoop m fuel).run s = (.ok .ChangeCipherSpecMessage, s'))
    (hn : HandshakeBuffer.getMessage.run s.handshakeBuffer = (.ok none, s.handshakeBuffer)) :
    HandshakeBuffer.getMessage.run s'.handshakeBuffer = (.ok none, s'.handshakeBuffer) := by
  induction fuel generalizing s with
  | zero => simp [messageLoop, St.lift_run] at h
  | succ fuel ih =>
    obtain ⟨o, s1, h1, h2⟩ := St.bind_eq_ok h
    obtain ⟨rec, ht, ho⟩ := messageStep_inv h1
    cases o with
    | some msg' =>
      simp only [St.pure_run, Prod.mk.injEq, Res.ok.injEq] at h2
      obtain ⟨rfl, rfl⟩ := h2
      obtain ⟨pre, r, e1, _, e3, _⟩ := ho
      have hpre : pre = [] := by
        have := congrArg List.length e1
        simp at this
        exact this
      subst hpre
      have e3 : s1.handshakeBuffer = s.handshakeBuffer := by
        cases h1 : s1.handshakeBuffer; cases h2 : s.handshakeBuffer
        rw [h1, h2] at e3
        simpa [frags] using e3
      rw [e3]; exact hn
    | none => exact ih h2 ho.2.2

theorem readMessage_ccs {m : Mode} {s s' : TlsReader} (h : (readMessage m).run s = (.ok .ChangeCipherSpecMessage, s')) :
    HandshakeBuffer.getMessage.run s'.handshakeBuffer = (.ok none, s'.handshakeBuffer) := by
  obtain ⟨o, s1, h1, h2⟩ := St.bind_eq_ok h
  simp only [onBuffer, St.zoom_run] at h1
  rcases hg : HandshakeBuffer.getMessage.run s.handshakeBuffer with ⟨x, b'⟩
  rw [hg] at h1
  simp only [Prod.mk.injEq] at h1
  obtain ⟨rfl, rfl⟩ := h1
  cases o with
  | some hh =>
    simp only [St.pure_run, Prod.mk.injEq, Res.ok.injEq] at h2
    obtain ⟨h2, _⟩ := h2
    cases h2
  | none =>
    have := getMessage_none hg
    subst this
    have h2' : (messageLoop m (s.reader.bytes + 1)).run s = (.ok .ChangeCipherSpecMessage, s') := h2
    exact messageLoop_ccs _ h2' hg

/-- The versions and fragments of records. -/
def parts (recs : List Record) : List (UInt8 × UInt8 × Bytes) := recs.map fun r => (r.verMajor, r.verMinor, r.fragment)

theorem parts_wire {recs : List Record} (h : AllHandshake recs) :
    (recs.flatMap fun r => recordBytes r.contentType.toU8 r.verMajor r.verMinor r.fragment) = (parts recs).flatMap (fun r => recordBytes 22 r.1 r.2.1 r.2.2) := by
  induction recs with
  | nil => rfl
  | cons r recs ih =>
    have h1 := h r (List.mem_cons_self ..)
    rw [List.flatMap_cons, ih (fun r hr => h r (List.mem_cons_of_mem _ hr)), h1]
    rfl

theorem parts_frags (recs : List Record) : (parts recs).flatMap (fun r => r.2.2) = frags recs := by
  rw [parts, List.flatMap_map]; rfl

/-- A buffer that holds the Finished message has a complete message. -/
theorem finished_waits {v x y post : Bytes} (hv : v.length = 12) (he : x ++ y = finishedBytes v ++ post) (hn : HandshakeBuffer.getMessage.run ⟨x⟩ = (.ok none, ⟨x⟩)) :
    x.length < 16 := by
  by_contra hge
  rw [Nat.not_lt] at hge
  have hl := (finished_eq v hv).2.2
  obtain ⟨z, hz⟩ : ∃ z, x = finishedBytes v ++ z := by
    refine ⟨x.drop 16, ?_⟩
    have := congrArg (List.take 16) he
    rw [List.take_append_of_le_length hge, List.take_left' hl] at this
    rw [← this, List.take_append_drop]
  rw [hz, (framed_finished v hv).front] at hn
  simp at hn

/-! ### The theorem -/

/-- C27 (with C28, C31, and what holds of C33): if `new` succeeds, the server sent a ServerHello with version 3.3, suite 0xcca8 and null compression, a
Certificate, a ServerKeyExchange with a point that passed the curve check and ServerHelloDone, in handshake records in clear; then ChangeCipherSpec; then
handshake records that open under the server's keys; and the handshake bytes after ServerHelloDone are the server's Finished, with the value of the key
schedule. -/
theorem C27_flight_partial (m : Mode) (rd : Reader) (wr : Writer) (rng : Rng) (c : TlsClient) (h : TlsClient.new m rd wr rng = (.ok (), c)) :
    ∃ S clear prot a b protWire pre post, Completed m rd wr rng c S clear prot a b protWire pre post := by
  rw [new_of_handshake _ _ _ _ _ _ (by simp)] at h
  have ho := handshake_outcome m (fresh rd wr rng) (fresh_fresh rd wr rng)
  rw [h] at ho
  dsimp only at ho
  generalize hx : (Res.ok () : Res Unit) = x at ho
  cases ho with
  | noRandom => cases hx
  | helloLost => cases hx
  | flightFailed _ _ _ _ h3 => exact absurd hx.symm h3
  | secondLost => cases hx
  | sent cr rest f pub s1 s2 s3 s4 rng' c4 h1 h2 h3 h4 h5 h6 h7 h8 h9 h10 h11 h12 h13 =>
    subst hx
    obtain ⟨k1, k2, k3, k4⟩ := h4.keys_length h2
    have hd4 : c4.reader.decryptor = none := by rw [h5]; exact h3.same.1
    obtain ⟨t1, t2, r1, r2, rfl⟩ := readFinished_inv h4 h2 hd4 h8
    have w1 := write_serverHello (delivered_wf h3.hello).1 h3.check.1 h3.check.2.1 h3.check.2.2
    have w2 := write_certificate f.certs
    have w3 := write_obscure f.ske.data
    have w4 := write_serverHelloDone
    have w5 := (finished_eq _ (show (f.serverVerify cr pub).length = 12 from (delivered_wf r2).1)).2.1
    obtain ⟨rs1, T1, A1, M1⟩ := readMessage_inv h3.hello
    obtain ⟨rs2, T2, A2, M2⟩ := readMessage_inv h3.certs
    obtain ⟨rs3, T3, A3, M3⟩ := readMessage_inv h3.ske
    obtain ⟨rs4, T4, A4, M4⟩ := readMessage_inv h3.done
    obtain ⟨rs5, T5, pre5, ccs, rfl, A5, B5, C5, D5⟩ := readMessage_inv r1
    obtain ⟨rs6, T6, A6, M6⟩ := readMessage_inv r2
    have N1 := readMessage_needed h3.hello T1
    have N2 := readMessage_needed h3.certs T2
    have N3 := readMessage_needed h3.ske T3
    have N4 := readMessage_needed h3.done T4
    have N5 := readMessage_needed r1 T5
    have N6 := readMessage_needed r2 T6
    obtain ⟨j1, e1, i1⟩ := takes_bytes M1 w1
    obtain ⟨j2, e2, i2⟩ := takes_bytes M2 w2
    obtain ⟨j3, e3, i3⟩ := takes_bytes M3 w3
    obtain ⟨j4, e4, i4⟩ := takes_bytes M4 w4
    obtain ⟨j6, e6, i6⟩ := takes_bytes M6 w5
    have i2 := i2 (by simp [Spec.HasExtensionBlock])
    have i3 := i3 (by simp [Spec.HasExtensionBlock])
    have i4 := i4 (by simp [Spec.HasExtensionBlock])
    have i6 := i6 (by simp [Spec.HasExtensionBlock])
    subst i2 i3 i4 i6
    simp only [List.append_nil] at e2 e3 e4 e6
    have P1 := Took.plain T1 (by rfl)
    have d1 : s1.decryptor = none := (Took.same T1).1
    have P2 := Took.plain T2 d1
    have d2 : s2.decryptor = none := (Took.same T2).1.trans d1
    have P3 := Took.plain T3 d2
    have d3 : s3.decryptor = none := (Took.same T3).1.trans d2
    have P4 := Took.plain T4 d3
    have P5 := Took.plain T5 hd4
    have hiv : (keyed m t1 (f.keys cr).serverKey).iv = some (f.keys cr).serverIv := by
      show t1.iv = _
      rw [(Took.same T5).2, h5]
    obtain ⟨w, P6, hw⟩ := Took.opened (m := m) (key := (f.keys cr).serverKey) (iv := (f.keys cr).serverIv) k2 k4 T6 rfl hiv A6 0 rfl
    have hccs : recordBytes ccs.contentType.toU8 ccs.verMajor ccs.verMinor ccs.fragment = recordBytes 20 ccs.verMajor ccs.verMinor [1] := by
      rw [C5, ccsMessage_fragment D5]; rfl
    rw [h5] at P5
    have P5 : s4.reader.stream = _ := P5
    have P6 : t1.reader.stream = _ := P6
    obtain ⟨S, hS⟩ : ∃ S : Session, S = ⟨cr, f.hello.random.data, f.hello.sessionId.items, extBytes f.hello.extensions, j1, f.certs.items.map TlsVec.items, f.ske.data, pub, f.preMasterSecret⟩ := ⟨_, rfl⟩
    have hsrv : S.server = serverMessages f := by
      rw [serverMessages, bytesOf_eq w1, bytesOf_eq w2, bytesOf_eq w3, hS]; rfl
    have hmaster : S.master = f.master cr := by rw [hS]; rfl
    have hkeys : S.keys = f.keys cr := by rw [Session.keys, hmaster, hS]; rfl
    have hmsgs : S.messages = f.messages cr pub := by rw [Session.messages, hsrv, hS]; rfl
    have hcv : S.clientVerify = f.clientVerify cr pub := by rw [Session.clientVerify, hmsgs, hmaster]; rfl
    have hsv : S.serverVerify = f.serverVerify cr pub := by rw [Session.serverVerify, hmsgs, hmaster, hcv]; rfl
    have hpms : f.preMasterSecret.length = 32 := (C53_shape m _ _ _ _ _ h3.keys).2
    have B5 : t1.handshakeBuffer.buf = s4.handshakeBuffer.buf ++ frags pre5 := by
      rw [B5, h5]
    have hfin : t1.handshakeBuffer.buf ++ frags rs6 = finishedBytes (f.serverVerify cr pub) ++ t2.handshakeBuffer.buf := e6
    refine ⟨S, parts (rs1 ++ (rs2 ++ (rs3 ++ (rs4 ++ pre5)))), parts rs6, ccs.verMajor, ccs.verMinor, w, t1.handshakeBuffer.buf, t2.handshakeBuffer.buf, ?_⟩
    constructor
    · have A : AllHandshake (rs1 ++ (rs2 ++ (rs3 ++ (rs4 ++ pre5)))) := by
        intro r hr
        simp only [List.mem_append] at hr
        rcases hr with h | h | h | h | h
        · exact A1 r h
        · exact A2 r h
        · exact A3 r h
        · exact A4 r h
        · exact A5 r h
      rw [← parts_wire A]
      have P1 : rd.stream = _ := P1
      rw [P1, P2, P3, P4, P5, P6]
      simp only [List.flatMap_append, List.flatMap_cons, List.flatMap_nil, List.append_nil, hccs, ofBytes_append, List.append_assoc]
    · rw [hkeys]; exact hw
    · rw [parts_frags]
      simp only [frags_append]
      have e1 : frags rs1 = serverHelloBytes S.serverRandom S.sessionId (S.ext ++ S.junk) ++ s1.handshakeBuffer.buf := by
        rw [hS, serverHelloBytes, ← List.append_assoc]
        exact e1
      rw [e1, B5, List.append_assoc, ← List.append_assoc s1.handshakeBuffer.buf, e2, List.append_assoc, ← List.append_assoc s2.handshakeBuffer.buf, e3,
        List.append_assoc, ← List.append_assoc s3.handshakeBuffer.buf, e4, hS]
      simp only [Session.flight, List.append_assoc]
      rfl
    · rw [parts_frags, hsv]; exact hfin
    · exact finished_waits (show (f.serverVerify cr pub).length = 12 from (delivered_wf r2).1) hfin (readMessage_ccs r1)
    · refine ⟨rest, by rw [hS]; exact h1, ?_⟩
      have := h3.keys
      rw [h4.key] at this
      rw [hS]
      show _ = (_, c4.rng)
      rw [h6]
      exact this
    · rw [hsv, hS]
      exact ⟨h2, h4.random, ((wf_byteVec _).mp (delivered_wf h3.hello).1.2.1).2, h4.point, hpms, (delivered_wf r2).1⟩
    · rw [hS]
      intro he
      refine i1 ?_
      simp only [Spec.HasExtensionBlock, ne_eq, Decidable.not_not]
      show f.hello.extensions = none
      have he : extBytes f.hello.extensions = [] := he
      cases hx : f.hello.extensions with
      | none => rfl
      | some v =>
        rw [hx] at he
        have hv := extBytes_eq (some v)
        rw [he] at hv
        obtain ⟨bs, _, hb⟩ := Res.bind_eq_ok.mp (show (TlsVec.writeItems v.items >>= fun body => pure (writeNum 2 (TlsVec.sizes v.items) ++ body)) = Res.ok [] from hv)
        have := congrArg List.length (Res.ok.inj hb)
        rw [writeNum_eq] at this
        simp at this
    · rw [hS]; exact keyExchange_body h3.keys
    · rw [hkeys, hcv, hS]; exact h9
    · rfl
    · have hT6 := Took.same T6
      refine ⟨?_, ?_, ?_, ?_, ?_, h12, h7, ?_⟩
      · rw [hkeys]; exact hT6.1
      · rw [hkeys]; exact hT6.2.trans hiv
      · have := Took.numbers T6 0 rfl
        rw [Nat.zero_add] at this
        rw [parts, List.length_map]; exact this
      · rw [hkeys]; exact h10
      · rw [hkeys]; exact h11
      · rw [hkeys]; exact ⟨k1, k2, k3, k4⟩
    · exact h13
    · have z1 := takes_size M1 e1
      have z2 := takes_size M2 e2
      have z3 := takes_size M3 e3
      rw [hS]
      refine ⟨?_, ?_, z3⟩
      · simp only [serverHelloBytes, handshakeBytes, List.length_cons, List.length_append, beBytes_length] at z1 ⊢
        omega
      · simp only [certificateBytes, handshakeBytes, List.length_cons, List.length_append, beBytes_length] at z2 ⊢
        omega
    · have F5 := Took.fits T5 hd4
      intro r hr
      obtain ⟨rec, hrec, rfl⟩ := List.mem_map.mp hr
      simp only [List.mem_append] at hrec
      rcases hrec with h | h | h | h | h
      · exact Took.fits T1 (by rfl) rec h
      · exact Took.fits T2 d1 rec h
      · exact Took.fits T3 d2 rec h
      · exact Took.fits T4 d3 rec h
      · exact F5 rec (List.mem_append_left _ h)
    · intro r hr
      obtain ⟨rec, hrec, rfl⟩ := List.mem_map.mp hr
      exact T6.le rec hrec
    · rw [hS]
      exact extensions_of_wf (delivered_wf h3.hello).1.2.2
    · rw [hS]
      intro c hc
      obtain ⟨v, hv, rfl⟩ := List.mem_map.mp hc
      have := (delivered_wf h3.certs).1.1 v hv
      exact ((wf_byteVec _).mp this).1
    · intro r hr
      rw [parts, parts, ← List.map_append] at hr
      obtain ⟨rec, hrec, rfl⟩ := List.mem_map.mp hr
      simp only [List.mem_append] at hrec
      rcases hrec with (h | h | h | h | h) | h
      · exact N1.filled rec h (A1 rec h)
      · exact N2.filled rec h (A2 rec h)
      · exact N3.filled rec h (A3 rec h)
      · exact N4.filled rec h (A4 rec h)
      · exact N5.filled rec (List.mem_append_left _ h) (A5 rec h)
      · exact N6.filled rec h (A6 rec h)
    · intro hm
      have q1 := N1.number hm
      have q2 := N2.number hm
      have q3 := N3.number hm
      have q4 := N4.number hm
      have q5 := N5.number hm
      have q6 := N6.number hm
      have k0 : ((fresh rd wr rng).reader.readCount).toNat = 0 := rfl
      have k6 : (keyed m t1 (f.keys cr).serverKey).readCount.toNat = 0 := rfl
      have n1 := Took.numbers T1 0 rfl
      have n2 := Took.numbers T2 _ n1
      have n3 := Took.numbers T3 _ n2
      have n4 := Took.numbers T4 _ n3
      have k5 : c4.reader.readCount = s4.readCount := by rw [h5]
      have q1 : (fresh rd wr rng).reader.readCount.toNat + _ < _ := q1
      rw [k5, n4, List.length_append, List.length_singleton] at q5
      rw [n3] at q4
      rw [n2] at q3
      rw [n1] at q2
      simp only [parts, List.length_map, List.length_append]
      omega
    · obtain ⟨rs, r, hr⟩ : ∃ rs r, rs6 = rs ++ [r] := by
        rcases List.eq_nil_or_concat rs6 with h | ⟨rs, r, h⟩
        · have hl := (finished_eq _ (show (f.serverVerify cr pub).length = 12 from (delivered_wf r2).1)).2.2
          have := finished_waits (show (f.serverVerify cr pub).length = 12 from (delivered_wf r2).1) hfin (readMessage_ccs r1)
          have h2 := congrArg List.length hfin
          rw [h, List.length_append, List.length_append, hl] at h2
          simp [frags] at h2
          omega
        · exact ⟨rs, r, by rw [h]; simp⟩
      refine ⟨parts rs, (r.verMajor, r.verMinor, r.fragment), by rw [hr, parts, List.map_append]; rfl, ?_⟩
      rw [parts_frags]
      refine finished_waits (y := r.fragment) (post := t2.handshakeBuffer.buf) (show (f.serverVerify cr pub).length = 12 from (delivered_wf r2).1) ?_ (N6.waits rs r hr)
      rw [← hfin, hr, frags_append, List.append_assoc]
      simp [frags]

end Husk
