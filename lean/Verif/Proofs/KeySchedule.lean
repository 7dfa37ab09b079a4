import Verif.Model.Client
import Verif.Spec.Handshake
import Verif.Props.Prf
import Verif.Props.Util
import Verif.Props.Codec
/-! The key schedule, the Finished values and the messages the client builds are those of Spec/Handshake.lean. -/

namespace Husk

open Item Spec

namespace TlsClient

theorem prf_eq (m : Mode) (secret label seed : Bytes) (len : Nat) (hs : secret.length ≤ 64) (hd : (label ++ seed).length < 2 ^ 59) :
    ∃ p p', Prf.new m secret (label ++ seed) = .ok p ∧ Prf.getBytes m p len = .ok (tlsPrf secret label seed len, p') := by
  obtain ⟨p, p', h1, h2, _⟩ := prf_once m secret (label ++ seed) hs hd len
  exact ⟨p, p', h1, h2⟩

theorem tlsPrf_length (secret label seed : Bytes) (len : Nat) (hs : secret.length ≤ 64) (hd : (label ++ seed).length < 2 ^ 59) :
    (tlsPrf secret label seed len).length = len := by
  rw [tlsPrf, pHash, List.length_take, prfStream_length _ _ (prfBlock_length hs hd)]
  omega

theorem masterSecretLabel_eq : masterSecretLabel = ascii "master secret" := by decide
theorem keyExpansionLabel_eq : keyExpansionLabel = ascii "key expansion" := by decide
theorem clientFinishedLabel_eq : clientFinishedLabel = ascii "client finished" := by decide
theorem serverFinishedLabel_eq : serverFinishedLabel = ascii "server finished" := by decide

theorem masterSecret_eq (m : Mode) (pms cr sr : Bytes) (hp : pms.length ≤ 64) (hc : cr.length = 32) (hs : sr.length = 32) :
    masterSecret m pms cr sr = .ok (tlsMaster pms cr sr) := by
  have hl : (masterSecretLabel ++ (cr ++ sr)).length < 2 ^ 59 := by
    simp only [List.length_append, hc, hs, show masterSecretLabel.length = 13 from rfl]; decide
  obtain ⟨p, p', h1, h2⟩ := prf_eq m pms masterSecretLabel (cr ++ sr) 48 hp hl
  rw [masterSecret, List.append_assoc, h1, Res.bind_ok, h2, Res.bind_ok, tlsMaster, ← masterSecretLabel_eq]
  rfl

theorem tlsMaster_length (pms cr sr : Bytes) (hp : pms.length ≤ 64) (hc : cr.length = 32) (hs : sr.length = 32) : (tlsMaster pms cr sr).length = 48 := by
  apply tlsPrf_length _ _ _ _ hp
  rw [← masterSecretLabel_eq]
  simp only [List.length_append, hc, hs, show masterSecretLabel.length = 13 from rfl]; decide

theorem verifyData_eq (m : Mode) (master label msgs : Bytes) (hm : master.length ≤ 64) (hl : label.length ≤ 64) (hg : msgs.length < 2 ^ 61) :
    verifyData m master label msgs = .ok (verifyDataOf master label msgs) ∧ (verifyDataOf master label msgs).length = 12 := by
  have hsha : (Spec.Sha256.sha256 msgs).length = 32 := sha256_length _ hg
  have hd : (label ++ Spec.Sha256.sha256 msgs).length < 2 ^ 59 := by
    rw [List.length_append, hsha]; omega
  obtain ⟨p, p', h1, h2⟩ := prf_eq m master label (Spec.Sha256.sha256 msgs) 12 hm hd
  refine ⟨?_, tlsPrf_length _ _ _ _ hm hd⟩
  rw [verifyData, C40_sha256_eq m msgs hg, Res.bind_ok, h1, Res.bind_ok, show suite.verifyDataLen = 12 from rfl, h2, Res.bind_ok]
  rfl

/-- The calls of the key expansion. -/
theorem expand_eq (m : Mode) (master cr sr : Bytes) (hm : master.length ≤ 64) (hc : cr.length = 32) (hs : sr.length = 32) :
    ∃ p0 p1 p2 p3 p4, Prf.new m master (keyExpansionLabel ++ sr ++ cr) = .ok p0 ∧
      Prf.getBytes m p0 32 = .ok ((keysOf master cr sr).clientKey, p1) ∧ Prf.getBytes m p1 32 = .ok ((keysOf master cr sr).serverKey, p2) ∧
      Prf.getBytes m p2 12 = .ok ((keysOf master cr sr).clientIv, p3) ∧ Prf.getBytes m p3 12 = .ok ((keysOf master cr sr).serverIv, p4) ∧
      (keysOf master cr sr).clientKey.length = 32 ∧ (keysOf master cr sr).serverKey.length = 32 ∧
      (keysOf master cr sr).clientIv.length = 12 ∧ (keysOf master cr sr).serverIv.length = 12 := by
  have hl : (keyExpansionLabel ++ (sr ++ cr)).length < 2 ^ 59 := by
    simp only [List.length_append, hc, hs, show keyExpansionLabel.length = 13 from rfl]; decide
  obtain ⟨p0, h0, i0⟩ := new_spec hm hl m
  obtain ⟨p1, h1, i1⟩ := getBytes_spec hm hl m 32 0 p0 i0
  obtain ⟨p2, h2, i2⟩ := getBytes_spec hm hl m 32 _ p1 i1
  obtain ⟨p3, h3, i3⟩ := getBytes_spec hm hl m 12 _ p2 i2
  obtain ⟨p4, h4, i4⟩ := getBytes_spec hm hl m 12 _ p3 i3
  have hbl := prfBlock_length hm hl
  have hpl : ∀ len, (pHash (hmacSpec master) (keyExpansionLabel ++ (sr ++ cr)) len).length = len := by
    intro len
    rw [pHash, List.length_take, prfStream_length _ _ hbl]; omega
  have key : ∀ n len, n + len ≤ 88 → (pHash (hmacSpec master) (keyExpansionLabel ++ (sr ++ cr)) (n + len)).drop n =
      ((keyBlock master cr sr).drop n).take len := by
    intro n len h
    have e : keyBlock master cr sr = pHash (hmacSpec master) (keyExpansionLabel ++ (sr ++ cr)) 88 := by
      rw [keyBlock, tlsPrf, ← keyExpansionLabel_eq]
    rw [e, pHash, pHash, prfStream_take _ _ hbl (n := n + len) (n' := 88) (len := n + len) (by omega) (by omega), List.drop_take, List.drop_take, List.take_take]
    congr 1
    omega
  have hkl : (keyBlock master cr sr).length = 88 := by
    rw [keyBlock, tlsPrf, ← keyExpansionLabel_eq]; exact hpl 88
  refine ⟨p0, p1, p2, p3, p4, ?_, ?_, ?_, ?_, ?_, ?_, ?_, ?_, ?_⟩
  · rw [List.append_assoc]; exact h0
  · rw [h1, key 0 32 (by decide)]; rfl
  · rw [h2, key (0 + 32) 32 (by decide)]; rfl
  · rw [h3, key (0 + 32 + 32) 12 (by decide)]; rfl
  · rw [h4, key (0 + 32 + 32 + 12) 12 (by decide)]; rfl
  all_goals simp [keysOf, hkl]

/-- `installKeys` from a client whose record layers have no keys yet. -/
theorem installKeys_eq (m : Mode) (master cr sr : Bytes) (hm : master.length ≤ 64) (hc : cr.length = 32) (hs : sr.length = 32) (c : TlsClient)
    (h1 : c.writer.encryptor = none) (h2 : c.writer.iv = none) (h3 : c.reader.iv = none) :
    (installKeys m master cr sr).run c = (.ok (keysOf master cr sr).serverKey,
      { c with
        writer := { c.writer with encryptor := some (.chacha m (keysOf master cr sr).clientKey), writeCount := 0, iv := some (keysOf master cr sr).clientIv }
        reader := { c.reader with iv := some (keysOf master cr sr).serverIv } }) := by
  obtain ⟨p0, p1, p2, p3, p4, e0, e1, e2, e3, e4, _⟩ := expand_eq m master cr sr hm hc hs
  rw [installKeys, e0, St.bind_of_ok (St.lift_run _ _), Aead.KEY_LEN, e1, St.bind_of_ok (St.lift_run _ _),
    St.bind_of_ok (s' := { c with writer := { c.writer with encryptor := some (.chacha m (keysOf master cr sr).clientKey), writeCount := 0 } }) (a := ())]
  · rw [e2, St.bind_of_ok (St.lift_run _ _)]
    dsimp only
    rw [e3, St.bind_of_ok (St.lift_run _ _)]
    dsimp only
    rw [e4, St.bind_of_ok (St.lift_run _ _)]
    simp only [St.bind_run, onWriter, onReader, St.zoom_run, TlsWriter.setIv, TlsReader.setIv, h2, h3, St.pure_run]
  · simp only [onWriter, St.zoom_run, TlsWriter.setEncryptor, h1]

/-- The extension block of the ClientHello. -/
def helloExtensions : ExtensionVec := ⟨[.elliptic_curves ⟨[.secp256r1]⟩, .ec_point_formats ⟨[.uncompressed]⟩,
  .signature_algorithms ⟨[{ signature := .rsa, hash := .sha256 }]⟩]⟩

/-- The ClientHello as a message. -/
def helloMessage (cr : Bytes) : Handshake := .client_hello
  { clientVersion := ⟨3, 3⟩, random := ⟨cr⟩, sessionId := ⟨[]⟩, cipherSuites := ⟨[suite]⟩, compressionMethods := ⟨[.null]⟩, extensions := some helloExtensions }

theorem clientHello_eq (cr : Bytes) (h : cr.length = 32) :
    clientHello cr = .ok (helloMessage cr) ∧ TlsItem.write (helloMessage cr) = .ok (clientHelloBytes cr) ∧ (clientHelloBytes cr).length = 69 := by
  have hn : TlsArray.new 32 cr = .ok ⟨cr⟩ := by simp [TlsArray.new, h]
  refine ⟨?_, ?_, ?_⟩
  · rw [clientHello, hn]; rfl
  · have e1 : TlsItem.write (some helloExtensions) = .ok ([0, 22] ++ [0, 10, 0, 4, 0, 2, 0, 23] ++ [0, 11, 0, 2, 1, 0] ++ [0, 13, 0, 4, 0, 2, 4, 1]) := by
      decide +kernel
    have e2 : TlsItem.write (⟨[]⟩ : SessionId) = .ok [0] := by decide +kernel
    have e3 : TlsItem.write (⟨[suite]⟩ : CipherSuiteVec) = .ok [0, 2, 0xcc, 0xa8] := by decide +kernel
    have e4 : TlsItem.write (⟨[.null]⟩ : CompressionMethodVec) = .ok [1, 0] := by decide +kernel
    have e5 : TlsItem.write (⟨3, 3⟩ : ProtocolVersion) = .ok [3, 3] := by decide +kernel
    show Handshake.writeBody 1 _ = _
    rw [Handshake.writeBody]
    have e6 : TlsItem.write (⟨⟨3, 3⟩, ⟨cr⟩, ⟨[]⟩, ⟨[suite]⟩, ⟨[.null]⟩, some helloExtensions⟩ : ClientHello) =
        .ok ([3, 3] ++ (cr ++ ([0] ++ ([0, 2, 0xcc, 0xa8] ++ ([1, 0] ++ ([0, 22] ++ [0, 10, 0, 4, 0, 2, 0, 23] ++ [0, 11, 0, 2, 1, 0] ++ [0, 13, 0, 4, 0, 2, 4, 1])))))) := by
      show (do
        let b1 ← TlsItem.write (⟨3, 3⟩ : ProtocolVersion)
        let b2 ← TlsItem.write (⟨cr⟩ : Random)
        let b3 ← TlsItem.write (⟨[]⟩ : SessionId)
        let b4 ← TlsItem.write (⟨[suite]⟩ : CipherSuiteVec)
        let b5 ← TlsItem.write (⟨[.null]⟩ : CompressionMethodVec)
        let b6 ← TlsItem.write (some helloExtensions)
        return b1 ++ (b2 ++ (b3 ++ (b4 ++ (b5 ++ b6))))) = _
      rw [e5, Res.bind_ok, show TlsItem.write (⟨cr⟩ : Random) = .ok cr from rfl, Res.bind_ok, e2, Res.bind_ok, e3, Res.bind_ok, e4, Res.bind_ok, e1, Res.bind_ok]
      rfl
    rw [e6, Res.bind_ok]
    simp only [clientHelloBytes, handshakeBytes, List.length_append, h, List.append_assoc]
    rfl
  · simp [clientHelloBytes, handshakeBytes, h]

theorem finished_eq (vd : Bytes) (h : vd.length = 12) : Handshake.newFinished vd = .ok (.finished ⟨vd⟩) ∧
    TlsItem.write (Handshake.finished ⟨vd⟩) = .ok (finishedBytes vd) ∧ (finishedBytes vd).length = 16 := by
  refine ⟨?_, ?_, ?_⟩
  · simp only [Handshake.newFinished, TlsArray.new, h, ne_eq, not_true_eq_false, if_false]; rfl
  · simp only [finishedBytes, handshakeBytes, h]; rfl
  · simp [finishedBytes, handshakeBytes, h]

theorem clientKeyExchange_eq (pub : Bytes) (h : pub.length = 65) : Handshake.newClientKeyExchange (65 :: pub) = .ok (.client_key_exchange ⟨65 :: pub⟩) ∧
    TlsItem.write (Handshake.client_key_exchange ⟨65 :: pub⟩) = .ok (clientKeyExchangeBytes pub) ∧ (clientKeyExchangeBytes pub).length = 70 := by
  refine ⟨rfl, ?_, ?_⟩
  · simp only [clientKeyExchangeBytes, handshakeBytes, h, List.length_cons]
    show Handshake.writeBody 16 _ = _
    simp only [Handshake.writeBody, TlsItem.write, TlsItem.size, List.length_cons, h]
    rfl
  · simp [clientKeyExchangeBytes, handshakeBytes, h]

theorem checkServerHello_eq (sh : ServerHello) : checkServerHello sh =
    if sh.serverVersion = ⟨3, 3⟩ ∧ sh.cipherSuite = .TLS_ECDHE_RSA_WITH_CHACHA20_POLY1305_SHA256 ∧ sh.compressionMethod = .null then .ok () else .err .IllegalParameter := by
  obtain ⟨⟨a, b⟩, _, _, cs, cm, _⟩ := sh
  simp only [checkServerHello, suite, TLS_VERSION, Prod.mk.injEq, ProtocolVersion.mk.injEq, ne_eq]
  by_cases h1 : a = 3 ∧ b = 3
  · by_cases h2 : cs = .TLS_ECDHE_RSA_WITH_CHACHA20_POLY1305_SHA256
    · by_cases h3 : cm = .null <;> simp [h1, h2, h3]
    · simp [h1, h2]
  · simp [h1]

end TlsClient
end Husk
