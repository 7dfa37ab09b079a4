import Verif.Model.Tls
import Verif.Model.Prf
import Verif.Model.Ecdhe
/-! Model of src/client.rs. `from_tcp` (274-286) only clones the socket and calls `new`; the accessors `reader`, `writer` (43-51) are
field accesses. `io::Error` values built by `write_all` carry the `TlsError` as cause; the model keeps its kind. -/

namespace Husk

/-- `TlsClient`, src/client.rs:19-24. -/
structure TlsClient where
  reader : TlsReader
  writer : TlsWriter
  rng : Rng
  buf : Bytes := []

namespace TlsClient

/-- A call on the field `reader`. -/
def onReader (x : St TlsReader α) : St TlsClient α := St.zoom (·.reader) (fun r c => { c with reader := r }) x
/-- A call on the field `writer`. -/
def onWriter (x : St TlsWriter α) : St TlsClient α := St.zoom (·.writer) (fun w c => { c with writer := w }) x
/-- A call on the field `rng`. -/
def onRng (x : St Rng α) : St TlsClient α := St.zoom (·.rng) (fun r c => { c with rng := r }) x

/-! ### Handshake -/

/-- The suite the client offers, src/client.rs:73. -/
def suite : CipherSuite := .TLS_ECDHE_RSA_WITH_CHACHA20_POLY1305_SHA256

/-- The ClientHello, src/client.rs:70-90. -/
def clientHello (cliRandom : Bytes) : Res Handshake := do
  let random ← TlsArray.new 32 cliRandom
  let curveList ← Extension.newEllipticCurveList [.secp256r1]
  let formatList ← Extension.newEcPointFormats [.uncompressed]
  let signatureList ← Extension.newSignatureAlgorithmList [{ signature := .rsa, hash := .sha256 }]
  Handshake.newClientHello random suite [curveList, formatList, signatureList]

/-- `expect!(server_hello)`, src/client.rs:56-63, 93. -/
def expectServerHello (m : Mode) : St TlsReader ServerHello := do
  match ← TlsReader.readHandshake m with
  | .server_hello data => return data
  | _ => St.err .UnexpectedMessage

/-- `expect!(certificate)`, src/client.rs:56-63, 124. -/
def expectCertificate (m : Mode) : St TlsReader CertificateList := do
  match ← TlsReader.readHandshake m with
  | .certificate data => return data
  | _ => St.err .UnexpectedMessage

/-- `expect!(server_key_exchange)`, src/client.rs:56-63, 128. -/
def expectServerKeyExchange (m : Mode) : St TlsReader ObscureData := do
  match ← TlsReader.readHandshake m with
  | .server_key_exchange data => return data
  | _ => St.err .UnexpectedMessage

/-- `expect!(server_hello_done)`, src/client.rs:56-63, 132. -/
def expectServerHelloDone (m : Mode) : St TlsReader DummyItem := do
  match ← TlsReader.readHandshake m with
  | .server_hello_done data => return data
  | _ => St.err .UnexpectedMessage

/-- `expect!(finished)`, src/client.rs:56-63, 218. -/
def expectFinished (m : Mode) : St TlsReader VerifyData := do
  match ← TlsReader.readHandshake m with
  | .finished data => return data
  | _ => St.err .UnexpectedMessage

/-- The checks of the ServerHello, src/client.rs:94-121. -/
def checkServerHello (data : ServerHello) : Res Unit :=
  if (data.serverVersion.major, data.serverVersion.minor) ≠ TLS_VERSION then .err .IllegalParameter
  else if data.cipherSuite ≠ suite then .err .IllegalParameter
  else if data.compressionMethod ≠ .null then .err .IllegalParameter
  else .ok ()

/-- `b"master secret"`, src/client.rs:141. -/
def masterSecretLabel : Bytes := [0x6d, 0x61, 0x73, 0x74, 0x65, 0x72, 0x20, 0x73, 0x65, 0x63, 0x72, 0x65, 0x74]
/-- `b"key expansion"`, src/client.rs:153. -/
def keyExpansionLabel : Bytes := [0x6b, 0x65, 0x79, 0x20, 0x65, 0x78, 0x70, 0x61, 0x6e, 0x73, 0x69, 0x6f, 0x6e]
/-- `b"client finished"`, src/client.rs:201. -/
def clientFinishedLabel : Bytes := [0x63, 0x6c, 0x69, 0x65, 0x6e, 0x74, 0x20, 0x66, 0x69, 0x6e, 0x69, 0x73, 0x68, 0x65, 0x64]
/-- `b"server finished"`, src/client.rs:231. -/
def serverFinishedLabel : Bytes := [0x73, 0x65, 0x72, 0x76, 0x65, 0x72, 0x20, 0x66, 0x69, 0x6e, 0x69, 0x73, 0x68, 0x65, 0x64]

/-- The master secret, src/client.rs:140-147. -/
def masterSecret (m : Mode) (preMasterSecret cliRandom serverRandom : Bytes) : Res Bytes := do
  let prf ← Prf.new m preMasterSecret (masterSecretLabel ++ cliRandom ++ serverRandom)
  let (ms, _) ← Prf.getBytes m prf 48
  return ms

/-- The two Finished values, src/client.rs:200-207 and 230-237. -/
def verifyData (m : Mode) (master label msgs : Bytes) : Res Bytes := do
  let verifyHash ← Sha2.sha256 m msgs
  let prf ← Prf.new m master (label ++ verifyHash)
  let (vd, _) ← Prf.getBytes m prf suite.verifyDataLen
  return vd

/-- The block that expands the keys, src/client.rs:152-177: installs the encryptor and the IVs, returns the read key. -/
def installKeys (m : Mode) (master cliRandom serverRandom : Bytes) : St TlsClient Bytes := do
  let prf ← St.lift (Prf.new m master (keyExpansionLabel ++ serverRandom ++ cliRandom))
  let (writeKey, prf) ← St.lift (Prf.getBytes m prf Aead.KEY_LEN)
  onWriter (TlsWriter.setEncryptor (.chacha m writeKey))
  let (readKey, prf) ← St.lift (Prf.getBytes m prf Aead.KEY_LEN)
  let (writeIv, prf) ← St.lift (Prf.getBytes m prf 12)
  let (readIv, _) ← St.lift (Prf.getBytes m prf 12)
  onWriter (TlsWriter.setIv writeIv)
  onReader (TlsReader.setIv readIv)
  return readKey

/-- The transcript, src/client.rs:180-189: the messages are serialised again. -/
def transcript (clientHello : Handshake) (sh : ServerHello) (certs : CertificateList) (ske : ObscureData) (cke : Handshake) : Res Bytes := do
  let b1 ← TlsItem.write clientHello
  let b2 ← TlsItem.write (Handshake.server_hello sh)
  let b3 ← TlsItem.write (Handshake.certificate certs)
  let b4 ← TlsItem.write (Handshake.server_key_exchange ske)
  let b5 ← TlsItem.write (Handshake.server_hello_done {})
  let b6 ← TlsItem.write cke
  return b1 ++ (b2 ++ (b3 ++ (b4 ++ (b5 ++ b6))))

/-- The check of the server's Finished, src/client.rs:219-243. -/
def checkFinished (m : Mode) (master msgs : Bytes) (finished : Handshake) (serverFinished : VerifyData) : Res Unit := do
  let b ← TlsItem.write finished
  let serverVerifyData ← verifyData m master serverFinishedLabel (msgs ++ b)
  let verifyOk ← Util.cryptoCompare m serverFinished.data serverVerifyData
  if verifyOk then return () else .err .DecryptError

/-- The first flight, src/client.rs:65-91: the client random and the ClientHello, which is sent. -/
def sendHello (m : Mode) : St TlsClient (Bytes × Handshake) := do
  let cliRandom ← onRng (Rng.fillBytes 32)
  let hello ← St.lift (clientHello cliRandom)
  onWriter (TlsWriter.writeHandshake m hello)
  return (cliRandom, hello)

/-- What the server's first flight (src/client.rs:93-132) leaves for the rest. -/
structure ServerFlight where
  hello : ServerHello
  certs : CertificateList
  ske : ObscureData
  keyData : Bytes
  preMasterSecret : Bytes

/-- The server's first flight, src/client.rs:93-132. The keys are computed before ServerHelloDone is read. -/
def readFlight (m : Mode) : St TlsClient ServerFlight := do
  let hello ← onReader (expectServerHello m)
  St.lift (checkServerHello hello)
  let certs ← onReader (expectCertificate m)
  let ske ← onReader (expectServerKeyExchange m)
  let (keyData, preMasterSecret) ← onRng (Ecdhe.computeKeys m ske.data)
  let _ ← onReader (expectServerHelloDone m)
  return { hello, certs, ske, keyData, preMasterSecret }

/-- The client's second flight, src/client.rs:134-209: ClientKeyExchange, ChangeCipherSpec, the key change and Finished. Returns the
master secret, the read key, the transcript so far and the client's Finished. -/
def sendFinished (m : Mode) (cliRandom : Bytes) (hello : Handshake) (f : ServerFlight) : St TlsClient (Bytes × Bytes × Bytes × Handshake) := do
  let cke ← St.lift (Handshake.newClientKeyExchange f.keyData)
  onWriter (TlsWriter.writeHandshake m cke)
  onWriter (TlsWriter.writeChangeCipherSpec m)
  let master ← St.lift (masterSecret m f.preMasterSecret cliRandom f.hello.random.data)
  let readKey ← installKeys m master cliRandom f.hello.random.data
  let msgs ← St.lift (transcript hello f.hello f.certs f.ske cke)
  let clientVerifyData ← St.lift (verifyData m master clientFinishedLabel msgs)
  let finished ← St.lift (Handshake.newFinished clientVerifyData)
  onWriter (TlsWriter.writeHandshake m finished)
  return (master, readKey, msgs, finished)

/-- The server's second flight, src/client.rs:213-243. -/
def readFinished (m : Mode) (master readKey msgs : Bytes) (finished : Handshake) : St TlsClient Unit := do
  onReader (TlsReader.readChangeCipherSpec m)
  onReader (TlsReader.setDecryptor (.chacha m readKey))
  let serverFinished ← onReader (expectFinished m)
  St.lift (checkFinished m master msgs finished serverFinished)

/-- `handshake`, src/client.rs:54-246. -/
def handshake (m : Mode) : St TlsClient Unit := do
  let (cliRandom, hello) ← sendHello m
  let flight ← readFlight m
  let (master, readKey, msgs, finished) ← sendFinished m cliRandom hello flight
  readFinished m master readKey msgs finished

/-- `send_tls_alert`, src/client.rs:259-271: the error to return. -/
def sendTlsAlert (m : Mode) (k : TlsErrorKind) : St TlsClient TlsErrorKind := ⟨fun c =>
  match k with
  | .IoFailure => (.ok k, c)
  | _ =>
    match (onWriter (TlsWriter.writeAlert m (Alert.fromTlsErr k))).run c with
    | (.ok (), c) => (.ok k, c)
    | (.err k', c) => (.ok k', c)
    | (.panic, c) => (.panic, c)
    | (.diverge, c) => (.diverge, c)⟩

/-- `TlsClient::new`, src/client.rs:27-41. On failure the client is dropped; the model keeps it, to speak about what was sent. -/
def new (m : Mode) (reader : Reader) (writer : Writer) (rng : Rng) : Res Unit × TlsClient :=
  let client : TlsClient := { reader := TlsReader.new reader, writer := TlsWriter.new writer, rng }
  match (handshake m).run client with
  | (.err k, client) => (sendTlsAlert m k >>= fun k' => St.err k').run client
  | (r, client) => (r, client)

/-- `close`, src/client.rs:248-255. -/
def close (m : Mode) : St TlsClient Unit := onWriter (TlsWriter.writeAlert m { level := .fatal, description := .close_notify })

/-! ### Application data -/

/-- `write_all`, src/client.rs:299-315. -/
def writeAll (m : Mode) (buf : Bytes) : St TlsClient Unit := ⟨fun c =>
  match (onWriter (TlsWriter.writeApplicationData m buf)).run c with
  | (.err k, c) => (sendTlsAlert m k >>= fun k' => St.err k').run c
  | (r, c) => (r, c)⟩

/-- `write`, src/client.rs:290-293. -/
def write (m : Mode) (buf : Bytes) : St TlsClient Nat := do
  writeAll m buf
  return buf.length

/-- `flush`, src/client.rs:295-297. -/
def flush : St TlsClient Unit := pure ()

/-- The `if self.buf.is_empty()` of `read`, src/client.rs:330-338; `false` is the `break`. -/
def refill (m : Mode) : St TlsClient Bool := ⟨fun c =>
  if c.buf.isEmpty then
    match (onReader (TlsReader.readApplicationData m)).run c with
    | (.ok data, c) => (.ok true, { c with buf := c.buf ++ data })
    | (.err _, c) => (.ok false, c)
    | (.panic, c) => (.panic, c)
    | (.diverge, c) => (.diverge, c)
  else (.ok true, c)⟩

/-- The loop of `read`, src/client.rs:328-345, with `remaining = len - pos`; the bytes copied so far are in `acc`. Every round copies a byte
or takes a record of at least five bytes from the transport; running out of fuel is `diverge` (proved impossible). -/
def readLoop (m : Mode) : (fuel : Nat) → (remaining : Nat) → Bytes → St TlsClient Bytes
  | fuel, remaining, acc =>
    if remaining = 0 then pure acc
    else match fuel with
      | 0 => St.lift .diverge
      | fuel + 1 => do
        if ← refill m then do
          let c ← St.get
          let necessary := min remaining c.buf.length
          St.modify fun c => { c with buf := c.buf.drop necessary }
          readLoop m fuel (remaining - necessary) (acc ++ c.buf.take necessary)
        else return acc

/-- `read`, src/client.rs:325-349, with a buffer of `len` bytes. The result is the part of the buffer that was filled, `buf[..pos]`
(the Rust function returns `pos`; the rest of the buffer is left alone). -/
def read (m : Mode) (len : Nat) : St TlsClient Bytes := do
  let c ← St.get
  readLoop m (len + c.reader.reader.bytes + 1) len []

end TlsClient

end Husk
