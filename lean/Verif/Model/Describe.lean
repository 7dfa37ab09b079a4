import Verif.Model.Client
/-! The field `desc` of `TlsError` (src/tls_result.rs:21-25), which the other models leave out: the texts given to `tls_err!` in `read_message`, `read_handshake`,
`read_change_cipher_spec` (src/tls.rs) and in `handshake` (src/client.rs). A text made by `format!` is kept as the values that are printed; the printing itself is not modelled.
The texts of the other errors (i/o, the record layer, the codec, the key exchange) are not modelled and are `none`. -/

namespace Husk

/-- The texts, by the place they are made at. -/
inductive Desc
  /-- A fixed text. -/
  | text (s : String)
  /-- `"alert: {:?}"` with the name of the description, src/tls.rs:417. -/
  | alert (d : AlertDescription)
  /-- `"unknown alert: {:?}"` with the bytes of the record, src/tls.rs:369-373. -/
  | unknownAlert (fragment : Bytes)
  /-- `"wrong server version: {} {}"`, src/client.rs:97-102. -/
  | serverVersion (major minor : UInt8)
  /-- `"cipher suite mismatch: found {:?}"`, src/client.rs:105-110. -/
  | cipherSuite (c : CipherSuite)
deriving DecidableEq

/-- A function that may fail, with the text of its error: `st` is the function without the text. -/
structure DSt (σ α : Type) where
  st : St σ α
  desc : σ → Option Desc

namespace DSt

/-- A function whose texts are not modelled. -/
def plain (x : St σ α) : DSt σ α := ⟨x, fun _ => none⟩
/-- `tls_err!(kind, text)`, src/macros.rs:1-5 and src/tls_result.rs:27-34. -/
def fail (k : TlsErrorKind) (d : Desc) : DSt σ α := ⟨St.err k, fun _ => some d⟩
def pure (a : α) : DSt σ α := plain (Pure.pure a)

/-- `x?` followed by `f`: the error of `x` is passed on with its text. -/
def bind (x : DSt σ α) (f : α → DSt σ β) : DSt σ β :=
  ⟨x.st >>= fun a => (f a).st, fun s =>
    match x.st.run s with
    | (.ok a, s') => (f a).desc s'
    | _ => x.desc s⟩

instance : Monad (DSt σ) where
  pure := DSt.pure
  bind := DSt.bind

/-- A call on a part of the state. -/
def zoom (get : τ → σ) (put : σ → τ → τ) (x : DSt σ α) : DSt τ α := ⟨St.zoom get put x.st, fun t => x.desc (get t)⟩

end DSt

namespace TlsReader

/-- The arm for `ChangeCipherSpecTy` with its text, src/tls.rs:348-353. -/
def ccsMessageD (fragment : Bytes) : DSt TlsReader Message :=
  if fragment.length ≠ 1 ∨ fragment.getD 0 0 ≠ 1 then DSt.fail .UnexpectedMessage (.text "invalid ChangeCipherSpec arrived") else Pure.pure .ChangeCipherSpecMessage

/-- The arm for `AlertTy` with its texts, src/tls.rs:354-376. -/
def alertMessageD (fragment : Bytes) : DSt TlsReader Message :=
  if fragment.length = 0 then DSt.fail .UnexpectedMessage (.text "zero-length Alert record arrived")
  else if fragment.length < 2 then DSt.fail .UnexpectedMessage (.text "awkward Alert record arrived")
  else
    let level : Option AlertLevel := TlsEnum.ofCode (fragment.getD 0 0).toNat
    let desc : Option AlertDescription := TlsEnum.ofCode (fragment.getD 1 0).toNat
    match level, desc with
    | some level, some desc => do
      let a ← DSt.plain (St.lift (Alert.new level desc))
      return .AlertMessage a
    | _, _ => DSt.fail .UnexpectedMessage (.unknownAlert fragment)

/-- The body of the loop of `read_message` with its texts, src/tls.rs:346-390. -/
def messageStepD (m : Mode) : DSt TlsReader (Option Message) := do
  let record ← DSt.plain (readRecord m)
  match record.contentType with
  | .ChangeCipherSpecTy => do
    let msg ← ccsMessageD record.fragment
    return some msg
  | .AlertTy => do
    let msg ← alertMessageD record.fragment
    return some msg
  | .HandshakeTy =>
    if record.fragment.isEmpty then DSt.fail .UnexpectedMessage (.text "zero-length Handshake arrived")
    else do
      DSt.plain (onBuffer (HandshakeBuffer.addRecord record.fragment))
      let msg ← DSt.plain (onBuffer HandshakeBuffer.getMessage)
      match msg with
      | some h => return some (.HandshakeMessage h)
      | none => return none
  | .ApplicationDataTy => return some (.ApplicationDataMessage record.fragment)

/-- The loop of `read_message` with its texts, src/tls.rs:342-391. -/
def messageLoopD (m : Mode) : (fuel : Nat) → DSt TlsReader Message
  | 0 => DSt.plain (St.lift .diverge)
  | fuel + 1 => do
    match ← messageStepD m with
    | some msg => return msg
    | none => messageLoopD m fuel

/-- `read_message` with its texts, src/tls.rs:336-392. -/
def readMessageD (m : Mode) : DSt TlsReader Message := do
  match ← DSt.plain (onBuffer HandshakeBuffer.getMessage) with
  | some h => return .HandshakeMessage h
  | none => do
    let s ← DSt.plain St.get
    messageLoopD m (s.reader.bytes + 1)

/-- `read_handshake` with its texts, src/tls.rs:414-420. -/
def readHandshakeD (m : Mode) : DSt TlsReader Handshake := do
  match ← readMessageD m with
  | .HandshakeMessage h => return h
  | .AlertMessage a => DSt.fail .AlertReceived (.alert a.description)
  | _ => DSt.fail .UnexpectedMessage (.text "expected Handshake")

/-- `read_change_cipher_spec` with its texts, src/tls.rs:422-430. -/
def readChangeCipherSpecD (m : Mode) : DSt TlsReader Unit := do
  match ← readMessageD m with
  | .ChangeCipherSpecMessage => return ()
  | .AlertMessage _ => DSt.fail .UnexpectedMessage (.text "expected ChangeCipherSpec, get alert")
  | _ => DSt.fail .UnexpectedMessage (.text "expected ChangeCipherSpec")

end TlsReader

namespace TlsClient

/-- A call on the field `reader`. -/
def onReaderD (x : DSt TlsReader α) : DSt TlsClient α := DSt.zoom (·.reader) (fun r c => { c with reader := r }) x

/-- The failure of `expect!`, src/client.rs:60. -/
def unexpectedD : DSt TlsReader α := DSt.fail .UnexpectedMessage (.text "unexpected handshake message found")

/-- `expect!(server_hello)` with its texts, src/client.rs:56-63, 93. -/
def expectServerHelloD (m : Mode) : DSt TlsReader ServerHello := do
  match ← TlsReader.readHandshakeD m with
  | .server_hello data => return data
  | _ => unexpectedD

/-- `expect!(certificate)` with its texts, src/client.rs:56-63, 124. -/
def expectCertificateD (m : Mode) : DSt TlsReader CertificateList := do
  match ← TlsReader.readHandshakeD m with
  | .certificate data => return data
  | _ => unexpectedD

/-- `expect!(server_key_exchange)` with its texts, src/client.rs:56-63, 128. -/
def expectServerKeyExchangeD (m : Mode) : DSt TlsReader ObscureData := do
  match ← TlsReader.readHandshakeD m with
  | .server_key_exchange data => return data
  | _ => unexpectedD

/-- `expect!(server_hello_done)` with its texts, src/client.rs:56-63, 132. -/
def expectServerHelloDoneD (m : Mode) : DSt TlsReader DummyItem := do
  match ← TlsReader.readHandshakeD m with
  | .server_hello_done data => return data
  | _ => unexpectedD

/-- `expect!(finished)` with its texts, src/client.rs:56-63, 218. -/
def expectFinishedD (m : Mode) : DSt TlsReader VerifyData := do
  match ← TlsReader.readHandshakeD m with
  | .finished data => return data
  | _ => unexpectedD

/-- The checks of the ServerHello with their texts, src/client.rs:94-121. -/
def checkServerHelloD (data : ServerHello) : DSt TlsClient Unit :=
  if (data.serverVersion.major, data.serverVersion.minor) ≠ TLS_VERSION then DSt.fail .IllegalParameter (.serverVersion data.serverVersion.major data.serverVersion.minor)
  else if data.cipherSuite ≠ suite then DSt.fail .IllegalParameter (.cipherSuite data.cipherSuite)
  else if data.compressionMethod ≠ .null then DSt.fail .IllegalParameter (.text "compression method mismatch")
  else Pure.pure ()

/-- The check of the server's Finished with its text, src/client.rs:219-243. -/
def checkFinishedD (m : Mode) (master msgs : Bytes) (finished : Handshake) (serverFinished : VerifyData) : DSt TlsClient Unit := do
  let b ← DSt.plain (St.lift (TlsItem.write finished))
  let serverVerifyData ← DSt.plain (St.lift (verifyData m master serverFinishedLabel (msgs ++ b)))
  let verifyOk ← DSt.plain (St.lift (Util.cryptoCompare m serverFinished.data serverVerifyData))
  if verifyOk then return () else DSt.fail .DecryptError (.text "server sent wrong verify data")

/-- The server's first flight with its texts, src/client.rs:93-132. -/
def readFlightD (m : Mode) : DSt TlsClient ServerFlight := do
  let hello ← onReaderD (expectServerHelloD m)
  checkServerHelloD hello
  let certs ← onReaderD (expectCertificateD m)
  let ske ← onReaderD (expectServerKeyExchangeD m)
  let (keyData, preMasterSecret) ← DSt.plain (onRng (Ecdhe.computeKeys m ske.data))
  let _ ← onReaderD (expectServerHelloDoneD m)
  return { hello, certs, ske, keyData, preMasterSecret }

/-- The server's second flight with its texts, src/client.rs:213-243. -/
def readFinishedD (m : Mode) (master readKey msgs : Bytes) (finished : Handshake) : DSt TlsClient Unit := do
  onReaderD (TlsReader.readChangeCipherSpecD m)
  DSt.plain (onReader (TlsReader.setDecryptor (.chacha m readKey)))
  let serverFinished ← onReaderD (expectFinishedD m)
  checkFinishedD m master msgs finished serverFinished

/-- `handshake` with its texts, src/client.rs:54-246. What it sends fails with texts that are not modelled. -/
def handshakeD (m : Mode) : DSt TlsClient Unit := do
  let (cliRandom, hello) ← DSt.plain (sendHello m)
  let flight ← readFlightD m
  let (master, readKey, msgs, finished) ← DSt.plain (sendFinished m cliRandom hello flight)
  readFinishedD m master readKey msgs finished

/-- The text of the error of `TlsClient::new`, src/client.rs:27-41 and 259-271: that of the handshake, unless the alert cannot be sent. -/
def newDesc (m : Mode) (reader : Reader) (writer : Writer) (rng : Rng) : Option Desc :=
  let client : TlsClient := { reader := TlsReader.new reader, writer := TlsWriter.new writer, rng }
  match (handshakeD m).st.run client with
  | (.err .IoFailure, _) => (handshakeD m).desc client
  | (.err k, client') =>
    match (onWriter (TlsWriter.writeAlert m (Alert.fromTlsErr k))).run client' with
    | (.ok (), _) => (handshakeD m).desc client
    | _ => none
  | _ => none

end TlsClient

end Husk
