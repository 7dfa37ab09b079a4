import Verif.Model.TraceClient
import Verif.Model.TraceEcdhe
/-! The whole handshake with the observations of its execution (see `Verif/Base/Trace`): the two flights of the server are read with `Verif/Model/TraceTls`, the secrets are computed as in
`Verif/Model/TraceEcdhe` and `Verif/Model/TraceClient`. Beyond the lengths and the kinds of the messages, parsing and serialising the messages of the handshake are not recorded. -/

namespace Husk

open TSt

namespace TlsReader

/-- The kind of a message of the handshake, as the `match` of `expect!` sees it. -/
def handshakeKind : Handshake → Nat
  | .hello_request _ => 0
  | .client_hello _ => 1
  | .server_hello _ => 2
  | .certificate _ => 11
  | .server_key_exchange _ => 12
  | .certificate_request _ => 13
  | .server_hello_done _ => 14
  | .client_key_exchange _ => 16
  | .finished _ => 20

/-- `read_handshake`, src/tls.rs:414-420. -/
def readHandshakeT (m : Mode) (key : Option Bytes) : TSt TlsReader Handshake := do
  let msg ← readMessageT m key
  see (.index (kindOf msg))
  match msg with
  | .HandshakeMessage h => return h
  | .AlertMessage _ => quiet (St.err .AlertReceived)
  | _ => quiet (St.err .UnexpectedMessage)

/-- `read_change_cipher_spec`, src/tls.rs:422-430. -/
def readChangeCipherSpecT (m : Mode) (key : Option Bytes) : TSt TlsReader Unit := do
  let msg ← readMessageT m key
  see (.index (kindOf msg))
  match msg with
  | .ChangeCipherSpecMessage => return ()
  | _ => quiet (St.err .UnexpectedMessage)

end TlsReader

namespace TlsClient

/-- `expect!`, src/client.rs:56-63: the message, if `pick` takes it. -/
def expectT (m : Mode) (key : Option Bytes) (pick : Handshake → Option α) : TSt TlsReader α := do
  let h ← TlsReader.readHandshakeT m key
  see (.index (TlsReader.handshakeKind h))
  match pick h with
  | some data => return data
  | none => quiet (St.err .UnexpectedMessage)

/-- The pattern of `expect!(server_hello)`, src/client.rs:93. -/
def pickServerHello : Handshake → Option ServerHello
  | .server_hello data => some data
  | _ => none

/-- The pattern of `expect!(certificate)`, src/client.rs:124. -/
def pickCertificate : Handshake → Option CertificateList
  | .certificate data => some data
  | _ => none

/-- The pattern of `expect!(server_key_exchange)`, src/client.rs:128. -/
def pickServerKeyExchange : Handshake → Option ObscureData
  | .server_key_exchange data => some data
  | _ => none

/-- The pattern of `expect!(server_hello_done)`, src/client.rs:132. -/
def pickServerHelloDone : Handshake → Option DummyItem
  | .server_hello_done data => some data
  | _ => none

/-- The pattern of `expect!(finished)`, src/client.rs:218. -/
def pickFinished : Handshake → Option VerifyData
  | .finished data => some data
  | _ => none

/-- The first flight, src/client.rs:65-91. -/
def sendHelloT (m : Mode) : TSt TlsClient (Bytes × Handshake) := do
  let cliRandom ← quiet (onRng (Rng.fillBytes 32))
  see (.size cliRandom.length)
  let hello ← quiet (St.lift (clientHello cliRandom))
  onWriterT (TlsWriter.writeHandshakeT m none hello)
  return (cliRandom, hello)

/-- The checks of the ServerHello, src/client.rs:94-121. (More is recorded than is executed when an early one fails.) -/
def checkServerHelloT (data : ServerHello) : Tr Unit := do
  Tr.see (.branch ((data.serverVersion.major, data.serverVersion.minor) ≠ TLS_VERSION))
  Tr.see (.branch (data.cipherSuite ≠ suite))
  Tr.see (.branch (data.compressionMethod ≠ .null))
  Tr.lift (checkServerHello data)

/-- `compute_keys` with the generator of the client, src/client.rs:130. -/
def computeKeysT (m : Mode) (data : Bytes) : TSt TlsClient (Bytes × Bytes) := ⟨fun c => ((Ecdhe.computeKeysT m data c.rng).trace, (onRng (Ecdhe.computeKeys m data)).run c)⟩

/-- The server's first flight, src/client.rs:93-132. -/
def readFlightT (m : Mode) : TSt TlsClient ServerFlight := do
  let hello ← onReaderT (expectT m none pickServerHello)
  ofTr (checkServerHelloT hello)
  let certs ← onReaderT (expectT m none pickCertificate)
  let ske ← onReaderT (expectT m none pickServerKeyExchange)
  let keys ← computeKeysT m ske.data
  let _ ← onReaderT (expectT m none pickServerHelloDone)
  return { hello, certs, ske, keyData := keys.1, preMasterSecret := keys.2 }

/-- The server's second flight, src/client.rs:213-243. -/
def readFinishedT (m : Mode) (master readKey msgs : Bytes) (finished : Handshake) : TSt TlsClient Unit := do
  onReaderT (TlsReader.readChangeCipherSpecT m none)
  quiet (onReader (TlsReader.setDecryptor (.chacha m readKey)))
  let serverFinished ← onReaderT (expectT m (some readKey) pickFinished)
  ofTr (checkFinishedT m master msgs finished serverFinished)

/-- `handshake`, src/client.rs:54-246. -/
def handshakeT (m : Mode) : TSt TlsClient Unit := do
  let hello ← sendHelloT m
  let flight ← readFlightT m
  let sent ← sendFinishedT m hello.1 hello.2 flight
  readFinishedT m sent.1 sent.2.1 sent.2.2.1 sent.2.2.2

/-- `TlsClient::new`, src/client.rs:27-41, when the handshake succeeds; the alert that is sent when it fails is not recorded. -/
def newT (m : Mode) (reader : Reader) (writer : Writer) (rng : Rng) : List Obs × Res Unit × TlsClient :=
  (handshakeT m).run { reader := TlsReader.new reader, writer := TlsWriter.new writer, rng }

end TlsClient

end Husk
