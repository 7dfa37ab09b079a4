import Verif.Model.TraceHandshake
/-! `TlsClient::new` with the observations of its execution (`Verif/Base/Trace`), whether the handshake succeeds or fails: the alert is part of it. -/

namespace Husk

open TSt

namespace TlsClient

/-- The `match` of `new`, src/client.rs:36-39, around a part of the handshake: an error is reported to the peer and returned. `key` is the key of the encryptor at that time. -/
def orAlertT (m : Mode) (key : Option Bytes) (x : TSt TlsClient α) : TSt TlsClient α := ⟨fun c =>
  match x.run c with
  | (t, .err k, c) =>
    match (sendTlsAlertT m key k >>= fun k' => quiet (St.err k')).run c with
    | (u, r) => (t ++ [.branch false] ++ u, r)
  | (t, r, c) => (t, r, c)⟩

/-- The key of the client's encryptor, src/client.rs:163-165. -/
def clientKeyOf (m : Mode) (master cliRandom serverRandom : Bytes) : Option Bytes :=
  match (expandT m master cliRandom serverRandom).res with
  | .ok (writeKey, _) => some writeKey
  | _ => none

/-- `TlsClient::new`, src/client.rs:27-41, with `handshake`, src/client.rs:54-246. The second flight fails only with `IoFailure`, for which no alert is sent. -/
def newWholeT (m : Mode) (reader : Reader) (writer : Writer) (rng : Rng) : List Obs × Res Unit × TlsClient :=
  (do
    let hello ← orAlertT m none (sendHelloT m)
    let flight ← orAlertT m none (readFlightT m)
    let sent ← orAlertT m none (sendFinishedT m hello.1 hello.2 flight)
    orAlertT m (clientKeyOf m sent.1 hello.1 flight.hello.random.data) (readFinishedT m sent.1 sent.2.1 sent.2.2.1 sent.2.2.2)
    see (.branch true) : TSt TlsClient Unit).run { reader := TlsReader.new reader, writer := TlsWriter.new writer, rng }

end TlsClient

end Husk
