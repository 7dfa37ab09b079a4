import Verif.Model.Client
/-! `TlsClient::from_tcp`, src/client.rs:274-286, and the accessors `reader()` and `writer()`, src/client.rs:43-51. -/

namespace Husk

/-- A connected `TcpStream`: what arrives, what is sent, and whether `try_clone` succeeds. Both handles of a cloned stream are the same connection, and the client reads from one and writes to
the other. -/
structure TcpStream where
  incoming : Reader
  outgoing : Writer
  clones : Bool

namespace TlsClient

/-- `from_tcp`, src/client.rs:275-285. If `try_clone` fails the error is converted (`From<io::Error>`, src/tls_result.rs:56-63) and there is no client; the second component then has the untouched
connection. -/
def fromTcp (m : Mode) (stream : TcpStream) (rng : Rng) : Res Unit × TlsClient :=
  if stream.clones then TlsClient.new m stream.incoming stream.outgoing rng
  else (.err .IoFailure, { reader := TlsReader.new stream.incoming, writer := TlsWriter.new stream.outgoing, rng })

/-- `reader()`, src/client.rs:43-46: a mutable reference to the transport. Whoever has it can leave any other transport behind. -/
def useReader (f : Reader → Reader) : St TlsClient Unit := ⟨fun c => (.ok (), { c with reader := { c.reader with reader := f c.reader.reader } })⟩

/-- `writer()`, src/client.rs:48-51. -/
def useWriter (f : Writer → Writer) : St TlsClient Unit := ⟨fun c => (.ok (), { c with writer := { c.writer with writer := f c.writer.writer } })⟩

end TlsClient

end Husk
