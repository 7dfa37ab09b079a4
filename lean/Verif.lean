import Verif.Base.Bytes
import Verif.Base.Res
import Verif.Base.StRes
import Verif.Base.Trace
import Verif.Base.TraceSt
import Verif.Model.AeadChaCha
import Verif.Model.Alert
import Verif.Model.ChaCha20
import Verif.Model.CipherSuite
import Verif.Model.Client
import Verif.Model.Describe
import Verif.Model.Ecdhe
import Verif.Model.Handshake
import Verif.Model.P256
import Verif.Model.Poly1305
import Verif.Model.Prf
import Verif.Model.ReadCost
import Verif.Model.Sha2
import Verif.Model.Signature
import Verif.Model.Sock
import Verif.Model.StreamItem
import Verif.Model.Tcp
import Verif.Model.Tls
import Verif.Model.TlsItem
import Verif.Model.TraceClient
import Verif.Model.TraceEcdhe
import Verif.Model.TraceHandshake
import Verif.Model.TraceNew
import Verif.Model.TraceP256
import Verif.Model.TraceSym
import Verif.Model.TraceTls
import Verif.Model.Transport
import Verif.Model.Util
import Verif.Proofs.Accept
import Verif.Proofs.Blocks
import Verif.Proofs.ChaCha20
import Verif.Proofs.ClearRead
import Verif.Proofs.Client
import Verif.Proofs.DecodeKinds
import Verif.Proofs.Ecdhe
import Verif.Proofs.Handshake
import Verif.Proofs.HandshakePrefix
import Verif.Proofs.HandshakeRun
import Verif.Proofs.HandshakeServer
import Verif.Proofs.HandshakeSteps
import Verif.Proofs.Incoming
import Verif.Proofs.KeySchedule
import Verif.Proofs.LaterFaults
import Verif.Proofs.Modes
import Verif.Proofs.P256Field
import Verif.Proofs.P256Inverse
import Verif.Proofs.P256Limbs
import Verif.Proofs.P256Point
import Verif.Proofs.P256Prime
import Verif.Proofs.P256Scalar
import Verif.Proofs.Pair
import Verif.Proofs.Poly1305
import Verif.Proofs.Poly1305Prime
import Verif.Proofs.PolyHash
import Verif.Proofs.ServerMessages
import Verif.Proofs.Sha2
import Verif.Proofs.StreamItem
import Verif.Proofs.SuccessSteps
import Verif.Proofs.TlsItem
import Verif.Proofs.TlsMessages
import Verif.Proofs.TlsReader
import Verif.Proofs.TlsWriter
import Verif.Proofs.TraceClient
import Verif.Proofs.TraceEcdhe
import Verif.Proofs.TraceFail
import Verif.Proofs.TraceFailNew
import Verif.Proofs.TraceFailRead
import Verif.Proofs.TraceFinished
import Verif.Proofs.TraceFrame
import Verif.Proofs.TraceLeak
import Verif.Proofs.TraceP256
import Verif.Proofs.TraceP256Same
import Verif.Proofs.TraceSuccess
import Verif.Proofs.TraceSym
import Verif.Proofs.TraceSymSame
import Verif.Proofs.TraceTls
import Verif.Proofs.TraceTlsSame
import Verif.Proofs.Transport
import Verif.Proofs.Trouble
import Verif.Props.Acceptance
import Verif.Props.Aead
import Verif.Props.AfterFailure
import Verif.Props.ApiConstantTime
import Verif.Props.Behaviour
import Verif.Props.Buffering
import Verif.Props.Causal
import Verif.Props.ChaCha20
import Verif.Props.Channel
import Verif.Props.Chunking
import Verif.Props.ClientHandshake
import Verif.Props.ClientIo
import Verif.Props.Codec
import Verif.Props.ConstantTime
import Verif.Props.CutHandshake
import Verif.Props.Described
import Verif.Props.Diagnosis
import Verif.Props.Ecdhe
import Verif.Props.Example
import Verif.Props.FailedWrite
import Verif.Props.FailureConstantTime
import Verif.Props.FlightConstantTime
import Verif.Props.FlightUnique
import Verif.Props.Flush
import Verif.Props.Forgery
import Verif.Props.HandedOut
import Verif.Props.HandshakeBuffer
import Verif.Props.HandshakeConstantTime
import Verif.Props.HandshakeCost
import Verif.Props.HandshakeGaps
import Verif.Props.HandshakeOrder
import Verif.Props.HandshakeSuccess
import Verif.Props.HelloExtensions
import Verif.Props.HelloRejected
import Verif.Props.Interjections
import Verif.Props.InvalidKey
import Verif.Props.KeySpace
import Verif.Props.KeysOnce
import Verif.Props.Keystream
import Verif.Props.KeystreamReuse
import Verif.Props.MacForgery
import Verif.Props.Modes
import Verif.Props.NoDeadlock
import Verif.Props.NoPanic
import Verif.Props.OneTry
import Verif.Props.Outcome
import Verif.Props.P256
import Verif.Props.Poly1305
import Verif.Props.Prf
import Verif.Props.Promptness
import Verif.Props.PublicApi
import Verif.Props.RandomPad
import Verif.Props.ReadCost
import Verif.Props.ReadMethods
import Verif.Props.Reads
import Verif.Props.Record
import Verif.Props.RecordLimits
import Verif.Props.RecordSecurity
import Verif.Props.RecordVersion
import Verif.Props.Secrecy
import Verif.Props.ServerFlight
import Verif.Props.SessionData
import Verif.Props.Sha256
import Verif.Props.Streaming
import Verif.Props.Transcript
import Verif.Props.Truncation
import Verif.Props.Util
import Verif.Props.Whole
import Verif.Props.Wire
import Verif.Props.Wrap
import Verif.Props.WriteCalls
import Verif.Props.WriteErrors
import Verif.Spec.Aead
import Verif.Spec.Blocks
import Verif.Spec.ChaCha20
import Verif.Spec.Codec
import Verif.Spec.Ecdh
import Verif.Spec.Handshake
import Verif.Spec.Hmac
import Verif.Spec.P256
import Verif.Spec.Poly1305
import Verif.Spec.Record
import Verif.Spec.Sha256
import Verif.Spec.Stream
import Verif.Spec.Wire
import Verif.Tests.Protocol
import Verif.Tests.Symmetric
