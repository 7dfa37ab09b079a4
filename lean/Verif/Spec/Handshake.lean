import Verif.Spec.Hmac
import Verif.Spec.Sha256
import Verif.Spec.Aead
import Verif.Spec.Record
/-! The TLS 1.2 handshake on the wire: key schedule (RFC 5246, 5, 6.3, 7.4.9, 8.1), the messages the client sends, protected records (RFC 7905). -/

namespace Husk.Spec

noncomputable section

/-- RFC 5246, 5: `PRF(secret, label, seed) = P_SHA256(secret, label + seed)`, truncated. -/
def tlsPrf (secret label seed : Bytes) (len : Nat) : Bytes := pHash (hmac Sha256.sha256 secret) (label ++ seed) len

/-- A label. -/
def ascii (s : String) : Bytes := s.toList.map fun c => UInt8.ofNat c.toNat

/-- RFC 5246, 8.1. -/
def tlsMaster (pms clientRandom serverRandom : Bytes) : Bytes := tlsPrf pms (ascii "master secret") (clientRandom ++ serverRandom) 48

/-- RFC 5246, 6.3: the key block. ChaCha20-Poly1305 has 32-byte keys, 12-byte IVs and no MAC keys (RFC 7905): 88 bytes. -/
def keyBlock (master clientRandom serverRandom : Bytes) : Bytes := tlsPrf master (ascii "key expansion") (serverRandom ++ clientRandom) 88

/-- The keys of a connection. -/
structure Keys where
  clientKey : Bytes
  serverKey : Bytes
  clientIv : Bytes
  serverIv : Bytes
  deriving DecidableEq

/-- RFC 5246, 6.3: the partition of the key block. -/
def keysOf (master clientRandom serverRandom : Bytes) : Keys :=
  let b := keyBlock master clientRandom serverRandom
  { clientKey := b.take 32, serverKey := (b.drop 32).take 32, clientIv := (b.drop 64).take 12, serverIv := (b.drop 76).take 12 }

/-- RFC 5246, 7.4.9. -/
def verifyDataOf (master label messages : Bytes) : Bytes := tlsPrf master label (Sha256.sha256 messages) 12

/-- A handshake message: type, 24-bit length, body. -/
def handshakeBytes (ty : UInt8) (body : Bytes) : Bytes := ty :: (beBytes 3 body.length ++ body)

/-- The ClientHello that is promised (C31): version 3.3, the random, no session id, suite 0xcca8, null compression, and the extensions
elliptic_curves (secp256r1), ec_point_formats (uncompressed), signature_algorithms (sha256 with rsa). -/
def clientHelloBytes (random : Bytes) : Bytes :=
  handshakeBytes 1 ([3, 3] ++ random ++ [0] ++ [0, 2, 0xcc, 0xa8] ++ [1, 0] ++ [0, 22]
    ++ [0, 10, 0, 4, 0, 2, 0, 23] ++ [0, 11, 0, 2, 1, 0] ++ [0, 13, 0, 4, 0, 2, 4, 1])

/-- RFC 4492, 5.7: ClientKeyExchange with an uncompressed point. -/
def clientKeyExchangeBytes (point : Bytes) : Bytes := handshakeBytes 16 (UInt8.ofNat point.length :: point)

/-- Finished. -/
def finishedBytes (verifyData : Bytes) : Bytes := handshakeBytes 20 verifyData

/-- RFC 7905: a protected record with sequence number `k`. -/
def protectedRecord (key iv : Bytes) (k : Nat) (ty : UInt8) (fragment : Bytes) : Bytes :=
  recordBytes ty 3 3 (Aead.sealMsg key (recordNonce iv k) (recordAad k ty 3 3 fragment.length) fragment)

/-- The messages that go into the hash of the client's Finished, RFC 5246 7.4.9; `server` is the server's first flight. -/
def handshakeMessages (clientRandom server point : Bytes) : Bytes := clientHelloBytes clientRandom ++ (server ++ clientKeyExchangeBytes point)

/-- What the client sends in a successful handshake (C31), record by record. -/
def clientFlight (clientRandom point : Bytes) (k : Keys) (verifyData : Bytes) : List Bytes :=
  [recordBytes 22 3 3 (clientHelloBytes clientRandom), recordBytes 22 3 3 (clientKeyExchangeBytes point), recordBytes 20 3 3 [1],
    protectedRecord k.clientKey k.clientIv 0 22 (finishedBytes verifyData)]

/-- ServerHello (RFC 5246, 7.4.1.3) with version 3.3, suite 0xcca8 and null compression; `ext` is the extension block or empty. -/
def serverHelloBytes (random sessionId ext : Bytes) : Bytes :=
  handshakeBytes 2 ([3, 3] ++ random ++ (UInt8.ofNat sessionId.length :: sessionId) ++ [0xcc, 0xa8] ++ [0] ++ ext)

/-- RFC 5246, 7.4.1.4: an extension block. -/
def extensionBlock (exts : List (Nat × Bytes)) : Bytes :=
  let b := exts.flatMap fun e => beBytes 2 e.1 ++ beBytes 2 e.2.length ++ e.2
  beBytes 2 b.length ++ b

/-- An extension a server may answer with: one the client did not list, or ec_point_formats (RFC 4492, 5.1.2). -/
def ServerExt (e : Nat × Bytes) : Prop :=
  e.1 < 2 ^ 16 ∧ e.2.length < 2 ^ 16 ∧ ((e.1 ≠ 10 ∧ e.1 ≠ 11 ∧ e.1 ≠ 13) ∨
    (e.1 = 11 ∧ ∃ fs : Bytes, fs ≠ [] ∧ fs.length ≤ 255 ∧ (∀ x ∈ fs, x = 0 ∨ x = 1 ∨ x = 2) ∧ e.2 = UInt8.ofNat fs.length :: fs))

/-- Certificate (RFC 5246, 7.4.2). -/
def certificateBytes (certs : List Bytes) : Bytes :=
  let b := certs.flatMap fun c => beBytes 3 c.length ++ c
  handshakeBytes 11 (beBytes 3 b.length ++ b)

/-- ServerKeyExchange (RFC 4492, 5.4) with a named curve, an uncompressed point and a signature (rsa with sha256). -/
def serverKeyExchangeMessage (curve : Nat) (point signature : Bytes) : Bytes :=
  handshakeBytes 12 ([3] ++ beBytes 2 curve ++ (UInt8.ofNat point.length :: point) ++ [4, 1] ++ beBytes 2 signature.length ++ signature)

/-- Protected records in a row. -/
def protectedRecords (key iv : Bytes) (ty : UInt8) : Nat → List Bytes → Bytes
  | _, [] => []
  | k, f :: fs => protectedRecord key iv k ty f ++ protectedRecords key iv ty (k + 1) fs

end

end Husk.Spec
