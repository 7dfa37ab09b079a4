import Verif.Model.Alert
import Verif.Model.Ecdhe
/-! The presentation language of RFC 5246 section 4 and the messages of RFC 5246 section 7 and RFC 4492 section 5, written out field by
field, without the sizes, prefixes, type numbers and code points of the model. -/

namespace Husk.Spec.Wire

/-- `uint8`. -/
def u8 (n : Nat) : Bytes := [UInt8.ofNat n]
/-- `uint16`, big endian. -/
def u16 (n : Nat) : Bytes := [UInt8.ofNat (n / 256), UInt8.ofNat n]
/-- `uint24`, big endian. -/
def u24 (n : Nat) : Bytes := [UInt8.ofNat (n / 65536), UInt8.ofNat (n / 256), UInt8.ofNat n]

/-- A variable-length vector of at most 2^8 - 1 bytes. -/
def vec8 (body : Bytes) : Bytes := u8 body.length ++ body
/-- A variable-length vector of at most 2^16 - 1 bytes. -/
def vec16 (body : Bytes) : Bytes := u16 body.length ++ body
/-- A variable-length vector of at most 2^24 - 1 bytes. -/
def vec24 (body : Bytes) : Bytes := u24 body.length ++ body

/-! ### code points -/

/-- RFC 5246 section 7.2. -/
def alertLevel : AlertLevel → Nat
  | .warning => 1
  | .fatal => 2

/-- RFC 5246 section 7.2 and RFC 6066 section 9. -/
def alertDescription : AlertDescription → Nat
  | .close_notify => 0
  | .unexpected_message => 10
  | .bad_record_mac => 20
  | .decryption_failed_RESERVED => 21
  | .record_overflow => 22
  | .decompression_failure => 30
  | .handshake_failure => 40
  | .no_certificate_RESERVED => 41
  | .bad_certificate => 42
  | .unsupported_certificate => 43
  | .certificate_revoked => 44
  | .certificate_expired => 45
  | .certificate_unknown => 46
  | .illegal_parameter => 47
  | .unknown_ca => 48
  | .access_denied => 49
  | .decode_error => 50
  | .decrypt_error => 51
  | .export_restriction_RESERVED => 60
  | .protocol_version => 70
  | .insufficient_security => 71
  | .internal_error => 80
  | .user_canceled => 90
  | .no_renegotiation => 100
  | .unsupported_extension => 110
  | .certificate_unobtainable => 111
  | .unrecognized_name => 112
  | .bad_certificate_status_response => 113
  | .bad_certificate_hash_value => 114

/-- RFC 5246 section 7.4.1.4.1. -/
def hash : HashAlgorithm → Nat
  | .none => 0
  | .md5 => 1
  | .sha1 => 2
  | .sha224 => 3
  | .sha256 => 4
  | .sha384 => 5
  | .sha512 => 6

/-- RFC 5246 section 7.4.1.4.1. -/
def signature : SignatureAlgorithm → Nat
  | .anonymous => 0
  | .rsa => 1
  | .dsa => 2
  | .ecdsa => 3

/-- RFC 3749 section 2. -/
def compression : CompressionMethod → Nat
  | .null => 0
  | .DEFLATE => 1

/-- RFC 4492 section 5.1.1. -/
def curve : NamedCurve → Nat
  | .sect163k1 => 1
  | .sect163r1 => 2
  | .sect163r2 => 3
  | .sect193r1 => 4
  | .sect193r2 => 5
  | .sect233k1 => 6
  | .sect233r1 => 7
  | .sect239k1 => 8
  | .sect283k1 => 9
  | .sect283r1 => 10
  | .sect409k1 => 11
  | .sect409r1 => 12
  | .sect571k1 => 13
  | .sect571r1 => 14
  | .secp160k1 => 15
  | .secp160r1 => 16
  | .secp160r2 => 17
  | .secp192k1 => 18
  | .secp192r1 => 19
  | .secp224k1 => 20
  | .secp224r1 => 21
  | .secp256k1 => 22
  | .secp256r1 => 23
  | .secp384r1 => 24
  | .secp521r1 => 25
  | .arbitrary_explicit_prime_curves => 0xFF01
  | .arbitrary_explicit_char2_curves => 0xFF02

/-- RFC 4492 section 5.1.2. -/
def pointFormat : ECPointFormat → Nat
  | .uncompressed => 0
  | .ansiX962_compressed_prime => 1
  | .ansiX962_compressed_char2 => 2

/-- RFC 5246 section 7.4.4. -/
def certificateType : ClientCertificateType → Nat
  | .rsa_sign => 1
  | .dss_sign => 2
  | .rsa_fixed_dh => 3
  | .dss_fixed_dh => 4
  | .rsa_ephemeral_dh_RESERVED => 5
  | .dss_ephemeral_dh_RESERVED => 6
  | .fortezza_dms_RESERVED => 20

/-! ### structures -/

/-- RFC 5246 section 7.2. -/
def alert (a : Alert) : Bytes := u8 (alertLevel a.level) ++ u8 (alertDescription a.description)

/-- RFC 5246 section 7.4.1.4.1: hash first. -/
def sigHash (a : SignatureAndHashAlgorithm) : Bytes := u8 (hash a.hash) ++ u8 (signature a.signature)

/-- RFC 5246 section 4.7. -/
def signed (d : DigitallySigned) : Bytes := sigHash d.algorithm ++ vec16 d.signature.items

/-- RFC 5246 section 7.4.1.2. -/
def version (v : ProtocolVersion) : Bytes := [v.major, v.minor]

/-- RFC 7905 section 2 (0xcc, 0xa8); `UnknownCipherSuite` has no bytes. -/
def suite : CipherSuite → Bytes
  | .TLS_ECDHE_RSA_WITH_CHACHA20_POLY1305_SHA256 => [0xcc, 0xa8]
  | .UnknownCipherSuite => []

/-- The data of an extension: RFC 4492 sections 5.1.1 and 5.1.2, RFC 5246 section 7.4.1.4.1. -/
def extensionData : Extension → Bytes
  | .elliptic_curves l => vec16 (l.items.flatMap fun c => u16 (curve c))
  | .ec_point_formats l => vec8 (l.items.flatMap fun f => u8 (pointFormat f))
  | .signature_algorithms l => vec16 (l.items.flatMap sigHash)
  | .Unknown _ data => data

/-- RFC 4492 section 5.1, RFC 5246 section 7.4.1.4. -/
def extensionType : Extension → Nat
  | .elliptic_curves _ => 10
  | .ec_point_formats _ => 11
  | .signature_algorithms _ => 13
  | .Unknown ty _ => ty.toNat

/-- RFC 5246 section 7.4.1.4. -/
def extension (e : Extension) : Bytes := u16 (extensionType e) ++ vec16 (extensionData e)

/-- RFC 5246 section 7.4.1.2: no bytes at all, or a vector of extensions. -/
def extensions : Option ExtensionVec → Bytes
  | none => []
  | some v => vec16 (v.items.flatMap extension)

/-- RFC 5246 section 7.4.1.2. -/
def clientHello (h : ClientHello) : Bytes :=
  version h.clientVersion ++ h.random.data ++ vec8 h.sessionId.items ++ vec16 (h.cipherSuites.items.flatMap suite) ++
    vec8 (h.compressionMethods.items.flatMap fun c => u8 (compression c)) ++ extensions h.extensions

/-- RFC 5246 section 7.4.1.3. -/
def serverHello (h : ServerHello) : Bytes :=
  version h.serverVersion ++ h.random.data ++ vec8 h.sessionId.items ++ suite h.cipherSuite ++ u8 (compression h.compressionMethod) ++
    extensions h.extensions

/-- RFC 5246 section 7.4.4. -/
def certificateRequest (r : CertificateRequest) : Bytes :=
  vec8 (r.certificateTypes.items.flatMap fun t => u8 (certificateType t)) ++
    vec16 (r.supportedSignatureAlgorithms.items.flatMap sigHash) ++
    vec16 (r.certificateAuthorities.items.flatMap fun n => vec16 n.items)

/-- RFC 4492 section 5.4, `ECParameters` with curve type `named_curve` (3). -/
def ecParameters : EcParameters → Bytes
  | .named_curve c => u8 3 ++ u16 (curve c)

/-- RFC 4492 section 5.4, `ServerECDHParams`. -/
def ecdhParams (p : ServerEcdhParams) : Bytes := ecParameters p.curve_params ++ vec8 p.pub.items

/-- RFC 4492 section 5.4, `ServerKeyExchange`. -/
def keyExchange (k : EcdheServerKeyExchange) : Bytes := ecdhParams k.params ++ signed k.signed_params

/-- The body of a handshake message, RFC 5246 section 7.4. -/
def body : Handshake → Bytes
  | .hello_request _ => []
  | .client_hello h => clientHello h
  | .server_hello h => serverHello h
  | .certificate l => vec24 (l.items.flatMap fun c => vec24 c.items)
  | .server_key_exchange d => d.data
  | .certificate_request r => certificateRequest r
  | .server_hello_done _ => []
  | .client_key_exchange d => d.data
  | .finished d => d.data

/-- The type of a handshake message, RFC 5246 section 7.4. -/
def handshakeType : Handshake → Nat
  | .hello_request _ => 0
  | .client_hello _ => 1
  | .server_hello _ => 2
  | .certificate _ => 11
  | .server_key_exchange _ => 12
  | .certificate_request _ => 13
  | .server_hello_done _ => 14
  | .client_key_exchange _ => 16
  | .finished _ => 20

/-- A handshake message, RFC 5246 section 7.4. -/
def handshake (h : Handshake) : Bytes := u8 (handshakeType h) ++ vec24 (body h)

/-! ### the bounds of the presentation language -/

/-- `opaque extension_data<0..2^16-1>` and the lists inside it. -/
def ExtensionInBounds : Extension → Prop
  | .elliptic_curves l => 1 ≤ l.items.length ∧ 2 * l.items.length ≤ 2 ^ 16 - 1
  | .ec_point_formats l => 1 ≤ l.items.length ∧ l.items.length ≤ 2 ^ 8 - 1
  | .signature_algorithms l => 1 ≤ l.items.length ∧ 2 * l.items.length ≤ 2 ^ 16 - 2
  | .Unknown _ _ => True

/-- `Extension extensions<0..2^16-1>`. -/
def ExtensionsInBounds : Option ExtensionVec → Prop
  | none => True
  | some v => (v.items.flatMap extension).length ≤ 2 ^ 16 - 1 ∧ ∀ e ∈ v.items, ExtensionInBounds e

/-- The bounds RFC 5246 and RFC 4492 give in the declarations of the fields: `SessionID<0..32>`, `CipherSuite<2..2^16-2>`,
`CompressionMethod<1..2^8-1>`, `ASN.1Cert<1..2^24-1>` in `<0..2^24-1>`, `ClientCertificateType<1..2^8-1>`,
`SignatureAndHashAlgorithm<2..2^16-2>`, `DistinguishedName<1..2^16-1>` in `<0..2^16-1>`, a random of 32 and verify data of 12 bytes. -/
def InBounds : Handshake → Prop
  | .client_hello h => h.random.data.length = 32 ∧ h.sessionId.items.length ≤ 32 ∧
      (1 ≤ h.cipherSuites.items.length ∧ 2 * h.cipherSuites.items.length ≤ 2 ^ 16 - 2) ∧
      (1 ≤ h.compressionMethods.items.length ∧ h.compressionMethods.items.length ≤ 2 ^ 8 - 1) ∧ ExtensionsInBounds h.extensions
  | .server_hello h => h.random.data.length = 32 ∧ h.sessionId.items.length ≤ 32 ∧ ExtensionsInBounds h.extensions
  | .certificate l => (l.items.flatMap fun c => vec24 c.items).length ≤ 2 ^ 24 - 1 ∧
      ∀ c ∈ l.items, 1 ≤ c.items.length ∧ c.items.length ≤ 2 ^ 24 - 1
  | .certificate_request r => (1 ≤ r.certificateTypes.items.length ∧ r.certificateTypes.items.length ≤ 2 ^ 8 - 1) ∧
      (1 ≤ r.supportedSignatureAlgorithms.items.length ∧ 2 * r.supportedSignatureAlgorithms.items.length ≤ 2 ^ 16 - 2) ∧
      (r.certificateAuthorities.items.flatMap fun n => vec16 n.items).length ≤ 2 ^ 16 - 1 ∧
      ∀ n ∈ r.certificateAuthorities.items, 1 ≤ n.items.length ∧ n.items.length ≤ 2 ^ 16 - 1
  | .finished d => d.data.length = 12
  | _ => True

end Husk.Spec.Wire
