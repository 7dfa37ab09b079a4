import Verif.Model.CipherSuite
import Verif.Model.Signature
/-! Model of src/handshake.rs. -/

namespace Husk

open Item

/-- `TLS_VERSION`, src/tls.rs:22. -/
def TLS_VERSION : UInt8 × UInt8 := (3, 3)

/-- `Random`, src/handshake.rs:14. -/
abbrev Random := TlsArray 32

/-- `CipherSuiteVec`, src/handshake.rs:16. -/
abbrev CipherSuiteVec := TlsVec CipherSuite 2 65534

/-- `CompressionMethod`, src/handshake.rs:18-21. -/
inductive CompressionMethod
  | null | DEFLATE
  deriving DecidableEq, Repr

instance : TlsEnum CompressionMethod where
  width := 1
  all := [.null, .DEFLATE]
  code
    | .null => 0
    | .DEFLATE => 1

/-- `CompressionMethodVec`, src/handshake.rs:22. -/
abbrev CompressionMethodVec := TlsVec CompressionMethod 1 255

/-- `ProtocolVersion`, src/handshake.rs:24-29. -/
structure ProtocolVersion where
  major : UInt8
  minor : UInt8
  deriving DecidableEq, Repr

instance : TlsItem ProtocolVersion where
  write a := do
    let x ← TlsItem.write a.major
    let y ← TlsItem.write a.minor
    return x ++ y
  read := do
    let major ← TlsItem.read
    let minor ← TlsItem.read
    return { major, minor }
  size a := TlsItem.size a.major + TlsItem.size a.minor

/-- `SessionId`, src/handshake.rs:31. -/
abbrev SessionId := TlsVec UInt8 0 32

/-- `Asn1Cert`, src/handshake.rs:33. -/
abbrev Asn1Cert := TlsVec UInt8 1 16777215

/-- `NamedCurve`, src/handshake.rs:37-49. -/
inductive NamedCurve
  | sect163k1 | sect163r1 | sect163r2 | sect193r1 | sect193r2 | sect233k1
  | sect233r1 | sect239k1 | sect283k1 | sect283r1 | sect409k1 | sect409r1
  | sect571k1 | sect571r1 | secp160k1 | secp160r1 | secp160r2 | secp192k1
  | secp192r1 | secp224k1 | secp224r1 | secp256k1 | secp256r1 | secp384r1
  | secp521r1 | arbitrary_explicit_prime_curves | arbitrary_explicit_char2_curves
  deriving DecidableEq, Repr

instance : TlsEnum NamedCurve where
  width := 2
  all := [.sect163k1, .sect163r1, .sect163r2, .sect193r1, .sect193r2, .sect233k1, .sect233r1, .sect239k1, .sect283k1,
    .sect283r1, .sect409k1, .sect409r1, .sect571k1, .sect571r1, .secp160k1, .secp160r1, .secp160r2, .secp192k1,
    .secp192r1, .secp224k1, .secp224r1, .secp256k1, .secp256r1, .secp384r1, .secp521r1,
    .arbitrary_explicit_prime_curves, .arbitrary_explicit_char2_curves]
  code
    | .sect163k1 => 1
    | .sect163r1 => 2
    | .sect163r2 => 3
    | .sect193r1 => 4
    | .sect193r2 => 5
    | .sect233k1 => 6
    | .sect233r1 => 7
    | .sect239k1 => 8
    | .sect283k1 => 9
    | .sect283r1 => 10
    | .sect409k1 => 11
    | .sect409r1 => 12
    | .sect571k1 => 13
    | .sect571r1 => 14
    | .secp160k1 => 15
    | .secp160r1 => 16
    | .secp160r2 => 17
    | .secp192k1 => 18
    | .secp192r1 => 19
    | .secp224k1 => 20
    | .secp224r1 => 21
    | .secp256k1 => 22
    | .secp256r1 => 23
    | .secp384r1 => 24
    | .secp521r1 => 25
    | .arbitrary_explicit_prime_curves => 0xFF01
    | .arbitrary_explicit_char2_curves => 0xFF02

/-- `EllipticCurveList`, src/handshake.rs:50. -/
abbrev EllipticCurveList := TlsVec NamedCurve 1 65535

/-- `ECPointFormat`, src/handshake.rs:52-55. -/
inductive ECPointFormat
  | uncompressed | ansiX962_compressed_prime | ansiX962_compressed_char2
  deriving DecidableEq, Repr

instance : TlsEnum ECPointFormat where
  width := 1
  all := [.uncompressed, .ansiX962_compressed_prime, .ansiX962_compressed_char2]
  code
    | .uncompressed => 0
    | .ansiX962_compressed_prime => 1
    | .ansiX962_compressed_char2 => 2

/-- `ECPointFormatList`, src/handshake.rs:56. -/
abbrev ECPointFormatList := TlsVec ECPointFormat 1 255

/-- `Extension`, src/handshake.rs:81-88, 144-158. -/
inductive Extension
  | elliptic_curves (body : EllipticCurveList)
  | ec_point_formats (body : ECPointFormatList)
  | signature_algorithms (body : SignatureAndHashAlgorithmVec)
  | Unknown (extensionType : UInt16) (extensionData : Bytes)
  deriving DecidableEq, Repr

/-- Body size, src/handshake.rs:131-136. -/
def Extension.bodySize : Extension → Nat
  | .elliptic_curves body => TlsItem.size body
  | .ec_point_formats body => TlsItem.size body
  | .signature_algorithms body => TlsItem.size body
  | .Unknown _ data => data.length

/-- One known arm of `tls_read`, src/handshake.rs:114-121. -/
def Extension.readBody (α : Type) [TlsItem α] (dataSize : Nat) (mk : α → Extension) : P Extension := do
  let body ← TlsItem.read (α := α)
  if dataSize ≠ TlsItem.size body then St.err .DecodeError
  else return mk body

/-- `tls_hello_extension!`, src/handshake.rs:90-140. The `as u16` casts truncate (`writeNum`). -/
instance : TlsItem Extension where
  write
    | .elliptic_curves body => do
      let b ← TlsItem.write body
      return writeNum 2 10 ++ writeNum 2 (TlsItem.size body) ++ b
    | .ec_point_formats body => do
      let b ← TlsItem.write body
      return writeNum 2 11 ++ writeNum 2 (TlsItem.size body) ++ b
    | .signature_algorithms body => do
      let b ← TlsItem.write body
      return writeNum 2 13 ++ writeNum 2 (TlsItem.size body) ++ b
    | .Unknown ty data => .ok (writeNum 2 ty.toNat ++ writeNum 2 data.length ++ data)
  read := do
    let extensionType ← readNum 2
    let dataSize ← readNum 2
    if extensionType = 10 then Extension.readBody EllipticCurveList dataSize .elliptic_curves
    else if extensionType = 11 then Extension.readBody ECPointFormatList dataSize .ec_point_formats
    else if extensionType = 13 then Extension.readBody SignatureAndHashAlgorithmVec dataSize .signature_algorithms
    else
      let body ← readExact dataSize
      return .Unknown (UInt16.ofNat extensionType) body
  size e := 4 + e.bodySize

/-- `Extension::new_elliptic_curve_list`, src/handshake.rs:161-165. -/
def Extension.newEllipticCurveList (list : List NamedCurve) : Res Extension := do
  let list ← TlsVec.new 1 65535 list
  return .elliptic_curves list

/-- `Extension::new_ec_point_formats`, src/handshake.rs:167-171. -/
def Extension.newEcPointFormats (list : List ECPointFormat) : Res Extension := do
  let list ← TlsVec.new 1 255 list
  return .ec_point_formats list

/-- `Extension::new_signature_algorithm_list`, src/handshake.rs:173-179. -/
def Extension.newSignatureAlgorithmList (list : List SignatureAndHashAlgorithm) : Res Extension := do
  let list ← TlsVec.new 2 65534 list
  return .signature_algorithms list

/-- `ExtensionVec`, src/handshake.rs:182; `tls_option!(ExtensionVec)`, line 183. -/
abbrev ExtensionVec := TlsVec Extension 0 65535

/-- `ClientHello`, src/handshake.rs:283-292. -/
structure ClientHello where
  clientVersion : ProtocolVersion
  random : Random
  sessionId : SessionId
  cipherSuites : CipherSuiteVec
  compressionMethods : CompressionMethodVec
  extensions : Option ExtensionVec
  deriving DecidableEq, Repr

instance : TlsItem ClientHello where
  write a := do
    let b1 ← TlsItem.write a.clientVersion
    let b2 ← TlsItem.write a.random
    let b3 ← TlsItem.write a.sessionId
    let b4 ← TlsItem.write a.cipherSuites
    let b5 ← TlsItem.write a.compressionMethods
    let b6 ← TlsItem.write a.extensions
    return b1 ++ (b2 ++ (b3 ++ (b4 ++ (b5 ++ b6))))
  read := do
    let clientVersion ← TlsItem.read
    let random ← TlsItem.read
    let sessionId ← TlsItem.read
    let cipherSuites ← TlsItem.read
    let compressionMethods ← TlsItem.read
    let extensions ← TlsItem.read
    return { clientVersion, random, sessionId, cipherSuites, compressionMethods, extensions }
  size a := TlsItem.size a.clientVersion + TlsItem.size a.random + TlsItem.size a.sessionId + TlsItem.size a.cipherSuites +
    TlsItem.size a.compressionMethods + TlsItem.size a.extensions

/-- `ServerHello`, src/handshake.rs:294-303. -/
structure ServerHello where
  serverVersion : ProtocolVersion
  random : Random
  sessionId : SessionId
  cipherSuite : CipherSuite
  compressionMethod : CompressionMethod
  extensions : Option ExtensionVec
  deriving DecidableEq, Repr

instance : TlsItem ServerHello where
  write a := do
    let b1 ← TlsItem.write a.serverVersion
    let b2 ← TlsItem.write a.random
    let b3 ← TlsItem.write a.sessionId
    let b4 ← TlsItem.write a.cipherSuite
    let b5 ← TlsItem.write a.compressionMethod
    let b6 ← TlsItem.write a.extensions
    return b1 ++ (b2 ++ (b3 ++ (b4 ++ (b5 ++ b6))))
  read := do
    let serverVersion ← TlsItem.read
    let random ← TlsItem.read
    let sessionId ← TlsItem.read
    let cipherSuite ← TlsItem.read
    let compressionMethod ← TlsItem.read
    let extensions ← TlsItem.read
    return { serverVersion, random, sessionId, cipherSuite, compressionMethod, extensions }
  size a := TlsItem.size a.serverVersion + TlsItem.size a.random + TlsItem.size a.sessionId + TlsItem.size a.cipherSuite +
    TlsItem.size a.compressionMethod + TlsItem.size a.extensions

/-- `CertificateList`, src/handshake.rs:305. -/
abbrev CertificateList := TlsVec Asn1Cert 0 16777215

/-- `ClientCertificateType`, src/handshake.rs:307-311. -/
inductive ClientCertificateType
  | rsa_sign | dss_sign | rsa_fixed_dh | dss_fixed_dh | rsa_ephemeral_dh_RESERVED | dss_ephemeral_dh_RESERVED
  | fortezza_dms_RESERVED
  deriving DecidableEq, Repr

instance : TlsEnum ClientCertificateType where
  width := 1
  all := [.rsa_sign, .dss_sign, .rsa_fixed_dh, .dss_fixed_dh, .rsa_ephemeral_dh_RESERVED, .dss_ephemeral_dh_RESERVED,
    .fortezza_dms_RESERVED]
  code
    | .rsa_sign => 1
    | .dss_sign => 2
    | .rsa_fixed_dh => 3
    | .dss_fixed_dh => 4
    | .rsa_ephemeral_dh_RESERVED => 5
    | .dss_ephemeral_dh_RESERVED => 6
    | .fortezza_dms_RESERVED => 20

/-- `CertificiateTypeVec`, src/handshake.rs:312. -/
abbrev CertificiateTypeVec := TlsVec ClientCertificateType 1 255

/-- `DistinguishedName`, src/handshake.rs:314. -/
abbrev DistinguishedName := TlsVec UInt8 1 65535
/-- `DistinguishedNameVec`, src/handshake.rs:315. -/
abbrev DistinguishedNameVec := TlsVec DistinguishedName 0 65535

/-- `CertificateRequest`, src/handshake.rs:317-323. -/
structure CertificateRequest where
  certificateTypes : CertificiateTypeVec
  supportedSignatureAlgorithms : SignatureAndHashAlgorithmVec
  certificateAuthorities : DistinguishedNameVec
  deriving DecidableEq, Repr

instance : TlsItem CertificateRequest where
  write a := do
    let b1 ← TlsItem.write a.certificateTypes
    let b2 ← TlsItem.write a.supportedSignatureAlgorithms
    let b3 ← TlsItem.write a.certificateAuthorities
    return b1 ++ (b2 ++ b3)
  read := do
    let certificateTypes ← TlsItem.read
    let supportedSignatureAlgorithms ← TlsItem.read
    let certificateAuthorities ← TlsItem.read
    return { certificateTypes, supportedSignatureAlgorithms, certificateAuthorities }
  size a := TlsItem.size a.certificateTypes + TlsItem.size a.supportedSignatureAlgorithms + TlsItem.size a.certificateAuthorities

/-- `VerifyData`, src/handshake.rs:326. -/
abbrev VerifyData := TlsArray 12

/-- `Handshake`, src/handshake.rs:197-201, 268-281. -/
inductive Handshake
  | hello_request (body : DummyItem)
  | client_hello (body : ClientHello)
  | server_hello (body : ServerHello)
  | certificate (body : CertificateList)
  | server_key_exchange (body : ObscureData)
  | certificate_request (body : CertificateRequest)
  | server_hello_done (body : DummyItem)
  | client_key_exchange (body : ObscureData)
  | finished (body : VerifyData)
  deriving DecidableEq, Repr

/-- One arm of `tls_write`, src/handshake.rs:207-216: type byte, 24-bit length (truncating), body. -/
def Handshake.writeBody [TlsItem α] (num : Nat) (body : α) : Res Bytes := do
  let b ← TlsItem.write body
  return writeNum 1 num ++ writeNum 3 (TlsItem.size body) ++ b

/-- One arm of the match of `tls_read`, src/handshake.rs:236-239. -/
def Handshake.readBody (α : Type) [TlsItem α] (mk : α → Handshake) : P Handshake := do
  let body ← TlsItem.read (α := α)
  return mk body

/-- The match of `tls_read`, src/handshake.rs:234-244. -/
def Handshake.readArm (ty : Nat) : P Handshake :=
  if ty = 0 then readBody DummyItem .hello_request
  else if ty = 1 then readBody ClientHello .client_hello
  else if ty = 2 then readBody ServerHello .server_hello
  else if ty = 11 then readBody CertificateList .certificate
  else if ty = 12 then readBody ObscureData .server_key_exchange
  else if ty = 13 then readBody CertificateRequest .certificate_request
  else if ty = 14 then readBody DummyItem .server_hello_done
  else if ty = 16 then readBody ObscureData .client_key_exchange
  else if ty = 20 then readBody VerifyData .finished
  else St.err .UnexpectedMessage

/-- The end of `tls_read`, src/handshake.rs:246-253: reading one more byte must fail. -/
def Handshake.checkEnd (ret : Handshake) : P Handshake := ⟨fun rest =>
  match (readNum 1).run rest with
  | (.err _, rest) => (.ok ret, rest)
  | (_, rest) => (.err .InternalError, rest)⟩

/-- `tls_handshake!`, src/handshake.rs:203-264. The length field is read and ignored; a byte left over is an `InternalError`. -/
instance : TlsItem Handshake where
  write
    | .hello_request body => Handshake.writeBody 0 body
    | .client_hello body => Handshake.writeBody 1 body
    | .server_hello body => Handshake.writeBody 2 body
    | .certificate body => Handshake.writeBody 11 body
    | .server_key_exchange body => Handshake.writeBody 12 body
    | .certificate_request body => Handshake.writeBody 13 body
    | .server_hello_done body => Handshake.writeBody 14 body
    | .client_key_exchange body => Handshake.writeBody 16 body
    | .finished body => Handshake.writeBody 20 body
  read := do
    let ty ← readNum 1
    let _len ← readNum 3
    let ret ← Handshake.readArm ty
    Handshake.checkEnd ret
  size h := 1 + 3 + match h with
    | .hello_request body => TlsItem.size body
    | .client_hello body => TlsItem.size body
    | .server_hello body => TlsItem.size body
    | .certificate body => TlsItem.size body
    | .server_key_exchange body => TlsItem.size body
    | .certificate_request body => TlsItem.size body
    | .server_hello_done body => TlsItem.size body
    | .client_key_exchange body => TlsItem.size body
    | .finished body => TlsItem.size body

/-- `HandshakeBuffer`, src/handshake.rs:329-331, 334-336. -/
structure HandshakeBuffer where
  buf : Bytes := []
  deriving DecidableEq, Repr

namespace HandshakeBuffer

/-- `add_record`, src/handshake.rs:338-340. -/
def addRecord (fragment : Bytes) : St HandshakeBuffer Unit := St.modify fun b => { buf := b.buf ++ fragment }

/-- `get_message`, src/handshake.rs:343-372. -/
def getMessage : St HandshakeBuffer (Option Handshake) := ⟨fun s =>
  let len := s.buf.length
  if len < 4 then (.ok none, s)
  else
    let wantedLen := beNat ((s.buf.drop 1).take 3) + 4
    if len < wantedLen then (.ok none, s)
    else
      let message := s.buf.take wantedLen
      let s := { buf := s.buf.drop wantedLen }
      match ((TlsItem.read (α := Handshake)).run message).1 with
      | .ok h => (.ok (some h), s)
      | .err k => (.err k, s)
      | .panic => (.panic, s)
      | .diverge => (.diverge, s)⟩

end HandshakeBuffer

/-- `Handshake::new_client_hello`, src/handshake.rs:376-420. -/
def Handshake.newClientHello (random : Random) (cipherSuite : CipherSuite) (extensions : List Extension) : Res Handshake := do
  let clientVersion : ProtocolVersion := { major := TLS_VERSION.1, minor := TLS_VERSION.2 }
  let sessionId ← TlsVec.new 0 32 ([] : List UInt8)
  let cipherSuites ← TlsVec.new 2 65534 [cipherSuite]
  let compressionMethods ← TlsVec.new 1 255 [CompressionMethod.null]
  let extensions ← if extensions.isEmpty then pure none else do
    let ext ← TlsVec.new 0 65535 extensions
    pure (some ext)
  return .client_hello { clientVersion, random, sessionId, cipherSuites, compressionMethods, extensions }

/-- `Handshake::new_client_key_exchange`, src/handshake.rs:422-425. -/
def Handshake.newClientKeyExchange (data : Bytes) : Res Handshake := .ok (.client_key_exchange ⟨data⟩)

/-- `Handshake::new_finished`, src/handshake.rs:427-430. -/
def Handshake.newFinished (data : Bytes) : Res Handshake := do
  let data ← TlsArray.new 12 data
  return .finished data

end Husk
