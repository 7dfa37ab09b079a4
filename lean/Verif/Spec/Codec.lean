import Verif.Model.Handshake
import Verif.Model.Alert
/-! What the codec properties talk about: values a user of the crate can construct. A vector or array can only come out of its `new`
(its field is private); enums, structs, `ObscureData` and `Extension::Unknown` can be built freely. -/

namespace Husk.Spec

/-- `v` was returned by `new` and its items satisfy `B`. -/
def BuiltVec {min max : Nat} [TlsItem α] (B : α → Prop) (v : TlsVec α min max) : Prop :=
  (∃ items, TlsVec.new min max items = .ok v) ∧ ∀ x ∈ v.items, B x

/-- `a` was returned by `new`. -/
def BuiltArray (a : TlsArray n) : Prop := ∃ v, TlsArray.new n v = .ok a

/-- For items whose every value can be built. -/
def Any (_ : α) : Prop := True

/-- An extension whose parts came out of their constructors. Note that `Unknown(10, data)` qualifies. -/
def BuiltExt : Extension → Prop
  | .elliptic_curves l => BuiltVec Any l
  | .ec_point_formats l => BuiltVec Any l
  | .signature_algorithms l => BuiltVec Any l
  | .Unknown _ _ => True

def BuiltExts : Option ExtensionVec → Prop
  | none => True
  | some v => BuiltVec BuiltExt v

def BuiltHandshake : Handshake → Prop
  | .hello_request _ => True
  | .client_hello h => BuiltArray h.random ∧ BuiltVec Any h.sessionId ∧ BuiltVec Any h.cipherSuites ∧
      BuiltVec Any h.compressionMethods ∧ BuiltExts h.extensions
  | .server_hello h => BuiltArray h.random ∧ BuiltVec Any h.sessionId ∧ BuiltExts h.extensions
  | .certificate l => BuiltVec (BuiltVec Any) l
  | .server_key_exchange _ => True
  | .certificate_request r => BuiltVec Any r.certificateTypes ∧ BuiltVec Any r.supportedSignatureAlgorithms ∧
      BuiltVec (BuiltVec Any) r.certificateAuthorities
  | .server_hello_done _ => True
  | .client_key_exchange _ => True
  | .finished d => BuiltArray d

/-- The extension does not carry, as `Unknown`, a type number that has its own variant. -/
def NotShadowed : Extension → Prop
  | .Unknown ty _ => ty ≠ 10 ∧ ty ≠ 11 ∧ ty ≠ 13
  | _ => True

/-- The extension block of a hello. -/
def extensionsOf : Handshake → List Extension
  | .client_hello h => (h.extensions.map TlsVec.items).getD []
  | .server_hello h => (h.extensions.map TlsVec.items).getD []
  | _ => []

/-- A hello that has an extension block. -/
def HasExtensionBlock : Handshake → Prop
  | .client_hello h => h.extensions ≠ none
  | .server_hello h => h.extensions ≠ none
  | _ => False

/-- The cipher suites a message mentions. -/
def suitesOf : Handshake → List CipherSuite
  | .client_hello h => h.cipherSuites.items
  | .server_hello h => [h.cipherSuite]
  | _ => []

/-- Handshake framing of RFC 5246 section 7.4: type, 24-bit length, body. -/
def frame (ty : UInt8) (body : Bytes) : Bytes :=
  ty :: UInt8.ofNat (body.length / 65536) :: UInt8.ofNat (body.length / 256) :: UInt8.ofNat body.length :: body

/-- The message type of RFC 5246 section 7.4. -/
def typeOf : Handshake → UInt8
  | .hello_request _ => 0
  | .client_hello _ => 1
  | .server_hello _ => 2
  | .certificate _ => 11
  | .server_key_exchange _ => 12
  | .certificate_request _ => 13
  | .server_hello_done _ => 14
  | .client_key_exchange _ => 16
  | .finished _ => 20

end Husk.Spec
