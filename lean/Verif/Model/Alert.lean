import Verif.Model.TlsItem
/-! Model of src/alert.rs. -/

namespace Husk

/-- `AlertLevel`, src/alert.rs:6-9. -/
inductive AlertLevel
  | warning | fatal
  deriving DecidableEq, Repr

instance : TlsEnum AlertLevel where
  width := 1
  all := [.warning, .fatal]
  code
    | .warning => 1
    | .fatal => 2

/-- `AlertDescription`, src/alert.rs:13-46. -/
inductive AlertDescription
  | close_notify | unexpected_message | bad_record_mac | decryption_failed_RESERVED | record_overflow | decompression_failure
  | handshake_failure | no_certificate_RESERVED | bad_certificate | unsupported_certificate | certificate_revoked | certificate_expired
  | certificate_unknown | illegal_parameter | unknown_ca | access_denied | decode_error | decrypt_error
  | export_restriction_RESERVED | protocol_version | insufficient_security | internal_error | user_canceled | no_renegotiation
  | unsupported_extension | certificate_unobtainable | unrecognized_name | bad_certificate_status_response | bad_certificate_hash_value
  deriving DecidableEq, Repr

instance : TlsEnum AlertDescription where
  width := 1
  all := [.close_notify, .unexpected_message, .bad_record_mac, .decryption_failed_RESERVED, .record_overflow,
    .decompression_failure, .handshake_failure, .no_certificate_RESERVED, .bad_certificate,
    .unsupported_certificate, .certificate_revoked, .certificate_expired, .certificate_unknown,
    .illegal_parameter, .unknown_ca, .access_denied, .decode_error, .decrypt_error, .export_restriction_RESERVED,
    .protocol_version, .insufficient_security, .internal_error, .user_canceled, .no_renegotiation,
    .unsupported_extension, .certificate_unobtainable, .unrecognized_name, .bad_certificate_status_response,
    .bad_certificate_hash_value]
  code
    | .close_notify => 0
    | .unexpected_message => 10
    | .bad_record_mac => 20
    | .decryption_failed_RESERVED => 21
    | .record_overflow => 22
    | .decompression_failure => 30
    | .handshake_failure => 40
    | .no_certificate_RESERVED => 41
    | .bad_certificate => 42
    | .unsupported_certificate => 43
    | .certificate_revoked => 44
    | .certificate_expired => 45
    | .certificate_unknown => 46
    | .illegal_parameter => 47
    | .unknown_ca => 48
    | .access_denied => 49
    | .decode_error => 50
    | .decrypt_error => 51
    | .export_restriction_RESERVED => 60
    | .protocol_version => 70
    | .insufficient_security => 71
    | .internal_error => 80
    | .user_canceled => 90
    | .no_renegotiation => 100
    | .unsupported_extension => 110
    | .certificate_unobtainable => 111
    | .unrecognized_name => 112
    | .bad_certificate_status_response => 113
    | .bad_certificate_hash_value => 114

/-- `AlertDescription::from_err`, src/alert.rs:49-63. -/
def AlertDescription.fromErr : TlsErrorKind → AlertDescription
  | .UnexpectedMessage => .unexpected_message
  | .BadRecordMac => .bad_record_mac
  | .RecordOverflow => .record_overflow
  | .IllegalParameter => .illegal_parameter
  | .DecodeError => .decode_error
  | .DecryptError => .decrypt_error
  | .InternalError => .internal_error
  | .IoFailure => .internal_error
  | .AlertReceived => .close_notify

/-- `Alert`, src/alert.rs:66-71. -/
structure Alert where
  level : AlertLevel
  description : AlertDescription
  deriving DecidableEq, Repr

instance : TlsItem Alert where
  write a := do
    let x ← TlsItem.write a.level
    let y ← TlsItem.write a.description
    return x ++ y
  read := do
    let level ← TlsItem.read
    let description ← TlsItem.read
    return { level, description }
  size a := TlsItem.size a.level + TlsItem.size a.description

/-- `Alert::new`, src/alert.rs:74-80. -/
def Alert.new (level : AlertLevel) (desc : AlertDescription) : Res Alert := .ok { level, description := desc }

/-- `Alert::from_tls_err`, src/alert.rs:82-87. -/
def Alert.fromTlsErr (k : TlsErrorKind) : Alert := { level := .fatal, description := .fromErr k }

end Husk
