import Verif.Model.TlsItem
/-! Model of `CipherSuite`, src/cipher/mod.rs:39-115. `new_aead` and `new_kex` (53-69) return the only implementations there are; the
`unreachable!()` arms for `UnknownCipherSuite` are never called, the client only calls them on its own suite (src/client.rs:73,129,149). -/

namespace Husk

/-- `CipherSuite`, src/cipher/mod.rs:45-50, 108-115. -/
inductive CipherSuite
  | TLS_ECDHE_RSA_WITH_CHACHA20_POLY1305_SHA256
  | UnknownCipherSuite
  deriving DecidableEq, Repr

/-- `verify_data_len`, src/cipher/mod.rs:72. -/
def CipherSuite.verifyDataLen (_ : CipherSuite) : Nat := 12

/-- src/cipher/mod.rs:75-103. -/
instance : TlsItem CipherSuite where
  write
    | .TLS_ECDHE_RSA_WITH_CHACHA20_POLY1305_SHA256 => .ok [0xcc, 0xa8]
    | .UnknownCipherSuite => .err .UnexpectedMessage
  read := do
    let id1 ← Item.readNum 1
    let id2 ← Item.readNum 1
    if id1 = 0xcc ∧ id2 = 0xa8 then return .TLS_ECDHE_RSA_WITH_CHACHA20_POLY1305_SHA256
    else return .UnknownCipherSuite
  size _ := 2

end Husk
