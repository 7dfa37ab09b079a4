import Verif.Model.TlsItem
/-! Model of src/signature.rs. -/

namespace Husk

/-- `HashAlgorithm`, src/signature.rs:6-9. -/
inductive HashAlgorithm
  | none | md5 | sha1 | sha224 | sha256 | sha384
  | sha512
  deriving DecidableEq, Repr

instance : TlsEnum HashAlgorithm where
  width := 1
  all := [.none, .md5, .sha1, .sha224, .sha256, .sha384, .sha512]
  code
    | .none => 0
    | .md5 => 1
    | .sha1 => 2
    | .sha224 => 3
    | .sha256 => 4
    | .sha384 => 5
    | .sha512 => 6

/-- `SignatureAlgorithm`, src/signature.rs:11-13. -/
inductive SignatureAlgorithm
  | anonymous | rsa | dsa | ecdsa
  deriving DecidableEq, Repr

instance : TlsEnum SignatureAlgorithm where
  width := 1
  all := [.anonymous, .rsa, .dsa, .ecdsa]
  code
    | .anonymous => 0
    | .rsa => 1
    | .dsa => 2
    | .ecdsa => 3

/-- `SignatureAndHashAlgorithm`, src/signature.rs:15-20. -/
structure SignatureAndHashAlgorithm where
  hash : HashAlgorithm
  signature : SignatureAlgorithm
  deriving DecidableEq, Repr

instance : TlsItem SignatureAndHashAlgorithm where
  write a := do
    let x ← TlsItem.write a.hash
    let y ← TlsItem.write a.signature
    return x ++ y
  read := do
    let hash ← TlsItem.read
    let signature ← TlsItem.read
    return { hash, signature }
  size a := TlsItem.size a.hash + TlsItem.size a.signature

/-- `SignatureAndHashAlgorithmVec`, src/signature.rs:21. -/
abbrev SignatureAndHashAlgorithmVec := TlsVec SignatureAndHashAlgorithm 2 65534

/-- `Signature`, src/signature.rs:23. -/
abbrev Signature := TlsVec UInt8 0 65535

/-- `DigitallySigned`, src/signature.rs:24-29. -/
structure DigitallySigned where
  algorithm : SignatureAndHashAlgorithm
  signature : Signature
  deriving DecidableEq, Repr

instance : TlsItem DigitallySigned where
  write a := do
    let x ← TlsItem.write a.algorithm
    let y ← TlsItem.write a.signature
    return x ++ y
  read := do
    let algorithm ← TlsItem.read
    let signature ← TlsItem.read
    return { algorithm, signature }
  size a := TlsItem.size a.algorithm + TlsItem.size a.signature

end Husk
