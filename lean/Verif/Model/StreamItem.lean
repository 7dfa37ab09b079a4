import Verif.Model.Transport
import Verif.Model.Alert
import Verif.Model.Ecdhe
/-! `tls_read` and `tls_write` of every `TlsItem` on a general `Read` and `Write` (the trait is public and generic in both; the client itself
only ever uses byte strings in memory, for which see `Model/TlsItem`). Same sources, call by call: each number is one or, for `u24`, three calls
of `ReadExt`/`WriteExt`. -/

namespace Husk

/-- The loop of `Read::read_to_end` (std): chunks are collected until a call returns `Ok(0)`; `Interrupted` is retried, any other error is
returned. (How many bytes std asks for at a time makes no difference to what is collected.) -/
def Reader.readToEndLoop : List Ev → Bytes → Res Bytes × Reader
  | [], acc => (.ok acc, ⟨[]⟩)
  | .data b :: es, acc => if b.length = 0 then (.ok acc, ⟨es⟩) else readToEndLoop es (acc ++ b)
  | .fail true :: es, acc => readToEndLoop es acc
  | .fail false :: es, _ => (.err .IoFailure, ⟨es⟩)

/-- `Read::read_to_end` (std). -/
def Reader.readToEnd : St Reader Bytes := ⟨fun r => readToEndLoop r.script []⟩

namespace StreamItem

/-- `try_read_num!`, src/macros.rs:38-57. -/
def readNum : (k : Nat) → St Reader Nat
  | 1 => do
    let x ← Reader.readU8
    return x.toNat
  | 2 => do
    let x ← Reader.readBeU16
    return x.toNat
  | 3 => do
    let n1 ← Reader.readU8
    let n2 ← Reader.readU8
    let n3 ← Reader.readU8
    return ((n1.toUInt32 <<< 16) ||| (n2.toUInt32 <<< 8) ||| n3.toUInt32).toNat
  | 4 => do
    let x ← Reader.readBeU32
    return x.toNat
  | _ => do
    let x ← Reader.readBeU64
    return x.toNat

/-- `try_write_num!`, src/macros.rs:15-36. -/
def writeNum : (k : Nat) → Nat → St Writer Unit
  | 1, n => Writer.writeU8 (UInt8.ofNat n)
  | 2, n => Writer.writeBeU16 (UInt16.ofNat n)
  | 3, n => do
    let e := UInt32.ofNat n
    Writer.writeU8 (e >>> 16).toUInt8
    Writer.writeU8 (e >>> 8).toUInt8
    Writer.writeU8 e.toUInt8
  | 4, n => Writer.writeBeU32 (UInt32.ofNat n)
  | _, n => Writer.writeBeU64 (UInt64.ofNat n)

end StreamItem

open StreamItem

/-- `trait TlsItem`, src/tls_item.rs:15-24, with its generic reader and writer. -/
class StreamItem (α : Type) where
  readFrom : St Reader α
  writeTo : α → St Writer Unit

export StreamItem (readFrom writeTo)

/-- `tls_primitive!(u8)`, src/tls_item.rs:27-50. -/
instance : StreamItem UInt8 where
  readFrom := do
    let n ← readNum 1
    return UInt8.ofNat n
  writeTo x := writeNum 1 x.toNat

/-- `tls_enum!`, src/tls_item.rs:121-140. -/
instance [TlsEnum α] : StreamItem α where
  readFrom := do
    let num ← readNum (TlsEnum.width α)
    match TlsEnum.ofCode num with
    | some a => return a
    | none => St.err .DecodeError
  writeTo a := writeNum (TlsEnum.width α) (TlsEnum.code a)

/-- src/tls_item.rs:166-180. -/
instance : StreamItem (TlsArray n) where
  readFrom := do
    let data ← Reader.readExact n
    return ⟨data⟩
  writeTo a := Writer.writeAll a.data

namespace TlsVec

variable {α : Type} [TlsItem α] [StreamItem α]

/-- src/tls_item.rs:255-257. -/
def writeItemsTo : List α → St Writer Unit
  | [] => return
  | x :: xs => do
    writeTo x
    writeItemsTo xs

/-- The `while` loop, src/tls_item.rs:279-291, as in `readItems`. -/
def readItemsFrom (selfSize : Nat) : (fuel : Nat) → (itemsSize : Nat) → List α → St Reader (List α)
  | fuel, itemsSize, acc =>
    if itemsSize < selfSize then
      match fuel with
      | 0 => St.lift .diverge
      | fuel + 1 => do
        let item ← readFrom
        readItemsFrom selfSize fuel (itemsSize + TlsItem.size item) (acc ++ [item])
    else if itemsSize ≠ selfSize then St.err .DecodeError
    else pure acc

/-- src/tls_item.rs:237-316. -/
instance {min max : Nat} : StreamItem (TlsVec α min max) where
  readFrom := do
    let selfSize ← readNum (prefixLen max)
    let items ← readItemsFrom selfSize selfSize 0 []
    St.lift (new min max items)
  writeTo v := do
    writeNum (prefixLen max) (sizes v.items)
    writeItemsTo v.items

end TlsVec

/-- `tls_option!`, src/tls_item.rs:328-361; the `Cursor` is read in memory. -/
instance [TlsItem α] [StreamItem α] : StreamItem (Option α) where
  readFrom := do
    let rest ← Reader.readToEnd
    if rest.length = 0 then return none
    else
      let x ← St.lift ((TlsItem.read (α := α)).run rest).1
      return some x
  writeTo
    | some x => writeTo x
    | none => return

/-- `DummyItem`, src/tls_item.rs:364-376. -/
instance : StreamItem DummyItem where
  readFrom := return ⟨⟩
  writeTo _ := return

/-- `ObscureData`, src/tls_item.rs:380-397. -/
instance : StreamItem ObscureData where
  readFrom := do
    let data ← Reader.readToEnd
    return ⟨data⟩
  writeTo d := Writer.writeAll d.data

/-- `Alert` (`tls_struct!`, src/tls_item.rs:52-98), src/alert.rs:66-71. -/
instance : StreamItem Alert where
  readFrom := do
    let level ← readFrom
    let description ← readFrom
    return { level, description }
  writeTo a := do
    writeTo a.level
    writeTo a.description

/-- src/signature.rs:15-20. -/
instance : StreamItem SignatureAndHashAlgorithm where
  readFrom := do
    let hash ← readFrom
    let signature ← readFrom
    return { hash, signature }
  writeTo a := do
    writeTo a.hash
    writeTo a.signature

/-- src/signature.rs:24-29. -/
instance : StreamItem DigitallySigned where
  readFrom := do
    let algorithm ← readFrom
    let signature ← readFrom
    return { algorithm, signature }
  writeTo a := do
    writeTo a.algorithm
    writeTo a.signature

/-- src/cipher/mod.rs:75-103. -/
instance : StreamItem CipherSuite where
  readFrom := do
    let id1 ← Reader.readU8
    let id2 ← Reader.readU8
    if id1 = 0xcc ∧ id2 = 0xa8 then return .TLS_ECDHE_RSA_WITH_CHACHA20_POLY1305_SHA256
    else return .UnknownCipherSuite
  writeTo
    | .TLS_ECDHE_RSA_WITH_CHACHA20_POLY1305_SHA256 => do
      Writer.writeU8 0xcc
      Writer.writeU8 0xa8
    | .UnknownCipherSuite => St.err .UnexpectedMessage

/-- src/handshake.rs:24-29. -/
instance : StreamItem ProtocolVersion where
  readFrom := do
    let major ← readFrom
    let minor ← readFrom
    return { major, minor }
  writeTo a := do
    writeTo a.major
    writeTo a.minor

/-- One known arm of `tls_read`, src/handshake.rs:114-121. -/
def Extension.readBodyFrom (α : Type) [TlsItem α] [StreamItem α] (dataSize : Nat) (mk : α → Extension) : St Reader Extension := do
  let body ← readFrom (α := α)
  if dataSize ≠ TlsItem.size body then St.err .DecodeError
  else return mk body

/-- One known arm of `tls_write`, src/handshake.rs:94-98. -/
def Extension.writeBodyTo [TlsItem α] [StreamItem α] (num : Nat) (body : α) : St Writer Unit := do
  writeNum 2 num
  writeNum 2 (TlsItem.size body)
  writeTo body

/-- src/handshake.rs:90-129. -/
instance : StreamItem Extension where
  readFrom := do
    let extensionType ← readNum 2
    let dataSize ← readNum 2
    if extensionType = 10 then Extension.readBodyFrom EllipticCurveList dataSize .elliptic_curves
    else if extensionType = 11 then Extension.readBodyFrom ECPointFormatList dataSize .ec_point_formats
    else if extensionType = 13 then Extension.readBodyFrom SignatureAndHashAlgorithmVec dataSize .signature_algorithms
    else
      let body ← Reader.readExact dataSize
      return .Unknown (UInt16.ofNat extensionType) body
  writeTo
    | .elliptic_curves body => Extension.writeBodyTo 10 body
    | .ec_point_formats body => Extension.writeBodyTo 11 body
    | .signature_algorithms body => Extension.writeBodyTo 13 body
    | .Unknown ty data => do
      writeNum 2 ty.toNat
      writeNum 2 data.length
      Writer.writeAll data

/-- src/handshake.rs:283-292. -/
instance : StreamItem ClientHello where
  readFrom := do
    let clientVersion ← readFrom
    let random ← readFrom
    let sessionId ← readFrom
    let cipherSuites ← readFrom
    let compressionMethods ← readFrom
    let extensions ← readFrom
    return { clientVersion, random, sessionId, cipherSuites, compressionMethods, extensions }
  writeTo a := do
    writeTo a.clientVersion
    writeTo a.random
    writeTo a.sessionId
    writeTo a.cipherSuites
    writeTo a.compressionMethods
    writeTo a.extensions

/-- src/handshake.rs:294-303. -/
instance : StreamItem ServerHello where
  readFrom := do
    let serverVersion ← readFrom
    let random ← readFrom
    let sessionId ← readFrom
    let cipherSuite ← readFrom
    let compressionMethod ← readFrom
    let extensions ← readFrom
    return { serverVersion, random, sessionId, cipherSuite, compressionMethod, extensions }
  writeTo a := do
    writeTo a.serverVersion
    writeTo a.random
    writeTo a.sessionId
    writeTo a.cipherSuite
    writeTo a.compressionMethod
    writeTo a.extensions

/-- src/handshake.rs:317-323. -/
instance : StreamItem CertificateRequest where
  readFrom := do
    let certificateTypes ← readFrom
    let supportedSignatureAlgorithms ← readFrom
    let certificateAuthorities ← readFrom
    return { certificateTypes, supportedSignatureAlgorithms, certificateAuthorities }
  writeTo a := do
    writeTo a.certificateTypes
    writeTo a.supportedSignatureAlgorithms
    writeTo a.certificateAuthorities

/-- `tls_enum_struct!`, src/cipher/ecdhe.rs:55-91. -/
instance : StreamItem EcParameters where
  readFrom := do
    let num ← readNum 1
    if num = 3 then do
      let body ← readFrom
      return .named_curve body
    else St.err .DecodeError
  writeTo
    | .named_curve body => do
      writeNum 1 3
      writeTo body

/-- src/cipher/ecdhe.rs:104-109. -/
instance : StreamItem ServerEcdhParams where
  readFrom := do
    let curve_params ← readFrom
    let pub ← readFrom
    return { curve_params, pub }
  writeTo a := do
    writeTo a.curve_params
    writeTo a.pub

/-- src/cipher/ecdhe.rs:111-116. -/
instance : StreamItem EcdheServerKeyExchange where
  readFrom := do
    let params ← readFrom
    let signed_params ← readFrom
    return { params, signed_params }
  writeTo a := do
    writeTo a.params
    writeTo a.signed_params

/-- One arm of `tls_write`, src/handshake.rs:207-216. (`(len >> 16) & 0xff as u8` and so on are the three bytes of `try_write_num!(u24, ..)`.) -/
def Handshake.writeBodyTo [TlsItem α] [StreamItem α] (num : Nat) (body : α) : St Writer Unit := do
  Writer.writeU8 (UInt8.ofNat num)
  writeNum 3 (TlsItem.size body)
  writeTo body

/-- One arm of the match of `tls_read`, src/handshake.rs:236-239. -/
def Handshake.readBodyFrom (α : Type) [StreamItem α] (mk : α → Handshake) : St Reader Handshake := do
  let body ← readFrom (α := α)
  return mk body

/-- The match of `tls_read`, src/handshake.rs:234-244. -/
def Handshake.readArmFrom (ty : Nat) : St Reader Handshake :=
  if ty = 0 then readBodyFrom DummyItem .hello_request
  else if ty = 1 then readBodyFrom ClientHello .client_hello
  else if ty = 2 then readBodyFrom ServerHello .server_hello
  else if ty = 11 then readBodyFrom CertificateList .certificate
  else if ty = 12 then readBodyFrom ObscureData .server_key_exchange
  else if ty = 13 then readBodyFrom CertificateRequest .certificate_request
  else if ty = 14 then readBodyFrom DummyItem .server_hello_done
  else if ty = 16 then readBodyFrom ObscureData .client_key_exchange
  else if ty = 20 then readBodyFrom VerifyData .finished
  else St.err .UnexpectedMessage

/-- The end of `tls_read`, src/handshake.rs:246-253. -/
def Handshake.checkEndFrom (ret : Handshake) : St Reader Handshake := ⟨fun r =>
  match Reader.readU8.run r with
  | (.err _, r) => (.ok ret, r)
  | (_, r) => (.err .InternalError, r)⟩

/-- src/handshake.rs:203-264. -/
instance : StreamItem Handshake where
  readFrom := do
    let ty ← readNum 1
    let _len ← readNum 3
    let ret ← Handshake.readArmFrom ty
    Handshake.checkEndFrom ret
  writeTo
    | .hello_request body => Handshake.writeBodyTo 0 body
    | .client_hello body => Handshake.writeBodyTo 1 body
    | .server_hello body => Handshake.writeBodyTo 2 body
    | .certificate body => Handshake.writeBodyTo 11 body
    | .server_key_exchange body => Handshake.writeBodyTo 12 body
    | .certificate_request body => Handshake.writeBodyTo 13 body
    | .server_hello_done body => Handshake.writeBodyTo 14 body
    | .client_key_exchange body => Handshake.writeBodyTo 16 body
    | .finished body => Handshake.writeBodyTo 20 body

end Husk
