import Verif.Model.Transport
import Verif.Model.Handshake
import Verif.Model.Alert
import Verif.Model.AeadChaCha
/-! Model of src/tls.rs: the record layer. -/

namespace Husk

/-- `ContentType`, src/tls.rs:24-34. -/
inductive ContentType
  | ChangeCipherSpecTy | AlertTy | HandshakeTy | ApplicationDataTy
  deriving DecidableEq, Repr

/-- `ty as u8`, src/tls.rs:28-31. -/
def ContentType.toU8 : ContentType → UInt8
  | .ChangeCipherSpecTy => 20
  | .AlertTy => 21
  | .HandshakeTy => 22
  | .ApplicationDataTy => 23

/-- `FromPrimitive::from_u8` for `ContentType`, as generated by `enum_from_primitive!` (src/tls.rs:24). -/
def ContentType.ofU8 (n : UInt8) : Option ContentType :=
  if n = 20 then some .ChangeCipherSpecTy
  else if n = 21 then some .AlertTy
  else if n = 22 then some .HandshakeTy
  else if n = 23 then some .ApplicationDataTy
  else none

/-- `RECORD_MAX_LEN`, src/tls.rs:37. -/
def RECORD_MAX_LEN : Nat := 16384
/-- `ENC_RECORD_MAX_LEN`, src/tls.rs:40. -/
def ENC_RECORD_MAX_LEN : Nat := 18432

/-- `Record`, src/tls.rs:42-50. -/
structure Record where
  contentType : ContentType
  verMajor : UInt8
  verMinor : UInt8
  fragment : Bytes
  deriving DecidableEq, Repr

/-- `Record::new`, src/tls.rs:53-70. -/
def Record.new (contentType : ContentType) (verMajor verMinor : UInt8) (fragment : Bytes) : Res Record :=
  if fragment.length > RECORD_MAX_LEN then .panic else .ok { contentType, verMajor, verMinor, fragment }

/-- `Box<dyn Encryptor>`, src/cipher/mod.rs:22-24. The trait allows `&mut self`; the model is restricted to encryptors without inner
state, which the only implementation of the crate (src/cipher/chacha20_poly1305.rs:46-61) is. `encrypt` returns a
`Vec`, so of the outcomes only `ok` and `panic` can occur. -/
structure Encryptor where
  encrypt : (nonce plain ad : Bytes) → Res Bytes

/-- `Box<dyn Decryptor>`, src/cipher/mod.rs:28-32, without inner state (as src/cipher/chacha20_poly1305.rs:63-102). -/
structure Decryptor where
  decrypt : (nonce encrypted ad : Bytes) → Res Bytes
  macLen : Nat

/-- `ChaCha20Poly1305::new_encryptor`, src/cipher/chacha20_poly1305.rs:46-61, 123-126. -/
def Encryptor.chacha (m : Mode) (key : Bytes) : Encryptor := { encrypt := Aead.encrypt m key }
/-- `ChaCha20Poly1305::new_decryptor`, src/cipher/chacha20_poly1305.rs:63-102, 129-132. -/
def Decryptor.chacha (m : Mode) (key : Bytes) : Decryptor := { decrypt := Aead.decrypt m key, macLen := Aead.MAC_LEN }

/-- One call of `Encryptor::encrypt` (ghost: recorded for the statements about nonces, never looked at by the model). -/
structure SealCall where
  nonce : Bytes
  plain : Bytes
  ad : Bytes
  out : Bytes
  deriving DecidableEq, Repr

/-- `TlsWriter`, src/tls.rs:75-81, with the ghost field `calls`. -/
structure TlsWriter where
  writer : Writer
  encryptor : Option Encryptor := none
  writeCount : UInt64 := 0
  iv : Option Bytes := none
  calls : List SealCall := []

/-- `nonce ^= iv` over `zip`, src/tls.rs:132-137 and 302-307: positions beyond the shorter operand keep their value. -/
def xorIv (nonce iv : Bytes) : Bytes := List.zipWith (· ^^^ ·) nonce iv ++ nonce.drop iv.length

namespace TlsWriter

/-- `TlsWriter::new`, src/tls.rs:86-93. -/
def new (writer : Writer) : TlsWriter := { writer }

/-- A call on the field `writer`. -/
def io (x : St Writer α) : St TlsWriter α := St.zoom (·.writer) (fun w s => { s with writer := w }) x

/-- `set_encryptor`, src/tls.rs:102-106. -/
def setEncryptor (e : Encryptor) : St TlsWriter Unit := ⟨fun s =>
  match s.encryptor with
  | none => (.ok (), { s with encryptor := some e, writeCount := 0 })
  | some _ => (.panic, s)⟩

/-- `set_iv`, src/tls.rs:110-113. -/
def setIv (iv : Bytes) : St TlsWriter Unit := ⟨fun s =>
  match s.iv with
  | none => (.ok (), { s with iv := some iv })
  | some _ => (.panic, s)⟩

/-- The nonce, src/tls.rs:119-121, 132-137. -/
def nonce (s : TlsWriter) : Bytes :=
  let seq := List.replicate 4 0 ++ Util.u64BeArray s.writeCount
  match s.iv with
  | some iv => xorIv seq iv
  | none => seq

/-- The additional data, src/tls.rs:119, 123-130. -/
def ad (s : TlsWriter) (record : Record) : Bytes :=
  let fragLen := UInt16.ofNat record.fragment.length
  Util.u64BeArray s.writeCount ++ [record.contentType.toU8, record.verMajor, record.verMinor, (fragLen >>> 8).toUInt8, fragLen.toUInt8]

/-- The `match self.encryptor`, src/tls.rs:116-140. -/
def protect (record : Record) : St TlsWriter Bytes := ⟨fun s =>
  match s.encryptor with
  | none => (.ok record.fragment, s)
  | some e =>
    match e.encrypt s.nonce record.fragment (s.ad record) with
    | .ok c => (.ok c, { s with calls := s.calls ++ [⟨s.nonce, record.fragment, s.ad record, c⟩] })
    | .err k => (.err k, s)
    | .panic => (.panic, s)
    | .diverge => (.diverge, s)⟩

/-- `self.write_count += 1`, src/tls.rs:153. -/
def bump (m : Mode) : St TlsWriter Unit := ⟨fun s =>
  match addU64 m s.writeCount 1 with
  | .ok n => (.ok (), { s with writeCount := n })
  | .err k => (.err k, s)
  | .panic => (.panic, s)
  | .diverge => (.diverge, s)⟩

/-- `write_record`, src/tls.rs:115-156. -/
def writeRecord (m : Mode) (record : Record) : St TlsWriter Unit := do
  let encrypted ← protect record
  if encrypted.length > ENC_RECORD_MAX_LEN then St.panic
  else do
    io (Writer.writeU8 record.contentType.toU8)
    io (Writer.writeU8 record.verMajor)
    io (Writer.writeU8 record.verMinor)
    io (Writer.writeBeU16 (UInt16.ofNat encrypted.length))
    io (Writer.writeAll encrypted)
    bump m

/-- The loop of `write_data`, src/tls.rs:161-165. -/
def writeChunks (m : Mode) (ty : ContentType) : List Bytes → St TlsWriter Unit
  | [] => pure ()
  | c :: cs => do
    let record ← St.lift (Record.new ty TLS_VERSION.1 TLS_VERSION.2 c)
    writeRecord m record
    writeChunks m ty cs

/-- `write_data`, src/tls.rs:158-168. -/
def writeData (m : Mode) (ty : ContentType) (data : Bytes) : St TlsWriter Unit := writeChunks m ty (chunks RECORD_MAX_LEN data)

/-- `write_handshake`, src/tls.rs:170-174. -/
def writeHandshake (m : Mode) (h : Handshake) : St TlsWriter Unit := do
  let data ← St.lift (TlsItem.write h)
  writeData m .HandshakeTy data

/-- `write_alert`, src/tls.rs:176-180. -/
def writeAlert (m : Mode) (a : Alert) : St TlsWriter Unit := do
  let data ← St.lift (TlsItem.write a)
  writeData m .AlertTy data

/-- `write_change_cipher_spec`, src/tls.rs:182-184. -/
def writeChangeCipherSpec (m : Mode) : St TlsWriter Unit := writeData m .ChangeCipherSpecTy [1]

/-- `write_application_data`, src/tls.rs:186-191. -/
def writeApplicationData (m : Mode) (data : Bytes) : St TlsWriter Unit := do
  let s ← St.get
  if s.encryptor.isNone then St.panic else writeData m .ApplicationDataTy data

end TlsWriter

/-- `Message`, src/tls.rs:195-200. -/
inductive Message
  | HandshakeMessage (h : Handshake)
  | ChangeCipherSpecMessage
  | AlertMessage (a : Alert)
  | ApplicationDataMessage (b : Bytes)
  deriving DecidableEq, Repr

/-- `TlsReader`, src/tls.rs:202-209. -/
structure TlsReader where
  reader : Reader
  decryptor : Option Decryptor := none
  readCount : UInt64 := 0
  handshakeBuffer : HandshakeBuffer := {}
  iv : Option Bytes := none

/-- Number of bytes the transport is still going to deliver. -/
def Ev.bytes : Ev → Nat
  | .data b => b.length
  | .fail _ => 0
/-- Number of bytes the transport is still going to deliver. -/
def Reader.bytes (r : Reader) : Nat := (r.script.map Ev.bytes).sum

namespace TlsReader

/-- `TlsReader::new`, src/tls.rs:214-222. -/
def new (reader : Reader) : TlsReader := { reader }

/-- A call on the field `reader`. -/
def io (x : St Reader α) : St TlsReader α := St.zoom (·.reader) (fun r s => { s with reader := r }) x

/-- A call on the field `handshake_buffer`. -/
def onBuffer (x : St HandshakeBuffer α) : St TlsReader α := St.zoom (·.handshakeBuffer) (fun b s => { s with handshakeBuffer := b }) x

/-- `set_decryptor`, src/tls.rs:231-235. -/
def setDecryptor (d : Decryptor) : St TlsReader Unit := ⟨fun s =>
  match s.decryptor with
  | none => (.ok (), { s with decryptor := some d, readCount := 0 })
  | some _ => (.panic, s)⟩

/-- `set_iv`, src/tls.rs:239-242. -/
def setIv (iv : Bytes) : St TlsReader Unit := ⟨fun s =>
  match s.iv with
  | none => (.ok (), { s with iv := some iv })
  | some _ => (.panic, s)⟩

/-- The nonce, src/tls.rs:282-284, 302-307. -/
def nonce (s : TlsReader) : Bytes :=
  let seq := List.replicate 4 0 ++ Util.u64BeArray s.readCount
  match s.iv with
  | some iv => xorIv seq iv
  | none => seq

/-- The additional data, src/tls.rs:282, 287-300. -/
def ad (s : TlsReader) (ty : ContentType) (major minor : UInt8) (plainLen : Nat) : Bytes :=
  let fragLen := UInt16.ofNat plainLen
  Util.u64BeArray s.readCount ++ [ty.toU8, major, minor, (fragLen >>> 8).toUInt8, fragLen.toUInt8]

/-- The `match self.decryptor`, src/tls.rs:270-318. The `u16` cast of `total_len - mac_len` happens after the length check. -/
def unprotect (s : TlsReader) (ty : ContentType) (major minor : UInt8) (fragment : Bytes) : Res Record :=
  match s.decryptor with
  | none =>
    if fragment.length > RECORD_MAX_LEN then .err .RecordOverflow
    else Record.new ty major minor fragment
  | some d =>
    if fragment.length < d.macLen then .err .BadRecordMac
    else do
      let data ← d.decrypt s.nonce fragment (s.ad ty major minor (fragment.length - d.macLen))
      if data.length > RECORD_MAX_LEN then .panic
      else Record.new ty major minor data

/-- `self.read_count += 1`, src/tls.rs:320. -/
def bump (m : Mode) : St TlsReader Unit := ⟨fun s =>
  match addU64 m s.readCount 1 with
  | .ok n => (.ok (), { s with readCount := n })
  | .err k => (.err k, s)
  | .panic => (.panic, s)
  | .diverge => (.diverge, s)⟩

/-- `read_record`, src/tls.rs:247-323. -/
def readRecord (m : Mode) : St TlsReader Record := do
  let ty ← io Reader.readU8
  match ContentType.ofU8 ty with
  | none => St.err .UnexpectedMessage
  | some ty => do
    let major ← io Reader.readU8
    let minor ← io Reader.readU8
    let len ← io Reader.readBeU16
    if len.toNat > ENC_RECORD_MAX_LEN then St.err .RecordOverflow
    else do
      let fragment ← io (Reader.readExact len.toNat)
      let s ← St.get
      let record ← St.lift (s.unprotect ty major minor fragment)
      bump m
      return record

/-- The arm for `ChangeCipherSpecTy`, src/tls.rs:348-353. -/
def ccsMessage (fragment : Bytes) : Res Message :=
  if fragment.length ≠ 1 ∨ fragment.getD 0 0 ≠ 1 then .err .UnexpectedMessage else .ok .ChangeCipherSpecMessage

/-- The arm for `AlertTy`, src/tls.rs:354-376. -/
def alertMessage (fragment : Bytes) : Res Message :=
  if fragment.length = 0 then .err .UnexpectedMessage
  else if fragment.length < 2 then .err .UnexpectedMessage
  else
    let level : Option AlertLevel := TlsEnum.ofCode (fragment.getD 0 0).toNat
    let desc : Option AlertDescription := TlsEnum.ofCode (fragment.getD 1 0).toNat
    match level, desc with
    | some level, some desc => do
      let a ← Alert.new level desc
      return .AlertMessage a
    | _, _ => .err .UnexpectedMessage

/-- The body of the loop of `read_message`, src/tls.rs:346-390: `none` means another round. -/
def messageStep (m : Mode) : St TlsReader (Option Message) := do
  let record ← readRecord m
  match record.contentType with
  | .ChangeCipherSpecTy => do
    let msg ← St.lift (ccsMessage record.fragment)
    return some msg
  | .AlertTy => do
    let msg ← St.lift (alertMessage record.fragment)
    return some msg
  | .HandshakeTy =>
    if record.fragment.isEmpty then St.err .UnexpectedMessage
    else do
      onBuffer (HandshakeBuffer.addRecord record.fragment)
      let msg ← onBuffer HandshakeBuffer.getMessage
      match msg with
      | some h => return some (.HandshakeMessage h)
      | none => return none
  | .ApplicationDataTy => return some (.ApplicationDataMessage record.fragment)

/-- The loop of `read_message`, src/tls.rs:342-391. Every round takes at least five bytes from the transport, so as many rounds as there
are bytes to come suffice; running out of fuel is `diverge` (proved impossible). -/
def messageLoop (m : Mode) : (fuel : Nat) → St TlsReader Message
  | 0 => St.lift .diverge
  | fuel + 1 => do
    match ← messageStep m with
    | some msg => return msg
    | none => messageLoop m fuel

/-- `read_message`, src/tls.rs:336-392. -/
def readMessage (m : Mode) : St TlsReader Message := do
  match ← onBuffer HandshakeBuffer.getMessage with
  | some h => return .HandshakeMessage h
  | none => do
    let s ← St.get
    messageLoop m (s.reader.bytes + 1)

/-- The `match msg` of `read_application_data`, src/tls.rs:400-410. No arm goes round the loop again. -/
def applicationData : Message → Res Bytes
  | .ApplicationDataMessage b => .ok b
  | .AlertMessage a => if a.description = .close_notify then .ok [] else .panic
  | .ChangeCipherSpecMessage => .panic
  | .HandshakeMessage _ => .panic

/-- `read_application_data`, src/tls.rs:394-412. -/
def readApplicationData (m : Mode) : St TlsReader Bytes := do
  let s ← St.get
  if s.decryptor.isNone then St.panic
  else do
    let msg ← readMessage m
    St.lift (applicationData msg)

/-- `read_handshake`, src/tls.rs:414-420. -/
def readHandshake (m : Mode) : St TlsReader Handshake := do
  match ← readMessage m with
  | .HandshakeMessage h => return h
  | .AlertMessage _ => St.err .AlertReceived
  | _ => St.err .UnexpectedMessage

/-- `read_change_cipher_spec`, src/tls.rs:422-430. -/
def readChangeCipherSpec (m : Mode) : St TlsReader Unit := do
  match ← readMessage m with
  | .ChangeCipherSpecMessage => return ()
  | _ => St.err .UnexpectedMessage

end TlsReader

end Husk
