import Verif.Base.TraceSt
import Verif.Model.TraceSym
import Verif.Model.Client
/-! The record layer (src/tls.rs) and the calls `write`, `read` and `close` of src/client.rs with the observations of their execution (`Verif/Base/Trace`). Every function here
has the result of the function of the same name in the model (Proofs/TraceTls). A call on the transport shows the length of the buffer and how much was moved, or that it failed.
The functions of the model work with any encryptor; here it is the one of the crate, and `key` is the key it holds. Serialising an alert (two bytes that are not secret) and parsing
the messages of the handshake are not recorded. -/

namespace Husk

open TSt

/-- Whether a call returned `Ok`: the test of the operator `?`. -/
def Res.isOk : Res α → Bool
  | .ok _ => true
  | _ => false

/-! ### The transport -/

/-- `Write::write_all` and the `?` after it. -/
def Writer.writeAllT (b : Bytes) : TSt Writer Unit := ⟨fun w =>
  ([.size b.length, .branch ((Writer.writeAll b).run w).1.isOk], (Writer.writeAll b).run w)⟩

/-- `write_u8`, src/util.rs:69-74, 78, 155-157. -/
def Writer.writeU8T (x : UInt8) : TSt Writer Unit := writeAllT (Util.transmute 1 x.toNat)
/-- `write_be_u16`, src/util.rs:69-74, 79, 160-162. -/
def Writer.writeBeU16T (x : UInt16) : TSt Writer Unit := writeAllT (Util.transmute 2 (Util.toBe 2 x.toNat))

/-- What a `Read::read` shows: whether it succeeded and how many bytes it delivered. -/
def Reader.shown : Res Bytes → List Obs
  | .ok b => [.branch true, .size b.length]
  | _ => [.branch false]

/-- `Read::read` with a buffer of `n` bytes, and the `?` after it. -/
def Reader.readT (n : Nat) : TSt Reader Bytes := ⟨fun r => (.size n :: shown ((Reader.read n).run r).1, (Reader.read n).run r)⟩

/-- The loop of `fill_exact`, src/util.rs:91-103. -/
def Reader.fillLoopT : (fuel : Nat) → (need : Nat) → Bytes → TSt Reader Bytes
  | fuel, need, acc => do
    if ← test (need = 0) then return acc
    else match fuel with
      | 0 => quiet (St.lift .diverge)
      | fuel + 1 => do
        let b ← readT need
        if ← test (b.length = 0) then quiet (St.err .IoFailure)
        else fillLoopT fuel (need - b.length) (acc ++ b)

/-- `ReadExt::read_exact`, src/util.rs:108-113. -/
def Reader.readExactT (n : Nat) : TSt Reader Bytes := do
  see (.size n)
  fillLoopT n n []

/-- `read_u8`, src/util.rs:62-68, 78, 116-118. -/
def Reader.readU8T : TSt Reader UInt8 := do
  let b ← readExactT 1
  return b.getD 0 0

/-- `read_be_u16`, src/util.rs:62-68, 79, 120-123. -/
def Reader.readBeU16T : TSt Reader UInt16 := do
  let b ← readExactT 2
  return UInt16.ofNat (Util.toBe 2 (leNat b))

/-! ### Records -/

/-- The iterator of src/tls.rs:132-137 and 302-307: one round for every byte of the shorter side. -/
def xorIvT : Bytes → Bytes → Tr Bytes
  | x :: nonce, y :: iv => do
    Tr.see (.branch true)
    let r ← xorIvT nonce iv
    return (x ^^^ y) :: r
  | nonce, _ => do
    Tr.see (.branch false)
    return nonce

/-- The nonce, src/tls.rs:119-121, 132-137 and 282-284, 302-307. -/
def nonceT (count : UInt64) (iv : Option Bytes) : Tr Bytes := do
  Tr.see (.size 8)
  let seq := List.replicate 4 0 ++ Util.u64BeArray count
  match iv with
  | some iv => do
    Tr.see (.branch true)
    xorIvT seq iv
  | none => do
    Tr.see (.branch false)
    return seq

/-- The additional data, src/tls.rs:123-130 and 287-300. -/
def adT (count : UInt64) (ty major minor : UInt8) (len : Nat) : Tr Bytes := do
  Tr.see (.size 8)
  Tr.see (.size 5)
  let fragLen := UInt16.ofNat len
  return Util.u64BeArray count ++ [ty, major, minor, (fragLen >>> 8).toUInt8, fragLen.toUInt8]

/-- `Record::new`, src/tls.rs:53-70. -/
def Record.newT (contentType : ContentType) (verMajor verMinor : UInt8) (fragment : Bytes) : Tr Record := do
  if ← Tr.test (fragment.length > RECORD_MAX_LEN) then Tr.lift .panic else return { contentType, verMajor, verMinor, fragment }

namespace TlsWriter

/-- A call on the field `writer`. -/
def ioT (x : TSt Writer α) : TSt TlsWriter α := TSt.zoom (·.writer) (fun w s => { s with writer := w }) x

/-- The `match self.encryptor`, src/tls.rs:116-140. -/
def protectT (m : Mode) (key : Option Bytes) (record : Record) : TSt TlsWriter Bytes := do
  match key with
  | none => do
    see (.branch false)
    return record.fragment
  | some key => do
    see (.branch true)
    let s ← TSt.get
    let ad ← ofTr (adT s.writeCount record.contentType.toU8 record.verMajor record.verMinor record.fragment.length)
    let nonce ← ofTr (nonceT s.writeCount s.iv)
    let out ← ofTr (Aead.encryptT m key nonce record.fragment ad)
    quiet (St.modify fun s => { s with calls := s.calls ++ [⟨nonce, record.fragment, ad, out⟩] })
    return out

/-- `write_record`, src/tls.rs:115-156. -/
def writeRecordT (m : Mode) (key : Option Bytes) (record : Record) : TSt TlsWriter Unit := do
  let encrypted ← protectT m key record
  if ← test (encrypted.length > ENC_RECORD_MAX_LEN) then quiet St.panic
  else do
    ioT (Writer.writeU8T record.contentType.toU8)
    ioT (Writer.writeU8T record.verMajor)
    ioT (Writer.writeU8T record.verMinor)
    ioT (Writer.writeBeU16T (UInt16.ofNat encrypted.length))
    ioT (Writer.writeAllT encrypted)
    quiet (bump m)

/-- The loop of `write_data`, src/tls.rs:161-165. -/
def writeChunksT (m : Mode) (key : Option Bytes) (ty : ContentType) : List Bytes → TSt TlsWriter Unit
  | [] => do
    see (.branch false)
    return ()
  | c :: cs => do
    see (.branch true)
    see (.size c.length)
    let record ← ofTr (Record.newT ty TLS_VERSION.1 TLS_VERSION.2 c)
    writeRecordT m key record
    writeChunksT m key ty cs

/-- `write_data`, src/tls.rs:158-168. -/
def writeDataT (m : Mode) (key : Option Bytes) (ty : ContentType) (data : Bytes) : TSt TlsWriter Unit := writeChunksT m key ty (chunks RECORD_MAX_LEN data)

/-- `write_alert`, src/tls.rs:176-180. -/
def writeAlertT (m : Mode) (key : Option Bytes) (a : Alert) : TSt TlsWriter Unit := do
  let data ← quiet (St.lift (TlsItem.write a))
  see (.size data.length)
  writeDataT m key .AlertTy data

/-- `write_application_data`, src/tls.rs:186-191. -/
def writeApplicationDataT (m : Mode) (key : Option Bytes) (data : Bytes) : TSt TlsWriter Unit := do
  let s ← TSt.get
  if ← test s.encryptor.isNone then quiet St.panic else writeDataT m key .ApplicationDataTy data

end TlsWriter

namespace TlsReader

/-- A call on the field `reader`. -/
def ioT (x : TSt Reader α) : TSt TlsReader α := TSt.zoom (·.reader) (fun r s => { s with reader := r }) x

/-- The `match self.decryptor`, src/tls.rs:270-318. -/
def unprotectT (m : Mode) (key : Option Bytes) (s : TlsReader) (ty : ContentType) (major minor : UInt8) (fragment : Bytes) : Tr Record := do
  match key with
  | none => do
    Tr.see (.branch false)
    if ← Tr.test (fragment.length > RECORD_MAX_LEN) then Tr.lift (.err .RecordOverflow)
    else Record.newT ty major minor fragment
  | some key => do
    Tr.see (.branch true)
    if ← Tr.test (fragment.length < Aead.MAC_LEN) then Tr.lift (.err .BadRecordMac)
    else do
      let ad ← adT s.readCount ty.toU8 major minor (fragment.length - Aead.MAC_LEN)
      let nonce ← nonceT s.readCount s.iv
      let data ← Aead.decryptT m key nonce fragment ad
      if ← Tr.test (data.length > RECORD_MAX_LEN) then Tr.lift .panic
      else Record.newT ty major minor data

/-- `read_record`, src/tls.rs:247-323. The content type is matched against the values of the enumeration. -/
def readRecordT (m : Mode) (key : Option Bytes) : TSt TlsReader Record := do
  let ty ← ioT Reader.readU8T
  see (.index ty.toNat)
  match ContentType.ofU8 ty with
  | none => quiet (St.err .UnexpectedMessage)
  | some ty => do
    let major ← ioT Reader.readU8T
    let minor ← ioT Reader.readU8T
    let len ← ioT Reader.readBeU16T
    if ← test (len.toNat > ENC_RECORD_MAX_LEN) then quiet (St.err .RecordOverflow)
    else do
      let fragment ← ioT (Reader.readExactT len.toNat)
      let s ← TSt.get
      let record ← ofTr (unprotectT m key s ty major minor fragment)
      quiet (bump m)
      return record

/-- `get_message`, src/handshake.rs:343-372. Beyond the length of the buffer only what concerns messages of the handshake would be seen. -/
def getMessageT : TSt TlsReader (Option Handshake) := do
  let s ← TSt.get
  see (.branch (s.handshakeBuffer.buf.length < 4))
  quiet (onBuffer HandshakeBuffer.getMessage)

/-- The arm for `AlertTy`, src/tls.rs:354-376. (With less than two bytes, more is recorded than is executed; the same for the length of ChangeCipherSpec below.) -/
def alertMessageT (fragment : Bytes) : Tr Message := do
  Tr.see (.branch (fragment.length = 0))
  Tr.see (.branch (fragment.length < 2))
  Tr.see (.index (fragment.getD 0 0).toNat)
  Tr.see (.index (fragment.getD 1 0).toNat)
  Tr.lift (alertMessage fragment)

/-- The body of the loop of `read_message`, src/tls.rs:346-390. -/
def messageStepT (m : Mode) (key : Option Bytes) : TSt TlsReader (Option Message) := do
  let record ← readRecordT m key
  see (.index record.contentType.toU8.toNat)
  match record.contentType with
  | .ChangeCipherSpecTy => do
    see (.branch (record.fragment.length ≠ 1))
    see (.branch (record.fragment.getD 0 0 ≠ 1))
    let msg ← quiet (St.lift (ccsMessage record.fragment))
    return some msg
  | .AlertTy => do
    let msg ← ofTr (alertMessageT record.fragment)
    return some msg
  | .HandshakeTy => do
    if ← test record.fragment.isEmpty then quiet (St.err .UnexpectedMessage)
    else do
      see (.size record.fragment.length)
      quiet (onBuffer (HandshakeBuffer.addRecord record.fragment))
      let msg ← getMessageT
      see (.branch msg.isSome)
      match msg with
      | some h => return some (.HandshakeMessage h)
      | none => return none
  | .ApplicationDataTy => return some (.ApplicationDataMessage record.fragment)

/-- The loop of `read_message`, src/tls.rs:342-391. -/
def messageLoopT (m : Mode) (key : Option Bytes) : (fuel : Nat) → TSt TlsReader Message
  | 0 => quiet (St.lift .diverge)
  | fuel + 1 => do
    match ← messageStepT m key with
    | some msg => return msg
    | none => messageLoopT m key fuel

/-- `read_message`, src/tls.rs:336-392. -/
def readMessageT (m : Mode) (key : Option Bytes) : TSt TlsReader Message := do
  match ← getMessageT with
  | some h => return .HandshakeMessage h
  | none => do
    let s ← TSt.get
    messageLoopT m key (s.reader.bytes + 1)

/-- The kind of a message, as the `match` of `read_application_data` sees it. -/
def kindOf : Message → Nat
  | .HandshakeMessage _ => 0
  | .ChangeCipherSpecMessage => 1
  | .AlertMessage a => if a.description = .close_notify then 2 else 3
  | .ApplicationDataMessage _ => 4

/-- `read_application_data`, src/tls.rs:394-412. -/
def readApplicationDataT (m : Mode) (key : Option Bytes) : TSt TlsReader Bytes := do
  let s ← TSt.get
  if ← test s.decryptor.isNone then quiet St.panic
  else do
    let msg ← readMessageT m key
    see (.index (kindOf msg))
    quiet (St.lift (applicationData msg))

end TlsReader

/-! ### The client -/

namespace TlsClient

/-- A call on the field `reader`. -/
def onReaderT (x : TSt TlsReader α) : TSt TlsClient α := TSt.zoom (·.reader) (fun r c => { c with reader := r }) x
/-- A call on the field `writer`. -/
def onWriterT (x : TSt TlsWriter α) : TSt TlsClient α := TSt.zoom (·.writer) (fun w c => { c with writer := w }) x

/-- `send_tls_alert`, src/client.rs:259-271. -/
def sendTlsAlertT (m : Mode) (key : Option Bytes) (k : TlsErrorKind) : TSt TlsClient TlsErrorKind := ⟨fun c =>
  match k with
  | .IoFailure => ([.branch true], .ok k, c)
  | _ =>
    match (onWriterT (TlsWriter.writeAlertT m key (Alert.fromTlsErr k))).run c with
    | (t, .ok (), c) => ([.branch false] ++ t ++ [.branch true], .ok k, c)
    | (t, .err k', c) => ([.branch false] ++ t ++ [.branch false], .ok k', c)
    | (t, .panic, c) => ([.branch false] ++ t, .panic, c)
    | (t, .diverge, c) => ([.branch false] ++ t, .diverge, c)⟩

/-- `close`, src/client.rs:248-255. -/
def closeT (m : Mode) (key : Option Bytes) : TSt TlsClient Unit := onWriterT (TlsWriter.writeAlertT m key { level := .fatal, description := .close_notify })

/-- `write_all`, src/client.rs:299-315. -/
def writeAllT (m : Mode) (key : Option Bytes) (buf : Bytes) : TSt TlsClient Unit := ⟨fun c =>
  match (onWriterT (TlsWriter.writeApplicationDataT m key buf)).run c with
  | (t, .err k, c) =>
    match (sendTlsAlertT m key k >>= fun k' => quiet (St.err k')).run c with
    | (u, r) => (t ++ [.branch false] ++ u, r)
  | (t, r, c) => (t ++ [.branch r.isOk], r, c)⟩

/-- `write`, src/client.rs:290-293. -/
def writeT (m : Mode) (key : Option Bytes) (buf : Bytes) : TSt TlsClient Nat := do
  writeAllT m key buf
  return buf.length

/-- The `if self.buf.is_empty()` of `read`, src/client.rs:330-338. -/
def refillT (m : Mode) (key : Option Bytes) : TSt TlsClient Bool := ⟨fun c =>
  if c.buf.isEmpty then
    match (onReaderT (TlsReader.readApplicationDataT m key)).run c with
    | (t, .ok data, c) => ([.branch true] ++ t ++ [.branch true, .size data.length], .ok true, { c with buf := c.buf ++ data })
    | (t, .err _, c) => ([.branch true] ++ t ++ [.branch false], .ok false, c)
    | (t, .panic, c) => ([.branch true] ++ t, .panic, c)
    | (t, .diverge, c) => ([.branch true] ++ t, .diverge, c)
  else ([.branch false], .ok true, c)⟩

/-- The loop of `read`, src/client.rs:328-345. -/
def readLoopT (m : Mode) (key : Option Bytes) : (fuel : Nat) → (remaining : Nat) → Bytes → TSt TlsClient Bytes
  | fuel, remaining, acc => do
    if ← test (remaining = 0) then return acc
    else match fuel with
      | 0 => quiet (St.lift .diverge)
      | fuel + 1 => do
        if ← refillT m key then do
          let c ← TSt.get
          let necessary := min remaining c.buf.length
          see (.branch (remaining ≤ c.buf.length))
          see (.size necessary)
          see (.size (c.buf.length - necessary))
          quiet (St.modify fun c => { c with buf := c.buf.drop necessary })
          readLoopT m key fuel (remaining - necessary) (acc ++ c.buf.take necessary)
        else return acc

/-- `read`, src/client.rs:325-349. -/
def readT (m : Mode) (key : Option Bytes) (len : Nat) : TSt TlsClient Bytes := do
  let c ← TSt.get
  readLoopT m key (len + c.reader.reader.bytes + 1) len []

end TlsClient

end Husk
