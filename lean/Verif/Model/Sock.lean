import Verif.Model.Client
/-! The writing side down to the calls of `Write::write`. `Model/Transport` lets every `write_all` succeed or fail as a whole; here the transport answers
single calls of `write`, and `write_all` is the loop of std. `TlsWriter` and `TlsClient` are generic in the transport in Rust; their functions are written
down again over this one. `Props/WriteCalls` relates the two. -/

namespace Husk

/-- What one `Write::write` call of the transport can do: take at most `n` bytes of the buffer (zero is `Ok(0)`) or fail (with `ErrorKind::Interrupted` or another
kind). -/
inductive WriteEv
  | take (n : Nat)
  | fail (interrupted : Bool)
  deriving DecidableEq, Repr

/-- What a `Write::write` call returned: `Ok(n)`, or an error. -/
inductive WriteAnswer
  | wrote (n : Nat)
  | interrupted
  | failed
  deriving DecidableEq, Repr

/-- The writing side of a transport: the bytes it took, and a finite script; when it is exhausted every call takes the whole buffer. -/
structure SockWriter where
  wire : Bytes := []
  script : List WriteEv := []
  deriving DecidableEq, Repr

namespace SockWriter

/-- `Write::write`. -/
def write (b : Bytes) : St SockWriter WriteAnswer := ⟨fun w =>
  match w.script with
  | [] => (.ok (.wrote b.length), { w with wire := w.wire ++ b })
  | .take n :: es => (.ok (.wrote (min n b.length)), { wire := w.wire ++ b.take n, script := es })
  | .fail true :: es => (.ok .interrupted, { w with script := es })
  | .fail false :: es => (.ok .failed, { w with script := es })⟩

/-- The loop of `Write::write_all` (std): `Interrupted` is retried, `Ok(0)` is the error `WriteZero`. Every round but the last uses up an event of the script; running
out of fuel is `diverge` (proved impossible). -/
def writeAllLoop : (fuel : Nat) → Bytes → St SockWriter Unit
  | fuel, b =>
    if b = [] then pure ()
    else match fuel with
      | 0 => St.lift .diverge
      | fuel + 1 => do
        match ← write b with
        | .wrote n => if n = 0 then St.err .IoFailure else writeAllLoop fuel (b.drop n)
        | .interrupted => writeAllLoop fuel b
        | .failed => St.err .IoFailure

/-- `Write::write_all` (std). -/
def writeAll (b : Bytes) : St SockWriter Unit := ⟨fun w => (writeAllLoop (w.script.length + 1) b).run w⟩

/-- `write_u8`, src/util.rs:69-74, 78, 155-157. -/
def writeU8 (x : UInt8) : St SockWriter Unit := writeAll (Util.transmute 1 x.toNat)
/-- `write_be_u16`, src/util.rs:69-74, 79, 160-162. -/
def writeBeU16 (x : UInt16) : St SockWriter Unit := writeAll (Util.transmute 2 (Util.toBe 2 x.toNat))

end SockWriter

/-- `TlsWriter`, src/tls.rs:75-81, with the ghost field `calls`. -/
structure SockTlsWriter where
  writer : SockWriter
  encryptor : Option Encryptor := none
  writeCount : UInt64 := 0
  iv : Option Bytes := none
  calls : List SealCall := []

namespace SockTlsWriter

/-- `TlsWriter::new`, src/tls.rs:86-93. -/
def new (writer : SockWriter) : SockTlsWriter := { writer }

/-- A call on the field `writer`. -/
def io (x : St SockWriter α) : St SockTlsWriter α := St.zoom (·.writer) (fun w s => { s with writer := w }) x

/-- `set_encryptor`, src/tls.rs:102-106. -/
def setEncryptor (e : Encryptor) : St SockTlsWriter Unit := ⟨fun s =>
  match s.encryptor with
  | none => (.ok (), { s with encryptor := some e, writeCount := 0 })
  | some _ => (.panic, s)⟩

/-- `set_iv`, src/tls.rs:110-113. -/
def setIv (iv : Bytes) : St SockTlsWriter Unit := ⟨fun s =>
  match s.iv with
  | none => (.ok (), { s with iv := some iv })
  | some _ => (.panic, s)⟩

/-- The nonce, src/tls.rs:119-121, 132-137. -/
def nonce (s : SockTlsWriter) : Bytes :=
  let seq := List.replicate 4 0 ++ Util.u64BeArray s.writeCount
  match s.iv with
  | some iv => xorIv seq iv
  | none => seq

/-- The additional data, src/tls.rs:119, 123-130. -/
def ad (s : SockTlsWriter) (record : Record) : Bytes :=
  let fragLen := UInt16.ofNat record.fragment.length
  Util.u64BeArray s.writeCount ++ [record.contentType.toU8, record.verMajor, record.verMinor, (fragLen >>> 8).toUInt8, fragLen.toUInt8]

/-- The `match self.encryptor`, src/tls.rs:116-140. -/
def protect (record : Record) : St SockTlsWriter Bytes := ⟨fun s =>
  match s.encryptor with
  | none => (.ok record.fragment, s)
  | some e =>
    match e.encrypt s.nonce record.fragment (s.ad record) with
    | .ok c => (.ok c, { s with calls := s.calls ++ [⟨s.nonce, record.fragment, s.ad record, c⟩] })
    | .err k => (.err k, s)
    | .panic => (.panic, s)
    | .diverge => (.diverge, s)⟩

/-- `self.write_count += 1`, src/tls.rs:153. -/
def bump (m : Mode) : St SockTlsWriter Unit := ⟨fun s =>
  match addU64 m s.writeCount 1 with
  | .ok n => (.ok (), { s with writeCount := n })
  | .err k => (.err k, s)
  | .panic => (.panic, s)
  | .diverge => (.diverge, s)⟩

/-- `write_record`, src/tls.rs:115-156. -/
def writeRecord (m : Mode) (record : Record) : St SockTlsWriter Unit := do
  let encrypted ← protect record
  if encrypted.length > ENC_RECORD_MAX_LEN then St.panic
  else do
    io (SockWriter.writeU8 record.contentType.toU8)
    io (SockWriter.writeU8 record.verMajor)
    io (SockWriter.writeU8 record.verMinor)
    io (SockWriter.writeBeU16 (UInt16.ofNat encrypted.length))
    io (SockWriter.writeAll encrypted)
    bump m

/-- The loop of `write_data`, src/tls.rs:161-165. -/
def writeChunks (m : Mode) (ty : ContentType) : List Bytes → St SockTlsWriter Unit
  | [] => pure ()
  | c :: cs => do
    let record ← St.lift (Record.new ty TLS_VERSION.1 TLS_VERSION.2 c)
    writeRecord m record
    writeChunks m ty cs

/-- `write_data`, src/tls.rs:158-168. -/
def writeData (m : Mode) (ty : ContentType) (data : Bytes) : St SockTlsWriter Unit := writeChunks m ty (chunks RECORD_MAX_LEN data)

/-- `write_handshake`, src/tls.rs:170-174. -/
def writeHandshake (m : Mode) (h : Handshake) : St SockTlsWriter Unit := do
  let data ← St.lift (TlsItem.write h)
  writeData m .HandshakeTy data

/-- `write_alert`, src/tls.rs:176-180. -/
def writeAlert (m : Mode) (a : Alert) : St SockTlsWriter Unit := do
  let data ← St.lift (TlsItem.write a)
  writeData m .AlertTy data

/-- `write_change_cipher_spec`, src/tls.rs:182-184. -/
def writeChangeCipherSpec (m : Mode) : St SockTlsWriter Unit := writeData m .ChangeCipherSpecTy [1]

/-- `write_application_data`, src/tls.rs:186-191. -/
def writeApplicationData (m : Mode) (data : Bytes) : St SockTlsWriter Unit := do
  let s ← St.get
  if s.encryptor.isNone then St.panic else writeData m .ApplicationDataTy data

end SockTlsWriter

/-- `TlsClient`, src/client.rs:19-24. -/
structure SockClient where
  reader : TlsReader
  writer : SockTlsWriter
  rng : Rng
  buf : Bytes := []

namespace SockClient

open TlsClient (clientHello checkServerHello masterSecret verifyData transcript checkFinished expectServerHello expectCertificate expectServerKeyExchange
  expectServerHelloDone expectFinished keyExpansionLabel clientFinishedLabel ServerFlight)

/-- A call on the field `reader`. -/
def onReader (x : St TlsReader α) : St SockClient α := St.zoom (·.reader) (fun r c => { c with reader := r }) x
/-- A call on the field `writer`. -/
def onWriter (x : St SockTlsWriter α) : St SockClient α := St.zoom (·.writer) (fun w c => { c with writer := w }) x
/-- A call on the field `rng`. -/
def onRng (x : St Rng α) : St SockClient α := St.zoom (·.rng) (fun r c => { c with rng := r }) x

/-- The block that expands the keys, src/client.rs:152-177. -/
def installKeys (m : Mode) (master cliRandom serverRandom : Bytes) : St SockClient Bytes := do
  let prf ← St.lift (Prf.new m master (keyExpansionLabel ++ serverRandom ++ cliRandom))
  let (writeKey, prf) ← St.lift (Prf.getBytes m prf Aead.KEY_LEN)
  onWriter (SockTlsWriter.setEncryptor (.chacha m writeKey))
  let (readKey, prf) ← St.lift (Prf.getBytes m prf Aead.KEY_LEN)
  let (writeIv, prf) ← St.lift (Prf.getBytes m prf 12)
  let (readIv, _) ← St.lift (Prf.getBytes m prf 12)
  onWriter (SockTlsWriter.setIv writeIv)
  onReader (TlsReader.setIv readIv)
  return readKey

/-- The first flight, src/client.rs:65-91. -/
def sendHello (m : Mode) : St SockClient (Bytes × Handshake) := do
  let cliRandom ← onRng (Rng.fillBytes 32)
  let hello ← St.lift (clientHello cliRandom)
  onWriter (SockTlsWriter.writeHandshake m hello)
  return (cliRandom, hello)

/-- The server's first flight, src/client.rs:93-132. -/
def readFlight (m : Mode) : St SockClient ServerFlight := do
  let hello ← onReader (expectServerHello m)
  St.lift (checkServerHello hello)
  let certs ← onReader (expectCertificate m)
  let ske ← onReader (expectServerKeyExchange m)
  let (keyData, preMasterSecret) ← onRng (Ecdhe.computeKeys m ske.data)
  let _ ← onReader (expectServerHelloDone m)
  return { hello, certs, ske, keyData, preMasterSecret }

/-- The client's second flight, src/client.rs:134-209. -/
def sendFinished (m : Mode) (cliRandom : Bytes) (hello : Handshake) (f : ServerFlight) : St SockClient (Bytes × Bytes × Bytes × Handshake) := do
  let cke ← St.lift (Handshake.newClientKeyExchange f.keyData)
  onWriter (SockTlsWriter.writeHandshake m cke)
  onWriter (SockTlsWriter.writeChangeCipherSpec m)
  let master ← St.lift (masterSecret m f.preMasterSecret cliRandom f.hello.random.data)
  let readKey ← installKeys m master cliRandom f.hello.random.data
  let msgs ← St.lift (transcript hello f.hello f.certs f.ske cke)
  let clientVerifyData ← St.lift (verifyData m master clientFinishedLabel msgs)
  let finished ← St.lift (Handshake.newFinished clientVerifyData)
  onWriter (SockTlsWriter.writeHandshake m finished)
  return (master, readKey, msgs, finished)

/-- The server's second flight, src/client.rs:213-243. -/
def readFinished (m : Mode) (master readKey msgs : Bytes) (finished : Handshake) : St SockClient Unit := do
  onReader (TlsReader.readChangeCipherSpec m)
  onReader (TlsReader.setDecryptor (.chacha m readKey))
  let serverFinished ← onReader (expectFinished m)
  St.lift (checkFinished m master msgs finished serverFinished)

/-- `handshake`, src/client.rs:54-246. -/
def handshake (m : Mode) : St SockClient Unit := do
  let (cliRandom, hello) ← sendHello m
  let flight ← readFlight m
  let (master, readKey, msgs, finished) ← sendFinished m cliRandom hello flight
  readFinished m master readKey msgs finished

/-- `send_tls_alert`, src/client.rs:259-271. -/
def sendTlsAlert (m : Mode) (k : TlsErrorKind) : St SockClient TlsErrorKind := ⟨fun c =>
  match k with
  | .IoFailure => (.ok k, c)
  | _ =>
    match (onWriter (SockTlsWriter.writeAlert m (Alert.fromTlsErr k))).run c with
    | (.ok (), c) => (.ok k, c)
    | (.err k', c) => (.ok k', c)
    | (.panic, c) => (.panic, c)
    | (.diverge, c) => (.diverge, c)⟩

/-- `TlsClient::new`, src/client.rs:27-41. -/
def new (m : Mode) (reader : Reader) (writer : SockWriter) (rng : Rng) : Res Unit × SockClient :=
  let client : SockClient := { reader := TlsReader.new reader, writer := SockTlsWriter.new writer, rng }
  match (handshake m).run client with
  | (.err k, client) => (sendTlsAlert m k >>= fun k' => St.err k').run client
  | (r, client) => (r, client)

/-- `close`, src/client.rs:248-255. -/
def close (m : Mode) : St SockClient Unit := onWriter (SockTlsWriter.writeAlert m { level := .fatal, description := .close_notify })

/-- `write_all`, src/client.rs:299-315. -/
def writeAll (m : Mode) (buf : Bytes) : St SockClient Unit := ⟨fun c =>
  match (onWriter (SockTlsWriter.writeApplicationData m buf)).run c with
  | (.err k, c) => (sendTlsAlert m k >>= fun k' => St.err k').run c
  | (r, c) => (r, c)⟩

/-- `write`, src/client.rs:290-293. -/
def write (m : Mode) (buf : Bytes) : St SockClient Nat := do
  writeAll m buf
  return buf.length

/-- `flush`, src/client.rs:295-297. -/
def flush : St SockClient Unit := pure ()

/-- The `if self.buf.is_empty()` of `read`, src/client.rs:330-338. -/
def refill (m : Mode) : St SockClient Bool := ⟨fun c =>
  if c.buf.isEmpty then
    match (onReader (TlsReader.readApplicationData m)).run c with
    | (.ok data, c) => (.ok true, { c with buf := c.buf ++ data })
    | (.err _, c) => (.ok false, c)
    | (.panic, c) => (.panic, c)
    | (.diverge, c) => (.diverge, c)
  else (.ok true, c)⟩

/-- The loop of `read`, src/client.rs:328-345. -/
def readLoop (m : Mode) : (fuel : Nat) → (remaining : Nat) → Bytes → St SockClient Bytes
  | fuel, remaining, acc =>
    if remaining = 0 then pure acc
    else match fuel with
      | 0 => St.lift .diverge
      | fuel + 1 => do
        if ← refill m then do
          let c ← St.get
          let necessary := min remaining c.buf.length
          St.modify fun c => { c with buf := c.buf.drop necessary }
          readLoop m fuel (remaining - necessary) (acc ++ c.buf.take necessary)
        else return acc

/-- `read`, src/client.rs:325-349. -/
def read (m : Mode) (len : Nat) : St SockClient Bytes := do
  let c ← St.get
  readLoop m (len + c.reader.reader.bytes + 1) len []

end SockClient

end Husk
