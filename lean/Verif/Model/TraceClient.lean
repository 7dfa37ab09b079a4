import Verif.Model.TraceTls
import Verif.Model.Client
/-! The handshake's secrets with what can be observed of the computation (see `Verif/Base/Trace`): the master secret, the keys, the two Finished values, the client's second flight and
the check of the server's Finished. What is made of public messages (serialising them) shows the lengths. The types of the results are those of `Verif/Model/Client`. -/

namespace Husk

open TSt

namespace TlsWriter

/-- `write_handshake`, src/tls.rs:170-174. -/
def writeHandshakeT (m : Mode) (key : Option Bytes) (h : Handshake) : TSt TlsWriter Unit := do
  let data ← quiet (St.lift (TlsItem.write h))
  see (.size data.length)
  writeDataT m key .HandshakeTy data

/-- `write_change_cipher_spec`, src/tls.rs:182-184. -/
def writeChangeCipherSpecT (m : Mode) (key : Option Bytes) : TSt TlsWriter Unit := writeDataT m key .ChangeCipherSpecTy [1]

end TlsWriter

namespace TlsClient

/-- The master secret, src/client.rs:140-147. -/
def masterSecretT (m : Mode) (preMasterSecret cliRandom serverRandom : Bytes) : Tr Bytes := do
  Tr.see (.size cliRandom.length)
  Tr.see (.size serverRandom.length)
  let prf ← Prf.newT m preMasterSecret (masterSecretLabel ++ cliRandom ++ serverRandom)
  let (ms, _) ← Prf.getBytesT m prf 48
  return ms

/-- The bytes of the key expansion, src/client.rs:152-171: write key, read key, write IV, read IV. -/
def expandT (m : Mode) (master cliRandom serverRandom : Bytes) : Tr (Bytes × Bytes × Bytes × Bytes) := do
  Tr.see (.size serverRandom.length)
  Tr.see (.size cliRandom.length)
  Tr.see (.size master.length)
  let prf ← Prf.newT m master (keyExpansionLabel ++ serverRandom ++ cliRandom)
  let (writeKey, prf) ← Prf.getBytesT m prf Aead.KEY_LEN
  let (readKey, prf) ← Prf.getBytesT m prf Aead.KEY_LEN
  let (writeIv, prf) ← Prf.getBytesT m prf 12
  let (readIv, _) ← Prf.getBytesT m prf 12
  return (writeKey, readKey, writeIv, readIv)

/-- The two Finished values, src/client.rs:198-207 and 221-237. -/
def verifyDataT (m : Mode) (master label msgs : Bytes) : Tr Bytes := do
  let verifyHash ← Sha2.sha256T m msgs
  Tr.see (.size verifyHash.length)
  Tr.see (.size master.length)
  let prf ← Prf.newT m master (label ++ verifyHash)
  let (vd, _) ← Prf.getBytesT m prf suite.verifyDataLen
  return vd

/-- The key change, src/client.rs:151-177; the keys are computed first (the model of `Verif/Model/Client` installs the encryptor in between). Returns the write key and the read key. -/
def installKeysT (m : Mode) (master cliRandom serverRandom : Bytes) : TSt TlsClient (Bytes × Bytes) := do
  let (writeKey, readKey, writeIv, readIv) ← ofTr (expandT m master cliRandom serverRandom)
  quiet (onWriter (TlsWriter.setEncryptor (.chacha m writeKey)))
  quiet (onWriter (TlsWriter.setIv writeIv))
  quiet (onReader (TlsReader.setIv readIv))
  return (writeKey, readKey)

/-- The client's second flight, src/client.rs:134-209. -/
def sendFinishedT (m : Mode) (cliRandom : Bytes) (hello : Handshake) (f : ServerFlight) : TSt TlsClient (Bytes × Bytes × Bytes × Handshake) := do
  let cke ← quiet (St.lift (Handshake.newClientKeyExchange f.keyData))
  onWriterT (TlsWriter.writeHandshakeT m none cke)
  onWriterT (TlsWriter.writeChangeCipherSpecT m none)
  let master ← ofTr (masterSecretT m f.preMasterSecret cliRandom f.hello.random.data)
  let keys ← installKeysT m master cliRandom f.hello.random.data
  let msgs ← quiet (St.lift (transcript hello f.hello f.certs f.ske cke))
  see (.size msgs.length)
  let clientVerifyData ← ofTr (verifyDataT m master clientFinishedLabel msgs)
  let finished ← quiet (St.lift (Handshake.newFinished clientVerifyData))
  onWriterT (TlsWriter.writeHandshakeT m (some keys.1) finished)
  return (master, keys.2, msgs, finished)

/-- The check of the server's Finished, src/client.rs:219-243. -/
def checkFinishedT (m : Mode) (master msgs : Bytes) (finished : Handshake) (serverFinished : VerifyData) : Tr Unit := do
  Tr.see (.size msgs.length)
  let b ← Tr.lift (TlsItem.write finished)
  Tr.see (.size b.length)
  let serverVerifyData ← verifyDataT m master serverFinishedLabel (msgs ++ b)
  let verifyOk ← Util.cryptoCompareT m serverFinished.data serverVerifyData
  if ← Tr.test verifyOk then return () else Tr.lift (.err .DecryptError)

end TlsClient

end Husk
