import Verif.Model.Client
/-! The repository's own tests of the record layer, the handshake codec and the field arithmetic, evaluated on the model by the kernel.
These check the fidelity of the model; they are not property proofs. The loops over triples and products are shortened (the field laws are
proved for all values, C44); the test of `inverse` is left out (C45). (src/test.rs, src/tls.rs:445-529, src/handshake.rs:433-498, src/crypto/p256.rs:621-820) -/
namespace Husk.Tests

open Item

/-! src/tls.rs:463-512 -/

def reader (b : Bytes) : TlsReader := TlsReader.new ⟨[.data b]⟩

-- test_reader
example : ((TlsReader.readRecord .debug).run (reader [0x14, 3, 3, 0, 1, 1])).1 = .ok ⟨.ChangeCipherSpecTy, 3, 3, [1]⟩ := by decide +kernel
example : ((TlsReader.readRecord .debug).run ((TlsReader.readRecord .debug).run (reader [0x14, 3, 3, 0, 1, 1])).2).1 = .err .IoFailure := by decide +kernel
-- test_reader_unknown
example : ((TlsReader.readRecord .debug).run (reader [0x18, 3, 3, 0, 3, 1, 0, 0x20])).1 = .err .UnexpectedMessage := by decide +kernel
-- test_reader_too_long
example : ((TlsReader.readRecord .debug).run (reader ([0x17, 3, 3, 0x40, 0x01] ++ List.replicate 16385 0xff))).1 = .err .RecordOverflow := by decide +kernel
-- test_reader_zero_length
example : ((TlsReader.readMessage .debug).run (reader [20, 3, 3, 0, 0])).1 = .err .UnexpectedMessage := by decide +kernel
example : ((TlsReader.readMessage .debug).run (reader [21, 3, 3, 0, 0])).1 = .err .UnexpectedMessage := by decide +kernel
example : ((TlsReader.readMessage .debug).run (reader [22, 3, 3, 0, 0])).1 = .err .UnexpectedMessage := by decide +kernel
-- test_writer_too_long
example : ((TlsWriter.writeRecord .debug ⟨.ApplicationDataTy, 3, 3, [1]⟩).run
    { TlsWriter.new {} with encryptor := some ⟨fun _ _ _ => .ok (List.replicate 18433 0)⟩ }).1 = .panic := by decide +kernel

/-! src/test.rs -/

def nullReader (b : Bytes) : TlsReader := { reader b with decryptor := some ⟨fun _ e _ => .ok e, 0⟩ }
def nullWriter : TlsWriter := { TlsWriter.new {} with encryptor := some ⟨fun _ p _ => .ok p⟩ }

-- test_change_cipher_spec_message
example : ((TlsWriter.writeChangeCipherSpec .debug).run nullWriter).2.writer.wire = [20, 3, 3, 0, 1, 1] := by decide +kernel
example : ((TlsReader.readMessage .debug).run (nullReader [20, 3, 3, 0, 1, 1])).1 = .ok .ChangeCipherSpecMessage := by decide +kernel

/-! src/handshake.rs:444-497, test_parse_client_hello -/

def hello : Handshake := .client_hello {
  clientVersion := ⟨3, 3⟩, random := ⟨List.replicate 32 0⟩, sessionId := ⟨[]⟩,
  cipherSuites := ⟨[.TLS_ECDHE_RSA_WITH_CHACHA20_POLY1305_SHA256]⟩, compressionMethods := ⟨[.null]⟩, extensions := none }

example : ∃ packet, TlsItem.write hello = .ok packet ∧ (TlsItem.read (α := Handshake)).run packet = (.ok hello, []) :=
  ⟨[1, 0, 0, 41, 3, 3] ++ List.replicate 32 0 ++ [0, 0, 2, 0xcc, 0xa8, 1, 0], by decide +kernel, by decide +kernel⟩

/-! src/crypto/p256.rs:621-820 -/

def values : List Int256 := [.ZERO, .ONE, ⟨[2, 0, 0, 0, 0, 0, 0, 0], rfl⟩, ⟨[1, 1, 1, 1, 1, 1, 1, 1], rfl⟩, ⟨[0, 2, 0, 2, 0, 0, 0, 0], rfl⟩, ⟨[1, 2, 3, 4, 5, 6, 7, 8], rfl⟩,
  ⟨[0, 0, 0, 0, 0xffffffff, 0xffffffff, 0, 0xffffffff], rfl⟩, ⟨[0xfffffffe, 0xfffffffe, 0xfffffffe, 0xfffffffe, 0xfffffffe, 0xfffffffe, 0xfffffffe, 0xfffffffe], rfl⟩]

-- test_int256_compare
example : ∀ a ∈ values, ∀ b ∈ values, a.compare b = if a = b then 0 else 1 := by decide +kernel
-- test_int256_reduce_once
example : Int256.ZERO.reduceOnce .debug 0 = .ok .ZERO ∧ Int256.P256.reduceOnce .debug 0 = .ok .ZERO ∧
    (⟨[0, 0, 0, 1, 0, 0, 1, 0xffffffff], rfl⟩ : Int256).reduceOnce .debug 0 = .ok .ONE ∧
    Int256.ZERO.reduceOnce .debug 1 = .ok ⟨[1, 0, 0, 0xffffffff, 0xffffffff, 0xffffffff, 0xfffffffe, 0], rfl⟩ := by decide +kernel
-- test_int256_add
example : ∀ a ∈ values, a.add .debug .ZERO = .ok a ∧ ∀ b ∈ values, a.add .debug b = b.add .debug a ∧ ∀ c ∈ values.drop 6,
    (a.add .debug b >>= (·.add .debug c)) = (a.add .debug c >>= (·.add .debug b)) ∧ (a.add .debug b >>= (·.add .debug c)) = (b.add .debug c >>= (·.add .debug a)) := by decide +kernel
-- test_int256_sub
example : ∀ a ∈ values, a.sub .debug .ZERO = .ok a ∧ a.sub .debug a = .ok .ZERO ∧ ∀ b ∈ values, (a.sub .debug b >>= (·.add .debug b)) = .ok a ∧
    (a.sub .debug b >>= (·.reduceOnce .debug 0)) = a.sub .debug b ∧ ∀ c ∈ values.drop 6,
    (a.sub .debug b >>= (·.sub .debug c)) = (a.sub .debug c >>= (·.sub .debug b)) ∧ (a.sub .debug b >>= (·.sub .debug c)) = (b.add .debug c >>= (a.sub .debug ·)) := by decide +kernel
-- test_int256_mult
example : ∀ a ∈ values, a.mult .debug .ONE = .ok a ∧ a.mult .debug .ZERO = .ok .ZERO ∧ ∀ b ∈ values.drop 6, a.mult .debug b = b.mult .debug a := by decide +kernel
-- test_int256_divide_by_2
example : ∀ a ∈ values, a.divideBy2.reduceOnce .debug 0 = .ok a.divideBy2 ∧ a.divideBy2.add .debug a.divideBy2 = .ok a := by decide +kernel
-- test_from_bytes
example : ∀ a ∈ values, Int256.fromBytes a.toBytes = some a := by decide +kernel

end Husk.Tests
