import Verif.Spec.Handshake
/-! The record protection of RFC 7905 and RFC 8439 with the block function of ChaCha20 left open: a function from nonce and block counter to 64 bytes. With the blocks of
ChaCha20 under a key it is the real one (`Blocks.ofKey`); with blocks drawn at random (`Pad`) it is the ideal one that the statements about secrecy and forgery use. -/

namespace Husk.Spec

/-- Byte `i` of the block with the given nonce and counter. -/
abbrev Blocks := (nonce : Bytes) → (counter i : Nat) → UInt8

namespace Blocks

/-- The blocks of ChaCha20 under a key. -/
def ofKey (key : Bytes) : Blocks := fun nonce counter i => (ChaCha20.block key counter nonce).getD i 0

/-- RFC 8439 section 2.4, from block 1. -/
def encrypt (F : Blocks) (nonce data : Bytes) : Bytes := data.mapIdx fun j b => b ^^^ F nonce (1 + j / 64) (j % 64)

/-- RFC 8439 section 2.6: the two halves of the one-time key, from block 0. -/
def oneTimeKey (F : Blocks) (nonce : Bytes) : Bytes × Bytes := ((List.range 16).map fun i => F nonce 0 i, (List.range 16).map fun i => F nonce 0 (16 + i))

/-- RFC 8439 section 2.8: the tag. -/
def tag (F : Blocks) (nonce aad ciphertext : Bytes) : Bytes := Poly1305.mac (Aead.macData aad ciphertext) (F.oneTimeKey nonce).1 (F.oneTimeKey nonce).2

/-- RFC 8439 section 2.8: ciphertext followed by tag. -/
def sealMsg (F : Blocks) (nonce aad plaintext : Bytes) : Bytes := F.encrypt nonce plaintext ++ F.tag nonce aad (F.encrypt nonce plaintext)

/-- RFC 8439 section 2.8: the message that opens. -/
def openMsg (F : Blocks) (nonce aad sealed : Bytes) : Option Bytes :=
  if sealed.length < 16 then none
  else
    let ciphertext := sealed.take (sealed.length - 16)
    if sealed.drop (sealed.length - 16) = F.tag nonce aad ciphertext then some (F.encrypt nonce ciphertext)
    else none

/-- RFC 7905: the protected record with number `k`. -/
def record (F : Blocks) (iv : Bytes) (k : Nat) (ty : UInt8) (fragment : Bytes) : Bytes :=
  recordBytes ty 3 3 (F.sealMsg (recordNonce iv k) (recordAad k ty 3 3 fragment.length) fragment)

/-- Records (type, content) with consecutive numbers. -/
def records (F : Blocks) (iv : Bytes) : Nat → List (UInt8 × Bytes) → Bytes
  | _, [] => []
  | k, r :: rs => F.record iv k r.1 r.2 ++ F.records iv (k + 1) rs

end Blocks

/-- All blocks 0 to 511 of the records 0 to n-1. -/
def Pad (n : Nat) : Type := Fin n × Fin 512 × Fin 64 → UInt8

/-- The number of a nonce. -/
def numberOf (iv nonce : Bytes) : Nat := beNat (List.zipWith (· ^^^ ·) nonce iv)

/-- The pad as a block function (outside the pad, 0). -/
def Pad.blocks {n : Nat} (P : Pad n) (iv : Bytes) : Blocks := fun nonce counter i =>
  if h : numberOf iv nonce < n ∧ counter < 512 ∧ i < 64 then P (⟨_, h.1⟩, ⟨_, h.2.1⟩, ⟨_, h.2.2⟩) else 0

end Husk.Spec
