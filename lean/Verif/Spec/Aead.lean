import Verif.Spec.ChaCha20
import Verif.Spec.Poly1305
/-! AEAD_CHACHA20_POLY1305 written from RFC 8439 section 2.6 and 2.8. -/

namespace Husk.Spec.Aead

/-- RFC 8439 section 2.8.1: `pad16`, the zero bytes that bring the length to a multiple of 16. -/
def pad16 (x : Bytes) : Bytes := List.replicate ((16 - x.length % 16) % 16) 0

/-- RFC 8439 section 2.8: the data that is authenticated. -/
def macData (aad ciphertext : Bytes) : Bytes :=
  aad ++ pad16 aad ++ ciphertext ++ pad16 ciphertext ++ leBytes 8 aad.length ++ leBytes 8 ciphertext.length

/-- RFC 8439 section 2.6 and 2.8: the tag, under the one-time key taken from block 0. -/
def tag (key nonce aad ciphertext : Bytes) : Bytes :=
  let otk := (Spec.ChaCha20.block key 0 nonce).take 32
  Spec.Poly1305.mac (macData aad ciphertext) (otk.take 16) (otk.drop 16)

/-- RFC 8439 section 2.8: the sealed message, ciphertext followed by tag. -/
def sealMsg (key nonce aad plaintext : Bytes) : Bytes :=
  let ciphertext := Spec.ChaCha20.encrypt key 1 nonce plaintext
  ciphertext ++ tag key nonce aad ciphertext

/-- RFC 8439 section 2.8: opening; `none` is authentication failure. -/
def openMsg (key nonce aad sealed : Bytes) : Option Bytes :=
  if sealed.length < 16 then none
  else
    let ciphertext := sealed.take (sealed.length - 16)
    if sealed.drop (sealed.length - 16) = tag key nonce aad ciphertext then some (Spec.ChaCha20.encrypt key 1 nonce ciphertext)
    else none

end Husk.Spec.Aead
