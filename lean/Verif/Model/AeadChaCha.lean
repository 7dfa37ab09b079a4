import Verif.Model.ChaCha20
import Verif.Model.Poly1305
/-! Model of src/cipher/chacha20_poly1305.rs. -/

namespace Husk.Aead

open Husk

/-- `KEY_LEN`, src/cipher/chacha20_poly1305.rs:17. -/
def KEY_LEN : Nat := 32
/-- `MAC_LEN`, src/cipher/chacha20_poly1305.rs:19. -/
def MAC_LEN : Nat := 16

/-- The padding appended after a part, src/cipher/chacha20_poly1305.rs:26-29 and 31-34. -/
def padding (part : Bytes) : Bytes :=
  let paddingLen := 16 - part.length % 16
  if paddingLen ≠ 16 then List.replicate paddingLen 0 else []

/-- The message given to Poly1305, src/cipher/chacha20_poly1305.rs:22-36. `len() as u64` and `u64_le_array` (src/util.rs:47-49)
are combined into `leBytes 8`. -/
def macInput (encrypted ad : Bytes) : Bytes :=
  ad ++ padding ad ++ encrypted ++ padding encrypted ++ leBytes 8 ad.length ++ leBytes 8 encrypted.length

/-- `compute_mac`, src/cipher/chacha20_poly1305.rs:21-44. `poly_key` is a 64-byte array. -/
def computeMac (m : Mode) (polyKey encrypted ad : Bytes) : Res Bytes :=
  Poly1305.authenticate m (macInput encrypted ad) (polyKey.take 16) ((polyKey.drop 16).take 16)

/-- `ChaCha20Poly1305Encryptor::encrypt`, src/cipher/chacha20_poly1305.rs:50-61. -/
def encrypt (m : Mode) (key nonce data ad : Bytes) : Res Bytes := do
  let c ← ChaCha20.new key nonce
  let (polyKey, c) ← ChaCha20.next m c
  let (encrypted, _) ← ChaCha20.encrypt m c data
  let mac ← computeMac m polyKey encrypted ad
  return encrypted ++ mac

/-- The difference accumulator, src/cipher/chacha20_poly1305.rs:86-89. -/
def macDiff (a b : Bytes) : UInt8 := (List.zipWith (· ^^^ ·) a b).foldl (· ||| ·) 0

/-- `ChaCha20Poly1305Decryptor::decrypt`, src/cipher/chacha20_poly1305.rs:68-96. -/
def decrypt (m : Mode) (key nonce data ad : Bytes) : Res Bytes := do
  let encLen := data.length
  if encLen < MAC_LEN then .err .BadRecordMac
  else
    let encrypted := data.take (encLen - MAC_LEN)
    let macExpected := data.drop (encLen - MAC_LEN)
    let c ← ChaCha20.new key nonce
    let (polyKey, c) ← ChaCha20.next m c
    let macComputed ← computeMac m polyKey encrypted ad
    let (plain, _) ← ChaCha20.encrypt m c encrypted
    if macDiff macComputed macExpected ≠ 0 then .err .BadRecordMac
    else .ok plain

end Husk.Aead
