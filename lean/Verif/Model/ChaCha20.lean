import Verif.Base.Bytes
/-! Model of src/crypto/chacha20.rs. -/

namespace Husk.ChaCha20

/-- `struct ChaCha20`, src/crypto/chacha20.rs:6-8 (`[u32; 16]` is a list of 16 words). -/
structure ChaCha20 where
  vals : List UInt32
  deriving DecidableEq, Repr

/-- `LittleEndian::read_u32_into` (byteorder), used at src/crypto/chacha20.rs:23,27. -/
def readU32sLE (b : Bytes) : List UInt32 := (chunks 4 b).map fun c => UInt32.ofNat (leNat c)

/-- `LittleEndian::write_u32_into` (byteorder), used at src/crypto/chacha20.rs:88. -/
def writeU32sLE (ws : List UInt32) : Bytes := ws.flatMap fun w => leBytes 4 w.toNat

/-- `ChaCha20::new`, src/crypto/chacha20.rs:11-30. The two `assert_eq!` panic on wrong lengths. -/
def new (key nonce : Bytes) : Res ChaCha20 :=
  if key.length ≠ 32 then .panic
  else if nonce.length ≠ 12 then .panic
  else .ok { vals := [0x61707865, 0x3320646e, 0x79622d32, 0x6b206574] ++ readU32sLE key ++ [0] ++ readU32sLE nonce }

/-- `u32::rotate_left` (std). -/
def rotl (x : UInt32) (n : UInt32) : UInt32 := (x <<< n) ||| (x >>> (32 - n))

/-- `quarter_round!` on four array slots, src/crypto/chacha20.rs:33-57. The four slots are read
into locals, updated, and stored back; this equals the macro's in-place updates because every call site uses four distinct indices. -/
def quarterRound (v : List UInt32) (ia ib ic id : Nat) : List UInt32 :=
  let a := v.getD ia 0
  let b := v.getD ib 0
  let c := v.getD ic 0
  let d := v.getD id 0
  let a := a + b
  let d := d ^^^ a
  let d := rotl d 16
  let c := c + d
  let b := b ^^^ c
  let b := rotl b 12
  let a := a + b
  let d := d ^^^ a
  let d := rotl d 8
  let c := c + d
  let b := b ^^^ c
  let b := rotl b 7
  (((v.set ia a).set ib b).set ic c).set id d

/-- One iteration of the loop, src/crypto/chacha20.rs:60-72. -/
def doubleRound (v : List UInt32) : List UInt32 :=
  let v := quarterRound v 0x0 0x4 0x8 0xC
  let v := quarterRound v 0x1 0x5 0x9 0xD
  let v := quarterRound v 0x2 0x6 0xA 0xE
  let v := quarterRound v 0x3 0x7 0xB 0xF
  let v := quarterRound v 0x0 0x5 0xA 0xF
  let v := quarterRound v 0x1 0x6 0xB 0xC
  let v := quarterRound v 0x2 0x7 0x8 0xD
  let v := quarterRound v 0x3 0x4 0x9 0xE
  v

/-- `n` iterations of the loop body. -/
def rounds : Nat → List UInt32 → List UInt32
  | 0, v => v
  | n + 1, v => rounds n (doubleRound v)

/-- `round20`, src/crypto/chacha20.rs:32-79. -/
def round20 (s : ChaCha20) : List UInt32 :=
  List.zipWith (· + ·) (rounds 10 s.vals) s.vals

/-- `next`, src/crypto/chacha20.rs:81-91: returns the block and the new state.
`self.vals[12] += 1` is a checked addition. -/
def next (m : Mode) (s : ChaCha20) : Res (Bytes × ChaCha20) := do
  let blk := round20 s
  let ctr ← addU32 m (s.vals.getD 12 0) 1
  return (writeU32sLE blk, { vals := s.vals.set 12 ctr })

/-- Loop of `encrypt` over the chunks, src/crypto/chacha20.rs:102-106. -/
def encryptChunks (m : Mode) : List Bytes → ChaCha20 → Res (Bytes × ChaCha20)
  | [], s => .ok ([], s)
  | c :: cs, s => do
    let (blk, s) ← next m s
    let (rest, s) ← encryptChunks m cs s
    return (List.zipWith (· ^^^ ·) blk c ++ rest, s)

/-- `encrypt`, src/crypto/chacha20.rs:99-109. -/
def encrypt (m : Mode) (s : ChaCha20) (data : Bytes) : Res (Bytes × ChaCha20) :=
  encryptChunks m (chunks 64 data) s

end Husk.ChaCha20
