import Verif.Base.Bytes
/-! ChaCha20 written from RFC 8439 section 2.1-2.4, on states `Nat → BitVec 32` (indices 0..15 are used). -/

namespace Husk.Spec.ChaCha20

abbrev Word := BitVec 32

/-- Assignment to one word of the state. -/
def upd (s : Nat → Word) (i : Nat) (x : Word) : Nat → Word := fun j => if j = i then x else s j

/-- RFC 8439 section 2.1: one line `a += b; d ^= a; d <<<= n`. -/
def line (s : Nat → Word) (a b d : Nat) (n : Nat) : Nat → Word :=
  let s := upd s a (s a + s b)
  let s := upd s d (s d ^^^ s a)
  upd s d ((s d).rotateLeft n)

/-- RFC 8439 section 2.1-2.2: QUARTERROUND(a,b,c,d) on a state. -/
def quarterRound (s : Nat → Word) (a b c d : Nat) : Nat → Word :=
  let s := line s a b d 16
  let s := line s c d b 12
  let s := line s a b d 8
  line s c d b 7

/-- RFC 8439 section 2.3: inner_block. -/
def innerBlock (s : Nat → Word) : Nat → Word :=
  let s := quarterRound s 0 4 8 12
  let s := quarterRound s 1 5 9 13
  let s := quarterRound s 2 6 10 14
  let s := quarterRound s 3 7 11 15
  let s := quarterRound s 0 5 10 15
  let s := quarterRound s 1 6 11 12
  let s := quarterRound s 2 7 8 13
  quarterRound s 3 4 9 14

/-- 32-bit little-endian word `i` of a byte string. -/
def leWord (b : Bytes) (i : Nat) : Word := BitVec.ofNat 32 (leNat ((b.drop (4 * i)).take 4))

/-- RFC 8439 section 2.3: the initial state; the constants are the string "expand 32-byte k". -/
def initState (key : Bytes) (counter : Nat) (nonce : Bytes) (i : Nat) : Word :=
  if i < 4 then leWord ("expand 32-byte k".toList.map fun c => UInt8.ofNat c.toNat) i
  else if i < 12 then leWord key (i - 4)
  else if i = 12 then BitVec.ofNat 32 counter
  else leWord nonce (i - 13)

/-- RFC 8439 section 2.3: chacha20_block. -/
def block (key : Bytes) (counter : Nat) (nonce : Bytes) : Bytes :=
  let s0 := initState key counter nonce
  let s := Nat.repeat innerBlock 10 s0
  (List.range 16).flatMap fun i => leBytes 4 (s0 i + s i).toNat

/-- RFC 8439 section 2.4: byte `j` of the key stream that starts with block `counter`. -/
def keystream (key : Bytes) (counter : Nat) (nonce : Bytes) (j : Nat) : UInt8 :=
  (block key (counter + j / 64) nonce).getD (j % 64) 0

/-- RFC 8439 section 2.4: chacha20_encrypt. -/
def encrypt (key : Bytes) (counter : Nat) (nonce data : Bytes) : Bytes :=
  data.mapIdx fun j b => b ^^^ keystream key counter nonce j

end Husk.Spec.ChaCha20
