import Verif.Base.Bytes
/-! SHA-256 written from FIPS 180-4, on `BitVec 32`, for messages that are byte strings.
Nothing here refers to the model. -/

namespace Husk.Spec.Sha256

abbrev Word := BitVec 32

/-- FIPS 180-4 §4.1.2, (4.2)-(4.7). -/
def Ch (x y z : Word) : Word := (x &&& y) ^^^ (~~~x &&& z)
def Maj (x y z : Word) : Word := (x &&& y) ^^^ (x &&& z) ^^^ (y &&& z)
def bigSigma0 (x : Word) : Word := x.rotateRight 2 ^^^ x.rotateRight 13 ^^^ x.rotateRight 22
def bigSigma1 (x : Word) : Word := x.rotateRight 6 ^^^ x.rotateRight 11 ^^^ x.rotateRight 25
def smallSigma0 (x : Word) : Word := x.rotateRight 7 ^^^ x.rotateRight 18 ^^^ x >>> 3
def smallSigma1 (x : Word) : Word := x.rotateRight 17 ^^^ x.rotateRight 19 ^^^ x >>> 10

/-- `r` is the integer `k`-th root of `n`. -/
def IsRoot (k n r : Nat) : Prop := r ^ k ≤ n ∧ n < (r + 1) ^ k

instance (k n r : Nat) : Decidable (IsRoot k n r) := by unfold IsRoot; infer_instance

/-- The first 64 primes. -/
def primes : List Nat := (List.range 312).filter fun n => decide (2 ≤ n) && (List.range n).all fun d => d < 2 || n % d ≠ 0

/-- FIPS 180-4 §4.2.2 / §5.3.3: `w` is the first 32 bits of the fractional part of the `k`-th root of `p`:
with `r = ⌊p^(1/k) · 2^32⌋`, `w = r mod 2^32`. -/
def FracRoot (k p : Nat) (w : Word) : Prop := ∃ r, IsRoot k (p * 2 ^ (32 * k)) r ∧ w.toNat = r % 2 ^ 32

/-- The eight working variables / hash words. -/
structure State where
  a : Word
  b : Word
  c : Word
  d : Word
  e : Word
  f : Word
  g : Word
  h : Word

/-- §6.2.2 step 1: message schedule of a block `M`. -/
def W (M : Nat → Word) (t : Nat) : Word :=
  if _h : t < 16 then M t
  else smallSigma1 (W M (t - 2)) + W M (t - 7) + smallSigma0 (W M (t - 15)) + W M (t - 16)
termination_by t
decreasing_by all_goals omega

/-- §6.2.2 step 3. -/
def step (k w : Word) (s : State) : State :=
  let T1 := s.h + bigSigma1 s.e + Ch s.e s.f s.g + k + w
  let T2 := bigSigma0 s.a + Maj s.a s.b s.c
  ⟨T1 + T2, s.a, s.b, s.c, s.d + T1, s.e, s.f, s.g⟩

/-- The working variables after `t` steps. -/
def vars (K : Nat → Word) (M : Nat → Word) (H : State) : Nat → State
  | 0 => H
  | t + 1 => step (K t) (W M t) (vars K M H t)

/-- §6.2.2: the whole compression function. -/
def compress (K : Nat → Word) (M : Nat → Word) (H : State) : State :=
  let v := vars K M H 64
  ⟨H.a + v.a, H.b + v.b, H.c + v.c, H.d + v.d, H.e + v.e, H.f + v.f, H.g + v.g, H.h + v.h⟩

/-- §5.1.1 on byte strings: append the bit 1, the least number of zero bits that makes the total length (with the 64-bit
length field) a multiple of 512, and the message length in bits as 64-bit big-endian number. -/
def IsPadded (msg padded : Bytes) : Prop :=
  ∃ k, padded = msg ++ [0x80] ++ List.replicate k 0 ++ beBytes 8 (8 * msg.length) ∧
    padded.length % 64 = 0 ∧ ∀ k' < k, (msg.length + 1 + k' + 8) % 64 ≠ 0

/-- §5.2.1: word `t` of block `i`. -/
def blockWord (padded : Bytes) (i t : Nat) : Word := BitVec.ofNat 32 (beNat ((padded.drop (64 * i + 4 * t)).take 4))

/-- Hash value after `i` blocks. -/
def hash (K : Nat → Word) (H0 : State) (padded : Bytes) : Nat → State
  | 0 => H0
  | i + 1 => compress K (blockWord padded i) (hash K H0 padded i)

/-- The message digest: `H_0 ‖ ... ‖ H_7`, big-endian. -/
def digest (s : State) : Bytes :=
  [s.a, s.b, s.c, s.d, s.e, s.f, s.g, s.h].flatMap fun w => beBytes 4 w.toNat

/-- `d` is the SHA-256 digest of `msg`. The constants are given by their defining property. -/
def IsSha256 (msg d : Bytes) : Prop :=
  ∃ (K : Nat → Word) (H0 : State) (padded : Bytes),
    (∀ t, (ht : t < primes.length) → FracRoot 3 primes[t] (K t)) ∧
    (∀ i, (hi : i < 8) → FracRoot 2 ([2, 3, 5, 7, 11, 13, 17, 19][i]) ([H0.a, H0.b, H0.c, H0.d, H0.e, H0.f, H0.g, H0.h][i])) ∧
    IsPadded msg padded ∧ d = digest (hash K H0 padded (padded.length / 64))

open Classical in
/-- The SHA-256 function (`IsSha256` determines the digest, see `IsSha256_functional`). -/
noncomputable def sha256 (msg : Bytes) : Bytes := if h : ∃ d, IsSha256 msg d then h.choose else []

end Husk.Spec.Sha256
