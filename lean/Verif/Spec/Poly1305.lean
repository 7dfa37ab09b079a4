import Verif.Base.Bytes
/-! Poly1305 written from RFC 8439 section 2.5 on natural numbers. -/

namespace Husk.Spec.Poly1305

/-- The prime 2^130 - 5. -/
def P : Nat := 2 ^ 130 - 5

/-- RFC 8439 section 2.5: clamping of `r`. -/
def clamp (r : Nat) : Nat := r &&& 0x0ffffffc0ffffffc0ffffffc0fffffff

/-- RFC 8439 section 2.5: a block as little-endian number with one bit added beyond the number of octets. -/
def blockNum (b : Bytes) : Nat := leNat b + 2 ^ (8 * b.length)

/-- RFC 8439 section 2.5: the accumulator after the given blocks. -/
def accumulate (r : Nat) (blocks : List Bytes) : Nat := blocks.foldl (fun acc b => (acc + blockNum b) * r % P) 0

/-- RFC 8439 section 2.5: the tag. -/
def mac (msg r s : Bytes) : Bytes := leBytes 16 (accumulate (clamp (leNat r)) (chunks 16 msg) + leNat s)

end Husk.Spec.Poly1305
