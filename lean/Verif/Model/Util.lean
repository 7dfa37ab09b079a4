import Verif.Base.Bytes
/-! Model of the byte and comparison helpers of src/util.rs (lines 26-57). -/

namespace Husk.Util

/-- The accumulator loop of `crypto_compare`, src/util.rs:32-35: `diff |= a[i] ^ b[i]` for `i in 0..a.len()`; the index `b[i]` panics
when `b` is shorter. -/
def diffLoop : Bytes → Bytes → UInt8 → Res UInt8
  | [], _, diff => .ok diff
  | _ :: _, [], _ => .panic
  | x :: a, y :: b, diff => diffLoop a b (diff ||| (x ^^^ y))

/-- `crypto_compare`, src/util.rs:29-41. -/
def cryptoCompare (m : Mode) (a b : Bytes) : Res Bool := do
  debugAssert m (a.length == b.length)
  let diff ← diffLoop a b 0
  let diff := diff ||| (diff >>> 4)
  let diff := diff ||| (diff >>> 2)
  let diff := diff ||| (diff >>> 1)
  let diff := diff &&& 1
  return diff == 0

/-- `mem::transmute` of a `k`-byte integer to bytes on a little-endian host. -/
def transmute (k : Nat) (n : Nat) : Bytes := leBytes k n

/-- `to_be` of a `k`-byte integer on a little-endian host: the bytes are swapped. -/
def toBe (k : Nat) (n : Nat) : Nat := leNat (leBytes k n).reverse

/-- `to_le` of a `k`-byte integer on a little-endian host: nothing changes. -/
def toLe (_k : Nat) (n : Nat) : Nat := n

/-- `u64_be_array`, src/util.rs:43-45. -/
def u64BeArray (x : UInt64) : Bytes := transmute 8 (toBe 8 x.toNat)
/-- `u64_le_array`, src/util.rs:47-49. -/
def u64LeArray (x : UInt64) : Bytes := transmute 8 (toLe 8 x.toNat)
/-- `u32_be_array`, src/util.rs:51-53. -/
def u32BeArray (x : UInt32) : Bytes := transmute 4 (toBe 4 x.toNat)
/-- `u32_le_array`, src/util.rs:55-57. -/
def u32LeArray (x : UInt32) : Bytes := transmute 4 (toLe 4 x.toNat)

theorem toBe_transmute (k n : Nat) : transmute k (toBe k n) = beBytes k n := by
  unfold transmute toBe beBytes
  have h := leBytes_leNat (leBytes k n).reverse
  simpa using h

end Husk.Util
