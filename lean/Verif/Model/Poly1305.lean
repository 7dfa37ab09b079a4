import Verif.Base.Bytes
/-! Model of src/crypto/poly1305.rs. -/

namespace Husk.Poly1305

/-- `struct Poly1305`, src/crypto/poly1305.rs:7-12. The arrays are spelled out as fields. -/
structure State where
  r0 : UInt32
  r1 : UInt32
  r2 : UInt32
  r3 : UInt32
  r4 : UInt32
  h0 : UInt32
  h1 : UInt32
  h2 : UInt32
  h3 : UInt32
  h4 : UInt32
  pad0 : UInt32
  pad1 : UInt32
  pad2 : UInt32
  pad3 : UInt32
  deriving DecidableEq, Repr

/-- `u32::from_le_bytes(b[i..i+4].try_into().unwrap())` (std); `b` is a 16-byte array and `i + 4 ≤ 16` throughout. -/
def le32 (b : Bytes) (i : Nat) : UInt32 := UInt32.ofNat (leNat ((b.drop i).take 4))

/-- `Poly1305::new`, src/crypto/poly1305.rs:15-27. -/
def new (r s : Bytes) : State where
  r0 := le32 r 0 &&& 0x3ffffff
  r1 := (le32 r 3 >>> 2) &&& 0x3ffff03
  r2 := (le32 r 6 >>> 4) &&& 0x3ffc0ff
  r3 := (le32 r 9 >>> 6) &&& 0x3f03fff
  r4 := (le32 r 12 >>> 8) &&& 0x00fffff
  h0 := 0
  h1 := 0
  h2 := 0
  h3 := 0
  h4 := 0
  pad0 := le32 s 0
  pad1 := le32 s 4
  pad2 := le32 s 8
  pad3 := le32 s 12

/-- `u64::from(a0) * u64::from(b0) + ... + u64::from(a4) * u64::from(b4)`, checked, left to right:
the shape of src/crypto/poly1305.rs:56-84. -/
def dot5 (m : Mode) (a0 b0 a1 b1 a2 b2 a3 b3 a4 b4 : UInt32) : Res UInt64 := do
  let p0 ← mulU64 m a0.toUInt64 b0.toUInt64
  let p1 ← mulU64 m a1.toUInt64 b1.toUInt64
  let p2 ← mulU64 m a2.toUInt64 b2.toUInt64
  let p3 ← mulU64 m a3.toUInt64 b3.toUInt64
  let p4 ← mulU64 m a4.toUInt64 b4.toUInt64
  let s ← addU64 m p0 p1
  let s ← addU64 m s p2
  let s ← addU64 m s p3
  addU64 m s p4

/-- `compute_block`, src/crypto/poly1305.rs:28-117. All plain `+`/`*` are checked. -/
def computeBlock (m : Mode) (st : State) (block : Bytes) (isPartial : Bool) : Res State := do
  let hibit : UInt32 := if isPartial then 0 else (1 : UInt32) <<< (24 : UInt32)
  let s1 ← mulU32 m st.r1 5
  let s2 ← mulU32 m st.r2 5
  let s3 ← mulU32 m st.r3 5
  let s4 ← mulU32 m st.r4 5
  -- h += m (lines 48-53)
  let h0 ← addU32 m st.h0 (le32 block 0 &&& 0x3ffffff)
  let h1 ← addU32 m st.h1 ((le32 block 3 >>> 2) &&& 0x3ffffff)
  let h2 ← addU32 m st.h2 ((le32 block 6 >>> 4) &&& 0x3ffffff)
  let h3 ← addU32 m st.h3 ((le32 block 9 >>> 6) &&& 0x3ffffff)
  let h4 ← addU32 m st.h4 ((le32 block 12 >>> 8) ||| hibit)
  -- h *= r (lines 55-84)
  let d0 ← dot5 m h0 st.r0 h1 s4 h2 s3 h3 s2 h4 s1
  let d1 ← dot5 m h0 st.r1 h1 st.r0 h2 s4 h3 s3 h4 s2
  let d2 ← dot5 m h0 st.r2 h1 st.r1 h2 st.r0 h3 s4 h4 s3
  let d3 ← dot5 m h0 st.r3 h1 st.r2 h2 st.r1 h3 st.r0 h4 s4
  let d4 ← dot5 m h0 st.r4 h1 st.r3 h2 st.r2 h3 st.r1 h4 st.r0
  -- (partial) h %= p (lines 86-110); `as u32` truncates
  let c := (d0 >>> 26).toUInt32
  let h0 := d0.toUInt32 &&& 0x3ffffff
  let d1 ← addU64 m d1 c.toUInt64
  let c := (d1 >>> 26).toUInt32
  let h1 := d1.toUInt32 &&& 0x3ffffff
  let d2 ← addU64 m d2 c.toUInt64
  let c := (d2 >>> 26).toUInt32
  let h2 := d2.toUInt32 &&& 0x3ffffff
  let d3 ← addU64 m d3 c.toUInt64
  let c := (d3 >>> 26).toUInt32
  let h3 := d3.toUInt32 &&& 0x3ffffff
  let d4 ← addU64 m d4 c.toUInt64
  let c := (d4 >>> 26).toUInt32
  let h4 := d4.toUInt32 &&& 0x3ffffff
  let c5 ← mulU32 m c 5
  let h0 ← addU32 m h0 c5
  let c := h0 >>> 26
  let h0 := h0 &&& 0x3ffffff
  let h1 ← addU32 m h1 c
  return { st with h0 := h0, h1 := h1, h2 := h2, h3 := h3, h4 := h4 }

/-- `finalize`, src/crypto/poly1305.rs:120-206. -/
def finalize (m : Mode) (st : State) : Res Bytes := do
  -- fully carry h (lines 121-147)
  let c := st.h1 >>> 26
  let h1 := st.h1 &&& 0x3ffffff
  let h2 ← addU32 m st.h2 c
  let c := h2 >>> 26
  let h2 := h2 &&& 0x3ffffff
  let h3 ← addU32 m st.h3 c
  let c := h3 >>> 26
  let h3 := h3 &&& 0x3ffffff
  let h4 ← addU32 m st.h4 c
  let c := h4 >>> 26
  let h4 := h4 &&& 0x3ffffff
  let c5 ← mulU32 m c 5
  let h0 ← addU32 m st.h0 c5
  let c := h0 >>> 26
  let h0 := h0 &&& 0x3ffffff
  let h1 ← addU32 m h1 c
  -- compute h + -p (lines 149-166), wrapping
  let g0 := h0 + 5
  let c := g0 >>> 26
  let g0 := g0 &&& 0x3ffffff
  let g1 := h1 + c
  let c := g1 >>> 26
  let g1 := g1 &&& 0x3ffffff
  let g2 := h2 + c
  let c := g2 >>> 26
  let g2 := g2 &&& 0x3ffffff
  let g3 := h3 + c
  let c := g3 >>> 26
  let g3 := g3 &&& 0x3ffffff
  let g4 := (h4 + c) - ((1 : UInt32) <<< (26 : UInt32))
  -- select h if h < p, or h + -p if h >= p (lines 168-180)
  let mask := (g4 >>> 31) - 1
  let g0 := g0 &&& mask
  let g1 := g1 &&& mask
  let g2 := g2 &&& mask
  let g3 := g3 &&& mask
  let g4 := g4 &&& mask
  let mask := ~~~ mask
  let h0 := (h0 &&& mask) ||| g0
  let h1 := (h1 &&& mask) ||| g1
  let h2 := (h2 &&& mask) ||| g2
  let h3 := (h3 &&& mask) ||| g3
  let h4 := (h4 &&& mask) ||| g4
  -- h = h % 2^128 (lines 182-186)
  let h0 := h0 ||| (h1 <<< 26)
  let h1 := (h1 >>> 6) ||| (h2 <<< 20)
  let h2 := (h2 >>> 12) ||| (h3 <<< 14)
  let h3 := (h3 >>> 18) ||| (h4 <<< 8)
  -- h = mac = (h + pad) % 2^128 (lines 188-200)
  let f ← addU64 m h0.toUInt64 st.pad0.toUInt64
  let h0 := f.toUInt32
  let t ← addU64 m h1.toUInt64 st.pad1.toUInt64
  let f ← addU64 m t (f >>> 32)
  let h1 := f.toUInt32
  let t ← addU64 m h2.toUInt64 st.pad2.toUInt64
  let f ← addU64 m t (f >>> 32)
  let h2 := f.toUInt32
  let t ← addU64 m h3.toUInt64 st.pad3.toUInt64
  let f ← addU64 m t (f >>> 32)
  let h3 := f.toUInt32
  return leBytes 4 h0.toNat ++ leBytes 4 h1.toNat ++ leBytes 4 h2.toNat ++ leBytes 4 h3.toNat

/-- Loop body of `authenticate`, src/crypto/poly1305.rs:213-220. -/
def absorb (m : Mode) (st : State) (block : Bytes) : Res State :=
  if block.length == 16 then computeBlock m st block false
  else computeBlock m st (block ++ [1] ++ List.replicate (15 - block.length) 0) true

/-- The loop over `msg.chunks(16)`. -/
def absorbAll (m : Mode) : List Bytes → State → Res State
  | [], st => .ok st
  | b :: bs, st => do
    let st ← absorb m st b
    absorbAll m bs st

/-- `authenticate`, src/crypto/poly1305.rs:209-224. `r` and `s` are 16-byte arrays in Rust. -/
def authenticate (m : Mode) (msg r s : Bytes) : Res Bytes := do
  let st ← absorbAll m (chunks 16 msg) (new r s)
  finalize m st

end Husk.Poly1305
