import Verif.Base.StRes
import Verif.Model.Util
/-! Model of `Read`/`Write` and of `ReadExt`/`WriteExt` (src/util.rs:59-187). -/

namespace Husk

/-- What one `Read::read` call of the transport can do: deliver bytes (an empty chunk is `Ok(0)`) or fail (with
`ErrorKind::Interrupted` or another kind). -/
inductive Ev
  | data (b : Bytes)
  | fail (interrupted : Bool)
  deriving DecidableEq, Repr

/-- The reading side of a transport: a finite script; when it is exhausted every read returns `Ok(0)` (end of file). -/
structure Reader where
  script : List Ev
  deriving DecidableEq, Repr

namespace Reader

/-- `Read::read` with a buffer of `n` bytes: at most one event is used, at most `n` bytes are returned. -/
def read (n : Nat) : St Reader Bytes := ⟨fun r =>
  match r.script with
  | [] => (.ok [], r)
  | .data b :: es => (.ok (b.take n), ⟨if b.length ≤ n then es else .data (b.drop n) :: es⟩)
  | .fail _ :: es => (.err .IoFailure, ⟨es⟩)⟩

/-- The loop of `fill_exact`, src/util.rs:91-103, with `need = len - pos`. Every round reads at least one byte, so `need` rounds
suffice; running out of fuel is `diverge` (proved impossible). `io::Error` becomes `IoFailure` when it meets `TlsResult`
(src/tls_result.rs:56-63); nothing in the code looks at it before that. -/
def fillLoop : (fuel : Nat) → (need : Nat) → Bytes → St Reader Bytes
  | fuel, need, acc =>
    if need = 0 then pure acc
    else match fuel with
      | 0 => St.lift .diverge
      | fuel + 1 => do
        let b ← read need
        if b.length = 0 then St.err .IoFailure
        else fillLoop fuel (need - b.length) (acc ++ b)

/-- `fill_exact`, src/util.rs:88-105, and `ReadExt::read_exact`, src/util.rs:108-113: the filled buffer is returned. -/
def readExact (n : Nat) : St Reader Bytes := fillLoop n n []

/-- `read_u8`, src/util.rs:62-68, 78, 116-118. -/
def readU8 : St Reader UInt8 := do
  let b ← readExact 1
  return b.getD 0 0

/-- `read_be_u16`, src/util.rs:62-68, 79, 120-123: transmute, then `to_be`. -/
def readBeU16 : St Reader UInt16 := do
  let b ← readExact 2
  return UInt16.ofNat (Util.toBe 2 (leNat b))

/-- `read_le_u16`, src/util.rs:125-128. -/
def readLeU16 : St Reader UInt16 := do
  let b ← readExact 2
  return UInt16.ofNat (Util.toLe 2 (leNat b))

/-- `read_be_u32`, src/util.rs:130-133. -/
def readBeU32 : St Reader UInt32 := do
  let b ← readExact 4
  return UInt32.ofNat (Util.toBe 4 (leNat b))

/-- `read_le_u32`, src/util.rs:135-138. -/
def readLeU32 : St Reader UInt32 := do
  let b ← readExact 4
  return UInt32.ofNat (Util.toLe 4 (leNat b))

/-- `read_be_u64`, src/util.rs:140-143. -/
def readBeU64 : St Reader UInt64 := do
  let b ← readExact 8
  return UInt64.ofNat (Util.toBe 8 (leNat b))

/-- `read_le_u64`, src/util.rs:145-148. -/
def readLeU64 : St Reader UInt64 := do
  let b ← readExact 8
  return UInt64.ofNat (Util.toLe 8 (leNat b))

end Reader

/-- The writing side of a transport: the bytes that reached it, and for each coming `write_all` call whether it succeeds (`none`)
or fails after some number of bytes. When the list is exhausted all calls succeed. -/
structure Writer where
  wire : Bytes := []
  faults : List (Option Nat) := []
  deriving DecidableEq, Repr

namespace Writer

/-- `Write::write_all` (std): an empty buffer makes no call of `write` and succeeds. -/
def writeAll (b : Bytes) : St Writer Unit := ⟨fun w =>
  if b = [] then (.ok (), w)
  else match w.faults with
    | [] => (.ok (), { w with wire := w.wire ++ b })
    | none :: fs => (.ok (), { wire := w.wire ++ b, faults := fs })
    | some k :: fs => (.err .IoFailure, { wire := w.wire ++ b.take k, faults := fs })⟩

/-- `write_u8`, src/util.rs:69-74, 78, 155-157. -/
def writeU8 (x : UInt8) : St Writer Unit := writeAll (Util.transmute 1 x.toNat)
/-- `write_be_u16`, src/util.rs:69-74, 79, 160-162. -/
def writeBeU16 (x : UInt16) : St Writer Unit := writeAll (Util.transmute 2 (Util.toBe 2 x.toNat))
/-- `write_le_u16`, src/util.rs:164-166. -/
def writeLeU16 (x : UInt16) : St Writer Unit := writeAll (Util.transmute 2 (Util.toLe 2 x.toNat))
/-- `write_be_u32`, src/util.rs:169-171. -/
def writeBeU32 (x : UInt32) : St Writer Unit := writeAll (Util.transmute 4 (Util.toBe 4 x.toNat))
/-- `write_le_u32`, src/util.rs:173-175. -/
def writeLeU32 (x : UInt32) : St Writer Unit := writeAll (Util.transmute 4 (Util.toLe 4 x.toNat))
/-- `write_be_u64`, src/util.rs:178-180. -/
def writeBeU64 (x : UInt64) : St Writer Unit := writeAll (Util.transmute 8 (Util.toBe 8 x.toNat))
/-- `write_le_u64`, src/util.rs:182-184. -/
def writeLeU64 (x : UInt64) : St Writer Unit := writeAll (Util.transmute 8 (Util.toLe 8 x.toNat))

end Writer

end Husk
