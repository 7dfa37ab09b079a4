import Verif.Base.StRes
import Verif.Base.Bytes
/-! Model of src/tls_item.rs and of the number macros of src/macros.rs.

Every `tls_write` in the crate writes into a `Vec<u8>` and every `tls_read` reads from an in-memory slice or `Cursor`, so `write` returns
the bytes emitted and `read` works on the remaining bytes. `tls_size` (a `u64` sum of lengths of in-memory vectors, which cannot reach
2^64) is a natural number. -/

namespace Husk

/-- Reading from an in-memory slice: the state is the rest of the slice. -/
abbrev P (α : Type) := St Bytes α

/-- `trait TlsItem`, src/tls_item.rs:15-24. -/
class TlsItem (α : Type) where
  write : α → Res Bytes
  read : P α
  size : α → Nat

namespace Item

/-- `ReadExt::read_exact` / `fill_exact` (src/util.rs:88-113) on a slice: all `n` bytes or `IoFailure` (the slice is then used up). -/
def readExact (n : Nat) : P Bytes := ⟨fun bs => if n ≤ bs.length then (.ok (bs.take n), bs.drop n) else (.err .IoFailure, [])⟩

/-- `Read::read_to_end` on a slice. -/
def readToEnd : P Bytes := ⟨fun bs => (.ok bs, [])⟩

/-- `try_write_num!`, src/macros.rs:15-36, for a number type of `k` bytes: the value is cast (`as`, truncating) and written big endian. -/
def writeNum (k : Nat) (n : Nat) : Bytes := beBytes k n

/-- `try_read_num!`, src/macros.rs:38-57, for a number type of `k` bytes. -/
def readNum (k : Nat) : P Nat := do
  let b ← readExact k
  return beNat b

end Item

open Item

/-- `tls_primitive!(u8)`, src/tls_item.rs:27-50. (`u16`, `u32`, `u64` are implemented too but never used as items.) -/
instance : TlsItem UInt8 where
  write x := .ok (writeNum 1 x.toNat)
  read := do
    let n ← readNum 1
    return UInt8.ofNat n
  size _ := 1

/-- What `tls_enum!` (src/tls_item.rs:100-142) is given: the width of the representation, the variants and their numbers. -/
class TlsEnum (α : Type) where
  width : Nat
  all : List α
  code : α → Nat

/-- `FromPrimitive::from_u64` as generated by `enum_from_primitive!`: the variant with that number. -/
def TlsEnum.ofCode [TlsEnum α] (n : Nat) : Option α := (TlsEnum.all (α := α)).find? fun a => TlsEnum.code a == n

/-- `tls_enum!`, src/tls_item.rs:121-140. -/
instance [TlsEnum α] : TlsItem α where
  write a := .ok (writeNum (TlsEnum.width α) (TlsEnum.code a))
  read := do
    let num ← readNum (TlsEnum.width α)
    match TlsEnum.ofCode num with
    | some a => return a
    | none => St.err .DecodeError
  size _ := TlsEnum.width α

/-- `tls_array!`, src/tls_item.rs:145-189. -/
structure TlsArray (n : Nat) where
  data : Bytes
  deriving DecidableEq, Repr

/-- `new` of `tls_array!`, src/tls_item.rs:150-163. -/
def TlsArray.new (n : Nat) (v : Bytes) : Res (TlsArray n) :=
  if v.length ≠ n then .err .InternalError else .ok ⟨v⟩

/-- src/tls_item.rs:166-180. -/
instance : TlsItem (TlsArray n) where
  write a := .ok a.data
  read := do
    let data ← readExact n
    return ⟨data⟩
  size _ := n

/-- `tls_vec!`, src/tls_item.rs:191-325: a vector whose serialised size must lie between `min` and `max`. -/
structure TlsVec (α : Type) (min max : Nat) where
  items : List α
  deriving DecidableEq, Repr

namespace TlsVec

variable {α : Type} [TlsItem α]

/-- `data_size`, src/tls_item.rs:228-234. -/
def sizes : List α → Nat
  | [] => 0
  | x :: xs => TlsItem.size x + sizes xs

/-- `new`, src/tls_item.rs:196-221. -/
def new (min max : Nat) (v : List α) : Res (TlsVec α min max) :=
  let size := sizes v
  if size < min then .err .DecodeError
  else if size > max then .err .DecodeError
  else .ok ⟨v⟩

/-- Width of the length prefix, src/tls_item.rs:243-253, 265-275, 301-311. -/
def prefixLen (max : Nat) : Nat :=
  if max < 2 ^ 8 then 1 else if max < 2 ^ 16 then 2 else if max < 2 ^ 24 then 3 else if max < 2 ^ 32 then 4 else 8

/-- src/tls_item.rs:255-257. -/
def writeItems : List α → Res Bytes
  | [] => .ok []
  | x :: xs => do
    let b ← TlsItem.write x
    let bs ← writeItems xs
    return b ++ bs

/-- The `while` loop, src/tls_item.rs:279-283, with the check after it (284-291). Every item is at least one byte long, so `selfSize`
rounds suffice; running out of fuel is `diverge` (proved impossible). -/
def readItems (selfSize : Nat) : (fuel : Nat) → (itemsSize : Nat) → List α → P (List α)
  | fuel, itemsSize, acc =>
    if itemsSize < selfSize then
      match fuel with
      | 0 => St.lift .diverge
      | fuel + 1 => do
        let item ← TlsItem.read
        readItems selfSize fuel (itemsSize + TlsItem.size item) (acc ++ [item])
    else if itemsSize ≠ selfSize then St.err .DecodeError
    else pure acc

/-- src/tls_item.rs:237-316. -/
instance {min max : Nat} : TlsItem (TlsVec α min max) where
  write v := do
    let body ← writeItems v.items
    return writeNum (prefixLen max) (sizes v.items) ++ body
  read := do
    let selfSize ← readNum (prefixLen max)
    let items ← readItems selfSize selfSize 0 []
    St.lift (new min max items)
  size v := prefixLen max + sizes v.items

end TlsVec

/-- `tls_option!`, src/tls_item.rs:328-361: present iff any byte is left; bytes left over after the item are dropped with `rest_reader`. -/
instance [TlsItem α] : TlsItem (Option α) where
  write
    | some x => TlsItem.write x
    | none => .ok []
  read := do
    let rest ← readToEnd
    if rest.length = 0 then return none
    else
      let x ← St.lift ((TlsItem.read (α := α)).run rest).1
      return some x
  size
    | some x => TlsItem.size x
    | none => 0

/-- `DummyItem`, src/tls_item.rs:364-376. -/
structure DummyItem where
  deriving DecidableEq, Repr

instance : TlsItem DummyItem where
  write _ := .ok []
  read := return ⟨⟩
  size _ := 0

/-- `ObscureData`, src/tls_item.rs:380-415. -/
structure ObscureData where
  data : Bytes
  deriving DecidableEq, Repr

instance : TlsItem ObscureData where
  write d := .ok d.data
  read := do
    let data ← readToEnd
    return ⟨data⟩
  size d := d.data.length

end Husk
