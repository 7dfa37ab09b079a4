import Verif.Model.Client
/-! `read` of src/client.rs:325-349 once more, counting the bytes of application data it moves from one place in memory to another. What the record layer does to produce
a record (`read_application_data`) is not counted, nor are moves inside the allocator (`Vec::extend` into a vector without capacity allocates once). -/

namespace Husk

namespace TlsClient

/-- The loop of `read`, src/client.rs:328-345. `moved` counts the bytes of `self.buf.extend(&data)` (line 337), of `copy_memory` (line 342) and of
`self.buf[necessary..].to_vec()` (line 345). -/
def readLoopMoving (m : Mode) : (fuel : Nat) → (remaining : Nat) → Bytes → (moved : Nat) → TlsClient → Res Bytes × TlsClient × Nat
  | 0, remaining, acc, moved, c => if remaining = 0 then (.ok acc, c, moved) else (.diverge, c, moved)
  | fuel + 1, remaining, acc, moved, c =>
    if remaining = 0 then (.ok acc, c, moved)
    else match (refill m).run c with
      | (.ok true, c') =>
        let extended := c'.buf.length - c.buf.length
        let necessary := min remaining c'.buf.length
        let rest := c'.buf.drop necessary
        readLoopMoving m fuel (remaining - necessary) (acc ++ c'.buf.take necessary) (moved + extended + necessary + rest.length) { c' with buf := rest }
      | (.ok false, c') => (.ok acc, c', moved)
      | (.err k, c') => (.err k, c', moved)
      | (.panic, c') => (.panic, c', moved)
      | (.diverge, c') => (.diverge, c', moved)

/-- `read`, src/client.rs:325-349, with the number of bytes moved. -/
def readMoving (m : Mode) (len : Nat) (c : TlsClient) : Res Bytes × TlsClient × Nat :=
  readLoopMoving m (len + c.reader.reader.bytes + 1) len [] 0 c

end TlsClient

end Husk
