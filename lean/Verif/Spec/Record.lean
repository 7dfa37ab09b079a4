import Verif.Base.Bytes
import Verif.Spec.Stream
/-! RFC 5246 section 6.2 and RFC 7905: records, nonces and additional data. -/

namespace Husk.Spec

/-- A record on the wire: type, version, length, fragment. -/
def recordBytes (ty major minor : UInt8) (fragment : Bytes) : Bytes := [ty, major, minor] ++ beBytes 2 fragment.length ++ fragment

/-- RFC 7905: the 64-bit sequence number, padded on the left to 12 bytes, xored with the 12-byte IV. -/
def recordNonce (iv : Bytes) (k : Nat) : Bytes := List.zipWith (· ^^^ ·) (beBytes 12 k) iv

/-- RFC 5246 section 6.2.3.3: seq_num, type, version, length of the plaintext. -/
def recordAad (k : Nat) (ty major minor : UInt8) (plainLen : Nat) : Bytes := beBytes 8 k ++ [ty, major, minor] ++ beBytes 2 plainLen

/-- Bytes in a stream. -/
def countBytes : List Sym → Nat
  | [] => 0
  | .byte _ :: l => countBytes l + 1
  | .stop :: l => countBytes l

theorem countBytes_append (a b : List Sym) : countBytes (a ++ b) = countBytes a + countBytes b := by
  induction a with
  | nil => simp [countBytes]
  | cons x a ih => cases x <;> simp [countBytes, ih] <;> omega

theorem countBytes_ofBytes (b : Bytes) : countBytes (ofBytes b) = b.length := by
  induction b with
  | nil => rfl
  | cons x b ih => simp [ofBytes, countBytes] at ih ⊢; exact ih

theorem countBytes_le_length (l : List Sym) : countBytes l ≤ l.length := by
  induction l with
  | nil => exact Nat.le_refl _
  | cons x l ih => cases x <;> simp [countBytes] <;> omega

theorem ofBytes_append (a b : Bytes) : ofBytes (a ++ b) = ofBytes a ++ ofBytes b := by simp [ofBytes]

theorem ofBytes_inj {a b : Bytes} (h : ofBytes a = ofBytes b) : a = b := by
  induction a generalizing b with
  | nil => cases b with
    | nil => rfl
    | cons => simp [ofBytes] at h
  | cons x a ih => cases b with
    | nil => simp [ofBytes] at h
    | cons y b =>
      simp only [ofBytes, List.map_cons, List.cons.injEq, Sym.byte.injEq] at h
      rw [h.1, ih h.2]

end Husk.Spec
