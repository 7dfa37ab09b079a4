import Verif.Base.Res
/-! What a transport delivers, without any chunking: bytes and interruptions. -/

namespace Husk.Spec

/-- One item of a stream: a byte, or a point where a read call fails or returns nothing. -/
inductive Sym
  | byte (b : UInt8)
  | stop
  deriving DecidableEq, Repr

/-- Take exactly `n` bytes from the front: `none` if the stream stops before; in that case everything up to and including the
stop is used up. -/
def takeBytes : Nat → List Sym → Option Bytes × List Sym
  | 0, l => (some [], l)
  | _ + 1, [] => (none, [])
  | _ + 1, .stop :: l => (none, l)
  | n + 1, .byte b :: l =>
    match takeBytes n l with
    | (some bs, l') => (some (b :: bs), l')
    | (none, l') => (none, l')

/-- A stream that consists of the given bytes. -/
def ofBytes (b : Bytes) : List Sym := b.map Sym.byte

theorem takeBytes_append (a : Bytes) (n : Nat) (l : List Sym) : takeBytes (a.length + n) (ofBytes a ++ l) =
    match takeBytes n l with
    | (some bs, l') => (some (a ++ bs), l')
    | (none, l') => (none, l') := by
  induction a with
  | nil =>
    simp only [List.length_nil, Nat.zero_add, ofBytes, List.map_nil, List.nil_append]
    rcases takeBytes n l with ⟨_ | _, _⟩ <;> rfl
  | cons x a ih =>
    rw [List.length_cons, show a.length + 1 + n = (a.length + n) + 1 by omega]
    simp only [ofBytes, List.map_cons, List.cons_append, takeBytes] at ih ⊢
    rw [ih]
    rcases takeBytes n l with ⟨_ | _, _⟩ <;> rfl

theorem takeBytes_ofBytes (a : Bytes) (l : List Sym) : takeBytes a.length (ofBytes a ++ l) = (some a, l) := by
  have := takeBytes_append a 0 l
  simpa [takeBytes] using this

theorem takeBytes_length {n : Nat} {l l' : List Sym} {bs : Bytes} (h : takeBytes n l = (some bs, l')) : bs.length = n := by
  induction n generalizing l bs with
  | zero => simp [takeBytes] at h; simp [← h.1]
  | succ n ih =>
    match l with
    | [] => simp [takeBytes] at h
    | .stop :: l => simp [takeBytes] at h
    | .byte b :: l =>
      simp only [takeBytes] at h
      rcases e : takeBytes n l with ⟨_ | bs', l2⟩
      · rw [e] at h; simp at h
      · rw [e] at h
        simp at h
        rw [← h.1, List.length_cons, ih (e.trans (by rw [h.2]))]

/-- If the bytes could be taken, the stream began with them. -/
theorem takeBytes_some {n : Nat} {l l' : List Sym} {bs : Bytes} (h : takeBytes n l = (some bs, l')) : l = ofBytes bs ++ l' := by
  induction n generalizing l bs with
  | zero => simp [takeBytes] at h; simp [← h.1, h.2, ofBytes]
  | succ n ih =>
    match l with
    | [] => simp [takeBytes] at h
    | .stop :: l => simp [takeBytes] at h
    | .byte b :: l =>
      simp only [takeBytes] at h
      rcases e : takeBytes n l with ⟨_ | bs', l2⟩
      · rw [e] at h; simp at h
      · rw [e] at h
        simp at h
        obtain ⟨rfl, rfl⟩ := h
        simp [ofBytes] at ih ⊢
        exact ih e

/-- If the bytes could not be taken, the stream ended or stopped after fewer bytes. -/
theorem takeBytes_none {n : Nat} {l l' : List Sym} (h : takeBytes n l = (none, l')) :
    ∃ bs : Bytes, bs.length < n ∧ ((l = ofBytes bs ∧ l' = []) ∨ l = ofBytes bs ++ .stop :: l') := by
  induction n generalizing l with
  | zero => simp [takeBytes] at h
  | succ n ih =>
    match l with
    | [] => simp [takeBytes] at h; exact ⟨[], by simp, Or.inl ⟨rfl, h⟩⟩
    | .stop :: l => simp [takeBytes] at h; exact ⟨[], by simp, Or.inr (by simp [ofBytes, h])⟩
    | .byte b :: l =>
      simp only [takeBytes] at h
      rcases e : takeBytes n l with ⟨_ | bs', l2⟩
      · rw [e] at h
        simp at h
        subst h
        obtain ⟨bs, h1, h2⟩ := ih e
        refine ⟨b :: bs, by simpa using h1, ?_⟩
        rcases h2 with ⟨rfl, rfl⟩ | h2
        · left; simp [ofBytes]
        · right; simp [ofBytes, h2]
      · rw [e] at h; simp at h

end Husk.Spec
