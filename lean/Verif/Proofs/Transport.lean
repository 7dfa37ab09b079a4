import Verif.Model.Transport
import Verif.Spec.Stream
/-! The reader script, flattened; `readExact` is `takeBytes` on the flat stream. -/

namespace Husk

open Spec (Sym takeBytes ofBytes)

/-- What one event contributes to the flat stream. -/
def Ev.syms : Ev → List Sym
  | .data [] => [.stop]
  | .data (b :: bs) => ofBytes (b :: bs)
  | .fail _ => [.stop]

/-- The flat stream of a reader. -/
def Reader.stream (r : Reader) : List Sym := r.script.flatMap Ev.syms

namespace Reader

theorem stream_data (b : Bytes) (hb : b ≠ []) (es : List Ev) : stream ⟨.data b :: es⟩ = ofBytes b ++ stream ⟨es⟩ := by
  cases b with
  | nil => exact absurd rfl hb
  | cons x b => simp [stream, Ev.syms]

/-- The outcome of taking `n` bytes, as a `Res`. -/
def resOf (acc : Bytes) : Option Bytes × List Sym → Res Bytes
  | (some bs, _) => .ok (acc ++ bs)
  | (none, _) => .err .IoFailure

theorem fillLoop_spec (fuel : Nat) : ∀ (need : Nat) (acc : Bytes) (r : Reader), need ≤ fuel →
    ∃ r', (fillLoop fuel need acc).run r = (resOf acc (takeBytes need r.stream), r') ∧ r'.stream = (takeBytes need r.stream).2 := by
  induction fuel with
  | zero =>
    intro need acc r h
    have : need = 0 := by omega
    subst this
    exact ⟨r, by simp [fillLoop, takeBytes, resOf, St.pure_run], rfl⟩
  | succ fuel ih =>
    intro need acc r h
    by_cases h0 : need = 0
    · subst h0
      exact ⟨r, by simp [fillLoop, takeBytes, resOf, St.pure_run], rfl⟩
    · rw [fillLoop, if_neg h0]
      obtain ⟨n, rfl⟩ : ∃ n, need = n + 1 := ⟨need - 1, by omega⟩
      obtain ⟨es⟩ := r
      match es with
      | [] =>
        refine ⟨⟨[]⟩, ?_, ?_⟩
        · rw [St.bind_of_ok (x := read (n + 1)) (a := []) (s' := ⟨[]⟩) rfl]; rfl
        · rfl
      | .fail i :: es =>
        refine ⟨⟨es⟩, ?_, rfl⟩
        rw [St.bind_of_err (x := read (n + 1)) (k := .IoFailure) (s' := ⟨es⟩) rfl]; rfl
      | .data [] :: es =>
        refine ⟨⟨es⟩, ?_, rfl⟩
        rw [St.bind_of_ok (x := read (n + 1)) (a := []) (s' := ⟨es⟩) rfl]; rfl
      | .data (x :: b) :: es =>
        have hr : (read (n + 1)).run ⟨.data (x :: b) :: es⟩ = (.ok ((x :: b).take (n + 1)),
          ⟨if (x :: b).length ≤ n + 1 then es else .data ((x :: b).drop (n + 1)) :: es⟩) := rfl
        rw [St.bind_of_ok hr]
        have hl : ((x :: b).take (n + 1)).length ≠ 0 := by simp
        simp only [if_neg hl]
        by_cases hle : (x :: b).length ≤ n + 1
        · rw [if_pos hle, List.take_of_length_le hle]
          obtain ⟨r', h1, h2⟩ := ih (n + 1 - (x :: b).length) (acc ++ (x :: b)) ⟨es⟩ (by simp; omega)
          refine ⟨r', ?_, ?_⟩
          · rw [h1, stream_data _ (by simp)]
            have := Spec.takeBytes_append (x :: b) (n + 1 - (x :: b).length) (stream ⟨es⟩)
            rw [show (x :: b).length + (n + 1 - (x :: b).length) = n + 1 by omega] at this
            rw [this]
            rcases takeBytes (n + 1 - (x :: b).length) (stream ⟨es⟩) with ⟨_ | _, _⟩ <;> simp [resOf]
          · rw [h2, stream_data _ (by simp)]
            have := Spec.takeBytes_append (x :: b) (n + 1 - (x :: b).length) (stream ⟨es⟩)
            rw [show (x :: b).length + (n + 1 - (x :: b).length) = n + 1 by omega] at this
            rw [this]
            rcases takeBytes (n + 1 - (x :: b).length) (stream ⟨es⟩) with ⟨_ | _, _⟩ <;> rfl
        · rw [if_neg hle]
          have ht : ((x :: b).take (n + 1)).length = n + 1 := by rw [List.length_take]; omega
          rw [ht, Nat.sub_self]
          have hs : stream ⟨.data (x :: b) :: es⟩ = ofBytes ((x :: b).take (n + 1)) ++ stream ⟨.data ((x :: b).drop (n + 1)) :: es⟩ := by
            rw [stream_data _ (by simp), stream_data _ (by
              intro h
              have := congrArg List.length h
              rw [List.length_drop] at this
              simp at this
              simp at hle
              omega), ← List.append_assoc]
            simp only [ofBytes]
            rw [← List.map_append, List.take_append_drop]
          refine ⟨⟨.data ((x :: b).drop (n + 1)) :: es⟩, ?_, ?_⟩
          · rw [hs]
            have h3 := Spec.takeBytes_ofBytes ((x :: b).take (n + 1)) (stream ⟨.data ((x :: b).drop (n + 1)) :: es⟩)
            rw [ht] at h3
            rw [h3]
            unfold fillLoop
            simp [resOf, St.pure_run]
          · rw [hs]
            have h3 := Spec.takeBytes_ofBytes ((x :: b).take (n + 1)) (stream ⟨.data ((x :: b).drop (n + 1)) :: es⟩)
            rw [ht] at h3
            rw [h3]

/-- `readExact n` takes `n` bytes from the flat stream, whatever the chunking. -/
theorem readExact_spec (n : Nat) (r : Reader) :
    ∃ r', (readExact n).run r = (resOf [] (takeBytes n r.stream), r') ∧ r'.stream = (takeBytes n r.stream).2 :=
  fillLoop_spec n n [] r (Nat.le_refl n)

theorem readExact_ok {n : Nat} {r : Reader} {b : Bytes} {l : List Sym} (hn : b.length = n) (h : r.stream = ofBytes b ++ l) :
    ∃ r', (readExact n).run r = (.ok b, r') ∧ r'.stream = l := by
  obtain ⟨r', h1, h2⟩ := readExact_spec n r
  subst hn
  rw [h, Spec.takeBytes_ofBytes] at h1 h2
  exact ⟨r', h1, h2⟩

/-- Inversion: a successful `readExact` took the front of the stream. -/
theorem readExact_inv {n : Nat} {r r' : Reader} {b : Bytes} (h : (readExact n).run r = (.ok b, r')) :
    b.length = n ∧ r.stream = ofBytes b ++ r'.stream := by
  obtain ⟨r2, h1, h2⟩ := readExact_spec n r
  rw [h] at h1
  rcases e : takeBytes n r.stream with ⟨_ | bs, l⟩
  · rw [e] at h1; simp [resOf] at h1
  · rw [e] at h1 h2
    simp [resOf] at h1
    obtain ⟨rfl, rfl⟩ := h1
    exact ⟨Spec.takeBytes_length e, by rw [h2]; exact Spec.takeBytes_some e⟩

/-- `readExact` returns bytes or an I/O failure, nothing else. -/
theorem readExact_total (n : Nat) (r : Reader) : (∃ b r', (readExact n).run r = (.ok b, r')) ∨ ∃ r', (readExact n).run r = (.err .IoFailure, r') := by
  obtain ⟨r', h1, _⟩ := readExact_spec n r
  rcases e : takeBytes n r.stream with ⟨_ | bs, l⟩
  · rw [e] at h1; exact Or.inr ⟨r', h1⟩
  · rw [e] at h1; exact Or.inl ⟨_, r', h1⟩

end Reader

end Husk
