import Verif.Model.TlsItem
/-! Laws of `TlsItem` implementations, proved once per macro. -/

namespace Husk

open Item

/-- Which values the constructors of a type can produce. -/
class WFItem (α : Type) where
  wf : α → Prop

export WFItem (wf)

/-- The laws of an item that can be followed by other data. -/
class LawfulItem (α : Type) [TlsItem α] [WFItem α] : Prop where
  size_write : ∀ (x : α) (b : Bytes), wf x → TlsItem.write x = .ok b → b.length = TlsItem.size x
  read_write : ∀ (x : α) (b rest : Bytes), wf x → TlsItem.write x = .ok b → (TlsItem.read (α := α)).run (b ++ rest) = (.ok x, rest)
  write_read : ∀ (bs rest : Bytes) (x : α), (TlsItem.read (α := α)).run bs = (.ok x, rest) →
    wf x ∧ ∃ b, bs = b ++ rest ∧ b.length = TlsItem.size x ∧ ∀ b', TlsItem.write x = .ok b' → b' = b
  read_returns : ∀ bs : Bytes, ((TlsItem.read (α := α)).run bs).1.Returns
  write_returns : ∀ x : α, (TlsItem.write x).Returns

/-- Values after which the reader may drop bytes without looking at them. -/
class LooseItem (α : Type) where
  loose : α → Prop

export LooseItem (loose)

/-- The laws of an item that reads to the end. `junk` is what the reader dropped without looking at it. -/
class LawfulTail (α : Type) [TlsItem α] [WFItem α] [LooseItem α] : Prop where
  size_write : ∀ (x : α) (b : Bytes), wf x → TlsItem.write x = .ok b → b.length = TlsItem.size x
  read_write : ∀ (x : α) (b : Bytes), wf x → TlsItem.write x = .ok b → (TlsItem.read (α := α)).run b = (.ok x, [])
  write_read : ∀ (bs rest : Bytes) (x : α), (TlsItem.read (α := α)).run bs = (.ok x, rest) → rest = [] ∧
    wf x ∧ ∃ b junk, bs = b ++ junk ∧ b.length = TlsItem.size x ∧ (∀ b', TlsItem.write x = .ok b' → b' = b) ∧ (¬ loose x → junk = [])
  read_returns : ∀ bs : Bytes, ((TlsItem.read (α := α)).run bs).1.Returns
  write_returns : ∀ x : α, (TlsItem.write x).Returns

/-- Items that are at least one byte long. -/
class PosItem (α : Type) [TlsItem α] : Prop where
  size_pos : ∀ x : α, 1 ≤ TlsItem.size x

namespace St

theorem returns_bind {x : St σ α} {f : α → St σ β} {s : σ} (hx : (x.run s).1.Returns) (hf : ∀ a s', x.run s = (.ok a, s') → ((f a).run s').1.Returns) :
    ((x >>= f).run s).1.Returns := by
  rw [bind_run]
  rcases h : x.run s with ⟨r, s'⟩
  rw [h] at hx
  cases r with
  | ok a => exact hf a s' h
  | err k => trivial
  | panic => exact absurd hx (by simp [Res.Returns])
  | diverge => exact absurd hx (by simp [Res.Returns])

end St

theorem Res.returns_bind {x : Res α} {f : α → Res β} (hx : x.Returns) (hf : ∀ a, x = .ok a → (f a).Returns) : (x >>= f).Returns := by
  cases x with
  | ok a => exact hf a rfl
  | err k => trivial
  | panic => exact absurd hx (by simp [Res.Returns])
  | diverge => exact absurd hx (by simp [Res.Returns])

namespace Item

theorem readExact_append (b rest : Bytes) (n : Nat) (h : b.length = n) : (readExact n).run (b ++ rest) = (.ok b, rest) := by
  subst h
  simp [readExact]

theorem readExact_inv {n : Nat} {bs b rest : Bytes} (h : (readExact n).run bs = (.ok b, rest)) : b.length = n ∧ bs = b ++ rest := by
  simp only [readExact] at h
  split at h
  · simp at h
    obtain ⟨rfl, rfl⟩ := h
    simp; omega
  · simp at h

theorem readExact_returns (n : Nat) (bs : Bytes) : ((readExact n).run bs).1.Returns := by
  simp only [readExact]
  split <;> trivial

theorem readNum_append (k n : Nat) (rest : Bytes) (h : n < 256 ^ k) : (readNum k).run (writeNum k n ++ rest) = (.ok n, rest) := by
  unfold readNum
  rw [St.bind_of_ok (readExact_append (writeNum k n) rest k (by simp [writeNum])), St.pure_run, writeNum, beNat_beBytes, Nat.mod_eq_of_lt h]

theorem readNum_inv {k n : Nat} {bs rest : Bytes} (h : (readNum k).run bs = (.ok n, rest)) :
    n < 256 ^ k ∧ bs = writeNum k n ++ rest := by
  unfold readNum at h
  obtain ⟨b, s', h1, h2⟩ := St.bind_eq_ok h
  obtain ⟨h3, h4⟩ := readExact_inv h1
  rw [St.pure_run] at h2
  simp at h2
  obtain ⟨rfl, rfl⟩ := h2
  refine ⟨by rw [← h3]; exact beNat_lt b, ?_⟩
  rw [h4, writeNum, ← h3, beBytes_beNat]

theorem readNum_returns (k : Nat) (bs : Bytes) : ((readNum k).run bs).1.Returns := by
  unfold readNum
  exact St.returns_bind (readExact_returns k bs) (fun _ _ _ => trivial)

theorem writeNum_length (k n : Nat) : (writeNum k n).length = k := by simp [writeNum]

end Item

/-! ### primitives -/

instance : WFItem UInt8 := ⟨fun _ => True⟩

instance : PosItem UInt8 := ⟨fun _ => Nat.le_refl 1⟩

instance : LawfulItem UInt8 where
  size_write x b _ h := by
    simp only [TlsItem.write, Res.ok.injEq] at h
    simp [← h, writeNum_length, TlsItem.size]
  read_write x b rest _ h := by
    simp only [TlsItem.write, Res.ok.injEq] at h
    subst h
    simp only [TlsItem.read]
    rw [St.bind_of_ok (readNum_append 1 x.toNat rest (by have := x.toNat_lt; omega)), St.pure_run]
    simp
  write_read bs rest x h := by
    refine ⟨trivial, ?_⟩
    simp only [TlsItem.read] at h
    obtain ⟨n, s', h1, h2⟩ := St.bind_eq_ok h
    obtain ⟨h3, h4⟩ := readNum_inv h1
    rw [St.pure_run] at h2
    simp at h2
    obtain ⟨rfl, rfl⟩ := h2
    refine ⟨_, h4, by simp [writeNum_length, TlsItem.size], ?_⟩
    intro b' hb
    simp only [TlsItem.write, Res.ok.injEq] at hb
    rw [← hb]
    simp
    rw [Nat.mod_eq_of_lt (by simpa using h3)]
  read_returns bs := St.returns_bind (readNum_returns 1 bs) (fun _ _ _ => trivial)
  write_returns x := trivial

/-! ### enums -/

/-- The numbers of an enum fit the width and are pairwise different, and all variants are listed. -/
class LawfulEnum (α : Type) [TlsEnum α] : Prop where
  fits : ∀ a : α, TlsEnum.code a < 256 ^ TlsEnum.width α
  complete : ∀ a : α, TlsEnum.ofCode (TlsEnum.code a) = some a
  pos : 1 ≤ TlsEnum.width α

theorem TlsEnum.ofCode_some [TlsEnum α] {n : Nat} {a : α} (h : TlsEnum.ofCode n = some a) : TlsEnum.code a = n := by
  have := List.find?_some h
  simpa using this

instance [TlsEnum α] : WFItem α := ⟨fun _ => True⟩

instance [TlsEnum α] [LawfulEnum α] : PosItem α := ⟨fun _ => LawfulEnum.pos⟩

instance [TlsEnum α] [LawfulEnum α] : LawfulItem α where
  size_write x b _ h := by
    simp only [TlsItem.write, Res.ok.injEq] at h
    simp [← h, writeNum_length, TlsItem.size]
  read_write x b rest _ h := by
    simp only [TlsItem.write, Res.ok.injEq] at h
    subst h
    simp only [TlsItem.read]
    rw [St.bind_of_ok (readNum_append _ _ rest (LawfulEnum.fits x)), LawfulEnum.complete]
    rfl
  write_read bs rest x h := by
    refine ⟨trivial, ?_⟩
    simp only [TlsItem.read] at h
    obtain ⟨n, s', h1, h2⟩ := St.bind_eq_ok h
    obtain ⟨h3, h4⟩ := readNum_inv h1
    cases e : TlsEnum.ofCode (α := α) n with
    | none => rw [e] at h2; simp [St.err_run] at h2
    | some a =>
      rw [e, St.pure_run] at h2
      simp at h2
      obtain ⟨rfl, rfl⟩ := h2
      refine ⟨_, h4, by simp [writeNum_length, TlsItem.size], ?_⟩
      intro b' hb
      simp only [TlsItem.write, Res.ok.injEq] at hb
      rw [← hb, TlsEnum.ofCode_some e]
  read_returns bs := St.returns_bind (readNum_returns _ bs) (fun n s' _ => by
    cases TlsEnum.ofCode (α := α) n <;> trivial)
  write_returns x := trivial

/-! ### arrays -/

instance : WFItem (TlsArray n) := ⟨fun a => a.data.length = n⟩

instance : LawfulItem (TlsArray n) where
  size_write x b hw h := by
    simp only [TlsItem.write, Res.ok.injEq] at h
    rw [← h]; exact hw
  read_write x b rest hw h := by
    simp only [TlsItem.write, Res.ok.injEq] at h
    subst h
    simp only [TlsItem.read]
    rw [St.bind_of_ok (readExact_append x.data rest n hw)]
    rfl
  write_read bs rest x h := by
    simp only [TlsItem.read] at h
    obtain ⟨b, s', h1, h2⟩ := St.bind_eq_ok h
    obtain ⟨h3, h4⟩ := readExact_inv h1
    rw [St.pure_run] at h2
    simp at h2
    obtain ⟨rfl, rfl⟩ := h2
    refine ⟨h3, b, h4, h3, ?_⟩
    intro b' hb
    simp only [TlsItem.write, Res.ok.injEq] at hb
    exact hb.symm
  read_returns bs := St.returns_bind (readExact_returns n bs) (fun _ _ _ => trivial)
  write_returns x := trivial

/-! ### vectors -/

instance {min max : Nat} [TlsItem α] [WFItem α] : WFItem (TlsVec α min max) :=
  ⟨fun v => (∀ x ∈ v.items, wf x) ∧ min ≤ TlsVec.sizes v.items ∧ TlsVec.sizes v.items ≤ max⟩

namespace TlsVec

variable {α : Type} [TlsItem α] [WFItem α] [LawfulItem α] [PosItem α]

omit [WFItem α] [LawfulItem α] [PosItem α] in
theorem sizes_append (a b : List α) : sizes (a ++ b) = sizes a + sizes b := by
  induction a with
  | nil => simp [sizes]
  | cons x a ih => simp [sizes, ih, Nat.add_assoc]

omit [WFItem α] [LawfulItem α] [PosItem α] in
theorem new_ok_iff {min max : Nat} {v : List α} {x : TlsVec α min max} :
    new min max v = .ok x ↔ x = ⟨v⟩ ∧ min ≤ sizes v ∧ sizes v ≤ max := by
  unfold new
  simp only
  constructor
  · intro h
    split at h
    · simp at h
    · split at h
      · simp at h
      · simp at h
        exact ⟨h.symm, by omega, by omega⟩
  · rintro ⟨rfl, h1, h2⟩
    rw [if_neg (by omega), if_neg (by omega)]

theorem prefixLen_fits (max : Nat) (h : max < 2 ^ 64) : max < 256 ^ prefixLen max := by
  unfold prefixLen
  split
  · assumption
  · split
    · assumption
    · split
      · assumption
      · split
        · assumption
        · exact h

theorem prefixLen_pos (max : Nat) : 1 ≤ prefixLen max := by
  unfold prefixLen
  split
  · decide
  · split
    · decide
    · split
      · decide
      · split <;> decide

omit [PosItem α] in
theorem writeItems_length (xs : List α) (b : Bytes) (hw : ∀ x ∈ xs, wf x) (h : writeItems xs = .ok b) : b.length = sizes xs := by
  induction xs generalizing b with
  | nil => simp [writeItems] at h; simp [← h, sizes]
  | cons x xs ih =>
    simp only [writeItems] at h
    obtain ⟨b1, h1, h2⟩ := Res.bind_eq_ok.mp h
    obtain ⟨b2, h3, h4⟩ := Res.bind_eq_ok.mp h2
    simp at h4
    rw [← h4, List.length_append, ih b2 (fun y hy => hw y (by simp [hy])) h3, LawfulItem.size_write x b1 (hw x (by simp)) h1, sizes]

omit [WFItem α] [LawfulItem α] [PosItem α] in
theorem writeItems_returns (hr : ∀ x : α, (TlsItem.write x).Returns) (xs : List α) : (writeItems xs).Returns := by
  induction xs with
  | nil => trivial
  | cons x xs ih =>
    exact Res.returns_bind (hr x) (fun b _ => Res.returns_bind ih (fun _ _ => trivial))

theorem readItems_write (selfSize : Nat) (xs : List α) (b rest : Bytes) (hw : ∀ x ∈ xs, wf x) (h : writeItems xs = .ok b) :
    ∀ (fuel itemsSize : Nat) (acc : List α), itemsSize + sizes xs = selfSize → sizes xs ≤ fuel →
      (readItems selfSize fuel itemsSize acc).run (b ++ rest) = (.ok (acc ++ xs), rest) := by
  induction xs generalizing b with
  | nil =>
    intro fuel itemsSize acc h1 _
    simp [writeItems] at h
    subst h
    simp [sizes] at h1
    unfold readItems
    rw [if_neg (by omega), if_neg (by omega)]
    simp [St.pure_run]
  | cons x xs ih =>
    intro fuel itemsSize acc h1 h2
    simp only [writeItems] at h
    obtain ⟨b1, g1, g2⟩ := Res.bind_eq_ok.mp h
    obtain ⟨b2, g3, g4⟩ := Res.bind_eq_ok.mp g2
    simp at g4
    subst g4
    have hp := PosItem.size_pos x
    simp only [sizes] at h1 h2
    obtain ⟨f, rfl⟩ : ∃ f, fuel = f + 1 := ⟨fuel - 1, by omega⟩
    rw [readItems, if_pos (by omega)]
    rw [List.append_assoc, St.bind_of_ok (LawfulItem.read_write x b1 (b2 ++ rest) (hw x (by simp)) g1)]
    rw [ih b2 (fun y hy => hw y (by simp [hy])) g3 f (itemsSize + TlsItem.size x) (acc ++ [x]) (by omega) (by omega)]
    simp

theorem readItems_inv (selfSize : Nat) : ∀ (fuel itemsSize : Nat) (acc ys : List α) (bs rest : Bytes),
    (readItems selfSize fuel itemsSize acc).run bs = (.ok ys, rest) →
    ∃ xs b, ys = acc ++ xs ∧ (∀ x ∈ xs, wf x) ∧ itemsSize + sizes xs = selfSize ∧ bs = b ++ rest ∧ b.length = sizes xs ∧
      ∀ b', writeItems xs = .ok b' → b' = b := by
  intro fuel
  induction fuel with
  | zero =>
    intro itemsSize acc ys bs rest h
    unfold readItems at h
    split at h
    · simp [St.lift_run] at h
    · split at h
      · simp [St.err_run] at h
      · rw [St.pure_run] at h
        simp at h
        obtain ⟨rfl, rfl⟩ := h
        refine ⟨[], [], by simp, by simp, by simp [sizes]; omega, rfl, rfl, ?_⟩
        intro b' h; simpa [writeItems] using h
  | succ fuel ih =>
    intro itemsSize acc ys bs rest h
    unfold readItems at h
    split at h
    · obtain ⟨x, s', h1, h2⟩ := St.bind_eq_ok h
      obtain ⟨hwf, b1, e1, e2, e3⟩ := LawfulItem.write_read bs s' x h1
      obtain ⟨xs, b2, f1, f2, f3, f4, f5, f6⟩ := ih _ _ _ _ _ h2
      refine ⟨x :: xs, b1 ++ b2, by simp [f1], ?_, by simp only [sizes]; omega, by rw [e1, f4, List.append_assoc], ?_, ?_⟩
      · intro y hy
        rcases List.mem_cons.mp hy with rfl | hy
        · exact hwf
        · exact f2 y hy
      · rw [List.length_append, e2, f5, sizes]
      · intro b' hb
        simp only [writeItems] at hb
        obtain ⟨c1, g1, g2⟩ := Res.bind_eq_ok.mp hb
        obtain ⟨c2, g3, g4⟩ := Res.bind_eq_ok.mp g2
        simp at g4
        rw [← g4, e3 c1 g1, f6 c2 g3]
    · split at h
      · simp [St.err_run] at h
      · rw [St.pure_run] at h
        simp at h
        obtain ⟨rfl, rfl⟩ := h
        refine ⟨[], [], by simp, by simp, by simp [sizes]; omega, rfl, rfl, ?_⟩
        intro b' h; simpa [writeItems] using h

theorem readItems_returns (selfSize : Nat) : ∀ (fuel itemsSize : Nat) (acc : List α) (bs : Bytes), selfSize ≤ itemsSize + fuel →
    ((readItems selfSize fuel itemsSize acc).run bs).1.Returns := by
  intro fuel
  induction fuel with
  | zero =>
    intro itemsSize acc bs h
    unfold readItems
    rw [if_neg (by omega)]
    split <;> trivial
  | succ fuel ih =>
    intro itemsSize acc bs h
    unfold readItems
    split
    · refine St.returns_bind (LawfulItem.read_returns bs) (fun x s' _ => ih _ _ _ ?_)
      have := PosItem.size_pos x
      omega
    · split <;> trivial

theorem lawful (min max : Nat) (hmax : max < 2 ^ 64) : LawfulItem (TlsVec α min max) where
  size_write v b hw h := by
    simp only [TlsItem.write] at h
    obtain ⟨b1, h1, h2⟩ := Res.bind_eq_ok.mp h
    simp at h2
    rw [← h2, List.length_append, writeNum_length, writeItems_length v.items b1 hw.1 h1]
    rfl
  read_write v b rest hw h := by
    simp only [TlsItem.write] at h
    obtain ⟨b1, h1, h2⟩ := Res.bind_eq_ok.mp h
    simp at h2
    subst h2
    obtain ⟨hw1, hw2, hw3⟩ := hw
    simp only [TlsItem.read]
    rw [List.append_assoc, St.bind_of_ok (readNum_append _ _ _ (Nat.lt_of_le_of_lt hw3 (prefixLen_fits max hmax)))]
    rw [St.bind_of_ok (readItems_write (sizes v.items) v.items b1 rest hw1 h1 _ 0 [] (by omega) (Nat.le_refl _))]
    rw [List.nil_append, St.lift_run]
    rw [new_ok_iff.mpr ⟨rfl, hw2, hw3⟩]
  write_read bs rest v h := by
    simp only [TlsItem.read] at h
    obtain ⟨n, s1, h1, h2⟩ := St.bind_eq_ok h
    obtain ⟨h3, h4⟩ := readNum_inv h1
    obtain ⟨ys, s2, h5, h6⟩ := St.bind_eq_ok h2
    rw [St.lift_run] at h6
    simp at h6
    obtain ⟨h6, rfl⟩ := h6
    obtain ⟨rfl, g1, g2⟩ := new_ok_iff.mp h6
    obtain ⟨xs, b, f1, f2, f3, f4, f5, f6⟩ := readItems_inv _ _ _ _ _ _ _ h5
    simp at f1
    subst f1
    rw [Nat.zero_add] at f3
    refine ⟨⟨f2, g1, g2⟩, writeNum (prefixLen max) n ++ b, by rw [h4, f4, List.append_assoc], ?_, ?_⟩
    · rw [List.length_append, writeNum_length, f5]
      rfl
    · intro b' hb
      simp only [TlsItem.write] at hb
      obtain ⟨b1, g3, g4⟩ := Res.bind_eq_ok.mp hb
      simp at g4
      rw [← g4, f6 b1 g3, f3]
  read_returns bs := by
    refine St.returns_bind (readNum_returns _ bs) (fun n s1 _ => St.returns_bind (readItems_returns n n 0 [] s1 (by omega)) (fun ys s2 _ => ?_))
    rw [St.lift_run]
    unfold new
    simp only
    split
    · trivial
    · split <;> trivial
  write_returns v := Res.returns_bind (writeItems_returns LawfulItem.write_returns v.items) (fun _ _ => trivial)

instance posItem {min max : Nat} : PosItem (TlsVec α min max) := ⟨fun v => by
  have := prefixLen_pos max
  show 1 ≤ prefixLen max + sizes v.items
  omega⟩

end TlsVec

/-! ### pairs and structs -/

/-- A struct with two fields; structs with more fields are nested pairs. -/
instance pairItem [TlsItem α] [TlsItem β] : TlsItem (α × β) where
  write x := do
    let b1 ← TlsItem.write x.1
    let b2 ← TlsItem.write x.2
    return b1 ++ b2
  read := do
    let a ← TlsItem.read
    let b ← TlsItem.read
    return (a, b)
  size x := TlsItem.size x.1 + TlsItem.size x.2

instance [WFItem α] [WFItem β] : WFItem (α × β) := ⟨fun x => wf x.1 ∧ wf x.2⟩

instance [LooseItem β] : LooseItem (α × β) := ⟨fun x => loose x.2⟩

section
variable {α β : Type} [TlsItem α] [WFItem α] [LawfulItem α] [TlsItem β] [WFItem β]

instance [LawfulItem β] : LawfulItem (α × β) where
  size_write x b hw h := by
    simp only [TlsItem.write] at h
    obtain ⟨b1, h1, h2⟩ := Res.bind_eq_ok.mp h
    obtain ⟨b2, h3, h4⟩ := Res.bind_eq_ok.mp h2
    simp at h4
    rw [← h4, List.length_append, LawfulItem.size_write _ _ hw.1 h1, LawfulItem.size_write _ _ hw.2 h3]
    rfl
  read_write x b rest hw h := by
    simp only [TlsItem.write] at h
    obtain ⟨b1, h1, h2⟩ := Res.bind_eq_ok.mp h
    obtain ⟨b2, h3, h4⟩ := Res.bind_eq_ok.mp h2
    simp at h4
    subst h4
    simp only [TlsItem.read]
    rw [List.append_assoc, St.bind_of_ok (LawfulItem.read_write _ b1 (b2 ++ rest) hw.1 h1),
      St.bind_of_ok (LawfulItem.read_write _ b2 rest hw.2 h3), St.pure_run]
  write_read bs rest x h := by
    simp only [TlsItem.read] at h
    obtain ⟨a, s1, h1, h2⟩ := St.bind_eq_ok h
    obtain ⟨b, s2, h3, h4⟩ := St.bind_eq_ok h2
    rw [St.pure_run] at h4
    simp at h4
    obtain ⟨rfl, rfl⟩ := h4
    obtain ⟨w1, c1, e1, e2, e3⟩ := LawfulItem.write_read _ _ _ h1
    obtain ⟨w2, c2, f1, f2, f3⟩ := LawfulItem.write_read _ _ _ h3
    refine ⟨⟨w1, w2⟩, c1 ++ c2, by rw [e1, f1, List.append_assoc], by rw [List.length_append, e2, f2]; rfl, ?_⟩
    intro b' hb
    simp only [TlsItem.write] at hb
    obtain ⟨b1, g1, g2⟩ := Res.bind_eq_ok.mp hb
    obtain ⟨b2, g3, g4⟩ := Res.bind_eq_ok.mp g2
    simp at g4
    rw [← g4, e3 b1 g1, f3 b2 g3]
  read_returns bs := St.returns_bind (LawfulItem.read_returns bs) (fun _ s' _ =>
    St.returns_bind (LawfulItem.read_returns s') (fun _ _ _ => trivial))
  write_returns x := Res.returns_bind (LawfulItem.write_returns x.1) (fun _ _ =>
    Res.returns_bind (LawfulItem.write_returns x.2) (fun _ _ => trivial))

instance [LooseItem β] [LawfulTail β] : LawfulTail (α × β) where
  size_write x b hw h := by
    simp only [TlsItem.write] at h
    obtain ⟨b1, h1, h2⟩ := Res.bind_eq_ok.mp h
    obtain ⟨b2, h3, h4⟩ := Res.bind_eq_ok.mp h2
    simp at h4
    rw [← h4, List.length_append, LawfulItem.size_write _ _ hw.1 h1, LawfulTail.size_write _ _ hw.2 h3]
    rfl
  read_write x b hw h := by
    simp only [TlsItem.write] at h
    obtain ⟨b1, h1, h2⟩ := Res.bind_eq_ok.mp h
    obtain ⟨b2, h3, h4⟩ := Res.bind_eq_ok.mp h2
    simp at h4
    subst h4
    simp only [TlsItem.read]
    rw [St.bind_of_ok (LawfulItem.read_write _ b1 b2 hw.1 h1),
      St.bind_of_ok (LawfulTail.read_write _ b2 hw.2 h3), St.pure_run]
  write_read bs rest x h := by
    simp only [TlsItem.read] at h
    obtain ⟨a, s1, h1, h2⟩ := St.bind_eq_ok h
    obtain ⟨b, s2, h3, h4⟩ := St.bind_eq_ok h2
    rw [St.pure_run] at h4
    simp at h4
    obtain ⟨rfl, rfl⟩ := h4
    obtain ⟨w1, c1, e1, e2, e3⟩ := LawfulItem.write_read _ _ _ h1
    obtain ⟨r, w2, c2, junk, f1, f2, f3, f4⟩ := LawfulTail.write_read _ _ _ h3
    refine ⟨r, ⟨w1, w2⟩, c1 ++ c2, junk, by rw [e1, f1, List.append_assoc], by rw [List.length_append, e2, f2]; rfl, ?_, f4⟩
    intro b' hb
    simp only [TlsItem.write] at hb
    obtain ⟨b1, g1, g2⟩ := Res.bind_eq_ok.mp hb
    obtain ⟨b2, g3, g4⟩ := Res.bind_eq_ok.mp g2
    simp at g4
    rw [← g4, e3 b1 g1, f3 b2 g3]
  read_returns bs := St.returns_bind (LawfulItem.read_returns bs) (fun _ s' _ =>
    St.returns_bind (LawfulTail.read_returns s') (fun _ _ _ => trivial))
  write_returns x := Res.returns_bind (LawfulItem.write_returns x.1) (fun _ _ =>
    Res.returns_bind (LawfulTail.write_returns x.2) (fun _ _ => trivial))

end

/-- How a struct is a nested pair. -/
structure Iso (α β : Type) [TlsItem α] [TlsItem β] where
  to : α → β
  inv : β → α
  to_inv : ∀ b, to (inv b) = b
  inv_to : ∀ a, inv (to a) = a
  write : ∀ a, TlsItem.write a = TlsItem.write (to a)
  size : ∀ a, TlsItem.size a = TlsItem.size (to a)
  read : ∀ bs, (TlsItem.read (α := α)).run bs = (do
    let b ← TlsItem.read (α := β)
    return inv b : P α).run bs

section
variable {α β : Type} [TlsItem α] [WFItem α] [TlsItem β] [WFItem β]

theorem Iso.lawful (i : Iso α β) (hwf : ∀ a, wf a ↔ wf (i.to a)) [LawfulItem β] : LawfulItem α where
  size_write x b hw h := by
    rw [i.write] at h
    rw [i.size]
    exact LawfulItem.size_write _ _ ((hwf x).mp hw) h
  read_write x b rest hw h := by
    rw [i.write] at h
    rw [i.read, St.bind_of_ok (LawfulItem.read_write _ b rest ((hwf x).mp hw) h), St.pure_run, i.inv_to]
  write_read bs rest x h := by
    rw [i.read] at h
    obtain ⟨y, s1, h1, h2⟩ := St.bind_eq_ok h
    rw [St.pure_run] at h2
    simp at h2
    obtain ⟨rfl, rfl⟩ := h2
    obtain ⟨w, b, e1, e2, e3⟩ := LawfulItem.write_read _ _ _ h1
    refine ⟨(hwf _).mpr (by rw [i.to_inv]; exact w), b, e1, by rw [i.size, i.to_inv]; exact e2, ?_⟩
    intro b' hb
    rw [i.write, i.to_inv] at hb
    exact e3 b' hb
  read_returns bs := by
    rw [i.read]
    exact St.returns_bind (LawfulItem.read_returns bs) (fun _ _ _ => trivial)
  write_returns x := by
    rw [i.write]
    exact LawfulItem.write_returns _

theorem Iso.lawfulTail [LooseItem α] [LooseItem β] (i : Iso α β) (hwf : ∀ a, wf a ↔ wf (i.to a)) (hl : ∀ a, loose (i.to a) → loose a) [LawfulTail β] : LawfulTail α where
  size_write x b hw h := by
    rw [i.write] at h
    rw [i.size]
    exact LawfulTail.size_write _ _ ((hwf x).mp hw) h
  read_write x b hw h := by
    rw [i.write] at h
    rw [i.read, St.bind_of_ok (LawfulTail.read_write _ b ((hwf x).mp hw) h), St.pure_run, i.inv_to]
  write_read bs rest x h := by
    rw [i.read] at h
    obtain ⟨y, s1, h1, h2⟩ := St.bind_eq_ok h
    rw [St.pure_run] at h2
    simp at h2
    obtain ⟨rfl, rfl⟩ := h2
    obtain ⟨r, w, b, junk, e1, e2, e3, e4⟩ := LawfulTail.write_read _ _ _ h1
    refine ⟨r, (hwf _).mpr (by rw [i.to_inv]; exact w), b, junk, e1, by rw [i.size, i.to_inv]; exact e2, ?_,
      fun h => e4 (fun hh => h (hl _ (by rw [i.to_inv]; exact hh)))⟩
    intro b' hb
    rw [i.write, i.to_inv] at hb
    exact e3 b' hb
  read_returns bs := by
    rw [i.read]
    exact St.returns_bind (LawfulTail.read_returns bs) (fun _ _ _ => trivial)
  write_returns x := by
    rw [i.write]
    exact LawfulTail.write_returns _

end

/-! ### `tls_option!`, `DummyItem`, `ObscureData` -/

instance [WFItem α] : WFItem (Option α) := ⟨fun
  | some x => wf x
  | none => True⟩

instance : LooseItem (Option α) := ⟨fun x => x ≠ none⟩

instance [TlsItem α] [WFItem α] [LawfulItem α] [PosItem α] : LawfulTail (Option α) where
  size_write x b hw h := by
    cases x with
    | none => simp [TlsItem.write] at h; simp [← h, TlsItem.size]
    | some x => exact LawfulItem.size_write x b hw h
  read_write x b hw h := by
    simp only [TlsItem.read]
    rw [St.bind_of_ok (x := readToEnd) (a := b) (s' := []) rfl]
    cases x with
    | none =>
      simp [TlsItem.write] at h
      subst h
      rfl
    | some x =>
      have hl := LawfulItem.size_write x b hw h
      have hp := PosItem.size_pos x
      rw [if_neg (by omega)]
      have := LawfulItem.read_write x b [] hw h
      rw [List.append_nil] at this
      rw [this]
      rfl
  write_read bs rest x h := by
    simp only [TlsItem.read] at h
    rw [St.bind_of_ok (x := readToEnd) (a := bs) (s' := []) rfl] at h
    split at h
    · rename_i h0
      rw [St.pure_run] at h
      simp at h
      obtain ⟨rfl, rfl⟩ := h
      refine ⟨rfl, trivial, [], bs, rfl, rfl, ?_, fun _ => List.length_eq_zero_iff.mp h0⟩
      intro b' hb
      simpa [TlsItem.write, eq_comm] using hb
    · rcases e : (TlsItem.read (α := α)).run bs with ⟨r, s⟩
      rw [e] at h
      obtain ⟨y, s1, h1, h2⟩ := St.bind_eq_ok h
      rw [St.lift_run] at h1
      rw [St.pure_run] at h2
      simp at h1 h2
      obtain ⟨rfl, rfl⟩ := h1
      obtain ⟨rfl, rfl⟩ := h2
      obtain ⟨w, b, e1, e2, e3⟩ := LawfulItem.write_read _ _ _ e
      exact ⟨rfl, w, b, s, e1, e2, e3, fun h => absurd (by simp [loose]) h⟩
  read_returns bs := by
    simp only [TlsItem.read]
    rw [St.bind_of_ok (x := readToEnd) (a := bs) (s' := []) rfl]
    split
    · trivial
    · refine St.returns_bind ?_ (fun _ _ _ => trivial)
      rw [St.lift_run]
      exact LawfulItem.read_returns bs
  write_returns x := by
    cases x with
    | none => trivial
    | some x => exact LawfulItem.write_returns x

instance : WFItem DummyItem := ⟨fun _ => True⟩

instance : LawfulItem DummyItem where
  size_write x b _ h := by simp [TlsItem.write] at h; simp [← h, TlsItem.size]
  read_write x b rest _ h := by simp [TlsItem.write] at h; subst h; rfl
  write_read bs rest x h := by
    simp only [TlsItem.read] at h
    rw [St.pure_run] at h
    simp at h
    obtain ⟨rfl⟩ := h
    refine ⟨trivial, [], rfl, rfl, ?_⟩
    intro b' hb; simpa [TlsItem.write, eq_comm] using hb
  read_returns bs := trivial
  write_returns x := trivial

instance : WFItem ObscureData := ⟨fun _ => True⟩

instance : LooseItem ObscureData := ⟨fun _ => False⟩

instance : LawfulTail ObscureData where
  size_write x b _ h := by simp [TlsItem.write] at h; simp [← h, TlsItem.size]
  read_write x b _ h := by simp [TlsItem.write] at h; subst h; rfl
  write_read bs rest x h := by
    simp only [TlsItem.read] at h
    rw [St.bind_of_ok (x := readToEnd) (a := bs) (s' := []) rfl, St.pure_run] at h
    simp at h
    obtain ⟨rfl, rfl⟩ := h
    refine ⟨rfl, trivial, bs, [], by simp, rfl, ?_, fun _ => rfl⟩
    intro b' hb; simpa [TlsItem.write, eq_comm] using hb
  read_returns bs := trivial
  write_returns x := trivial

end Husk
