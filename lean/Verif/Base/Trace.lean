import Verif.Base.Res
/-! Executions with what can be observed of them from outside through timing and caches: the outcomes of branches, the positions of array accesses and the lengths of
buffers. (The usual model of constant-time programming; single machine operations, multiplications included, are taken to have a fixed cost.) -/

namespace Husk

/-- One observation. -/
inductive Obs
  /-- A conditional, a loop test or an assertion, with its outcome. -/
  | branch (taken : Bool)
  /-- An array access at a position that is not a literal in the source. -/
  | index (i : Nat)
  /-- A buffer of this length is made, copied or appended. -/
  | size (n : Nat)
  deriving DecidableEq, Repr

/-- A computation with its observations. -/
structure Tr (α : Type) where
  trace : List Obs
  res : Res α

namespace Tr

protected def bind (x : Tr α) (f : α → Tr β) : Tr β :=
  match x.res with
  | .ok a => ⟨x.trace ++ (f a).trace, (f a).res⟩
  | .err k => ⟨x.trace, .err k⟩
  | .panic => ⟨x.trace, .panic⟩
  | .diverge => ⟨x.trace, .diverge⟩

instance : Monad Tr where
  pure a := ⟨[], .ok a⟩
  bind := Tr.bind

/-- Make an observation. -/
def see (o : Obs) : Tr Unit := ⟨[o], .ok ()⟩

/-- Straight-line code without positions that depend on anything: no observation. (The overflow checks of debug builds panic or are passed; they are not recorded.) -/
def lift (r : Res α) : Tr α := ⟨[], r⟩

/-- A conditional. -/
def test (b : Bool) : Tr Bool := do
  see (.branch b)
  return b

/-- `for i in xs`: a test before every round and one that ends the loop. -/
def forEach (f : ι → σ → Tr σ) : List ι → σ → Tr σ
  | [], s => do
    see (.branch false)
    return s
  | i :: is, s => do
    see (.branch true)
    let s ← f i s
    forEach f is s

@[simp] theorem pure_res (a : α) : (pure a : Tr α).res = .ok a := rfl
@[simp] theorem pure_trace (a : α) : (pure a : Tr α).trace = [] := rfl
@[simp] theorem see_res (o : Obs) : (see o).res = .ok () := rfl
@[simp] theorem lift_res (r : Res α) : (lift r).res = r := rfl
@[simp] theorem bind_res (x : Tr α) (f : α → Tr β) : (x >>= f).res = x.res >>= fun a => (f a).res := by
  show (Tr.bind x f).res = _
  unfold Tr.bind
  cases x.res <;> rfl
@[simp] theorem test_res (b : Bool) : (test b).res = .ok b := rfl
@[simp] theorem ite_res (p : Prop) [Decidable p] (x y : Tr α) : (if p then x else y).res = if p then x.res else y.res := by split <;> rfl

theorem forEach_res {f : ι → σ → Tr σ} {g : σ → ι → σ} (h : ∀ i s, (f i s).res = .ok (g s i)) (is : List ι) (s : σ) : (forEach f is s).res = .ok (is.foldl g s) := by
  induction is generalizing s with
  | nil => rfl
  | cons i is ih => simp only [forEach, bind_res, see_res, Res.bind_ok, h, ih, List.foldl_cons]

/-- Two executions that cannot be told apart if both succeed; the results are then related. -/
def Same (R : α → β → Prop) (x : Tr α) (y : Tr β) : Prop := ∀ a b, x.res = .ok a → y.res = .ok b → x.trace = y.trace ∧ R a b

namespace Same

/-- No condition on the results. -/
abbrev Any {α β : Type} : α → β → Prop := fun _ _ => True

theorem pure {R : α → β → Prop} {a : α} {b : β} (h : R a b) : Same R (Pure.pure a) (Pure.pure b) := by
  intro x y hx hy
  cases hx; cases hy
  exact ⟨rfl, h⟩

theorem see (o : Obs) : Same Any (Tr.see o) (Tr.see o) := fun _ _ _ _ => ⟨rfl, trivial⟩

theorem see_eq {o o' : Obs} (h : o = o') : Same Any (Tr.see o) (Tr.see o') := h ▸ see o

theorem lift (x : Res α) (y : Res β) : Same Any (Tr.lift x) (Tr.lift y) := fun _ _ _ _ => ⟨rfl, trivial⟩

theorem lift_of {R : α → β → Prop} {x : Res α} {y : Res β} (h : ∀ a b, x = .ok a → y = .ok b → R a b) : Same R (Tr.lift x) (Tr.lift y) := fun a b hx hy => ⟨rfl, h a b hx hy⟩

theorem test {b b' : Bool} (h : b = b') : Same (· = ·) (Tr.test b) (Tr.test b') := by
  subst h
  intro x y hx hy
  rw [test_res] at hx hy
  exact ⟨rfl, (Res.ok.inj hx).symm.trans (Res.ok.inj hy)⟩

theorem bind {R : α → β → Prop} {S : γ → δ → Prop} {x : Tr α} {y : Tr β} {f : α → Tr γ} {g : β → Tr δ} (h : Same R x y) (hf : ∀ a b, R a b → Same S (f a) (g b)) :
    Same S (x >>= f) (y >>= g) := by
  intro c d hc hd
  rw [bind_res] at hc hd
  obtain ⟨a, ha, hc⟩ := Res.bind_eq_ok.mp hc
  obtain ⟨b, hb, hd⟩ := Res.bind_eq_ok.mp hd
  obtain ⟨e1, e2⟩ := h a b ha hb
  obtain ⟨e3, e4⟩ := hf a b e2 c d hc hd
  refine ⟨?_, e4⟩
  show (Tr.bind x f).trace = (Tr.bind y g).trace
  unfold Tr.bind
  rw [ha, hb]
  show x.trace ++ (f a).trace = y.trace ++ (g b).trace
  rw [e1, e3]

theorem mono {R S : α → β → Prop} {x : Tr α} {y : Tr β} (h : Same R x y) (hr : ∀ a b, R a b → S a b) : Same S x y :=
  fun a b ha hb => ⟨(h a b ha hb).1, hr a b (h a b ha hb).2⟩

/-- A fact about the results alone. -/
theorem and {R S : α → β → Prop} {x : Tr α} {y : Tr β} (h : Same R x y) (hr : ∀ a b, x.res = .ok a → y.res = .ok b → S a b) : Same (fun a b => R a b ∧ S a b) x y :=
  fun a b ha hb => ⟨(h a b ha hb).1, (h a b ha hb).2, hr a b ha hb⟩

theorem forEach {R : σ → τ → Prop} {f : ι → σ → Tr σ} {g : ι → τ → Tr τ} (h : ∀ i s t, R s t → Same R (f i s) (g i t)) (is : List ι) {s : σ} {t : τ} (hR : R s t) :
    Same R (Tr.forEach f is s) (Tr.forEach g is t) := by
  induction is generalizing s t with
  | nil => exact bind (see _) fun _ _ _ => pure hR
  | cons i is ih => exact bind (see _) fun _ _ _ => bind (h i s t hR) fun _ _ hR => ih hR

end Same

end Tr

end Husk
