import Verif.Base.StRes
import Verif.Base.Trace
/-! Calls on an object (`Verif/Base/StRes`) with what can be observed of them (`Verif/Base/Trace`). -/

namespace Husk

/-- A call on an object of type `σ`, with its observations. -/
structure TSt (σ : Type) (α : Type) where
  run : σ → List Obs × (Res α × σ)

namespace TSt

protected def bind (x : TSt σ α) (f : α → TSt σ β) : TSt σ β := ⟨fun s =>
  match x.run s with
  | (t, .ok a, s') => (t ++ ((f a).run s').1, ((f a).run s').2)
  | (t, .err k, s') => (t, .err k, s')
  | (t, .panic, s') => (t, .panic, s')
  | (t, .diverge, s') => (t, .diverge, s')⟩

instance : Monad (TSt σ) where
  pure a := ⟨fun s => ([], .ok a, s)⟩
  bind := TSt.bind

/-- Make an observation. -/
def see (o : Obs) : TSt σ Unit := ⟨fun s => ([o], .ok (), s)⟩

/-- A conditional. -/
def test (b : Bool) : TSt σ Bool := ⟨fun s => ([.branch b], .ok b, s)⟩

/-- A computation that does not touch the object. -/
def ofTr (x : Tr α) : TSt σ α := ⟨fun s => (x.trace, x.res, s)⟩

/-- A call without observations. -/
def quiet (x : St σ α) : TSt σ α := ⟨fun s => ([], x.run s)⟩

def get : TSt σ σ := quiet St.get

/-- A call on a field of the object. -/
def zoom (get : σ → τ) (put : τ → σ → σ) (x : TSt τ α) : TSt σ α := ⟨fun s =>
  match x.run (get s) with
  | (t, r, u) => (t, r, put u s)⟩

theorem bind_run (x : TSt σ α) (f : α → TSt σ β) (s : σ) : (x >>= f).run s =
    match x.run s with
    | (t, .ok a, s') => (t ++ ((f a).run s').1, ((f a).run s').2)
    | (t, .err k, s') => (t, .err k, s')
    | (t, .panic, s') => (t, .panic, s')
    | (t, .diverge, s') => (t, .diverge, s') := rfl

theorem bind_of_ok {x : TSt σ α} {f : α → TSt σ β} {s s' : σ} {t : List Obs} {a : α} (h : x.run s = (t, .ok a, s')) :
    (x >>= f).run s = (t ++ ((f a).run s').1, ((f a).run s').2) := by
  rw [bind_run, h]

/-! ### The same results as a call without observations -/

/-- On objects that satisfy `P`, the result and the object afterwards are those of the call `y`, and `P` holds afterwards. -/
def Agrees (P : σ → Prop) (x : TSt σ α) (y : St σ α) : Prop := ∀ s, P s → (x.run s).2 = y.run s ∧ P (y.run s).2

namespace Agrees

variable {P : σ → Prop}

theorem pure (a : α) : Agrees P (Pure.pure a) (Pure.pure a) := fun _ h => ⟨rfl, h⟩
theorem quiet {x : St σ α} (h : ∀ s, P s → P (x.run s).2) : Agrees P (TSt.quiet x) x := fun s hs => ⟨rfl, h s hs⟩
theorem get : Agrees P TSt.get St.get := fun _ h => ⟨rfl, h⟩
theorem ofTr {x : Tr α} {y : Res α} (h : x.res = y) : Agrees P (TSt.ofTr x) (St.lift y) := fun s hs => ⟨by rw [← h]; rfl, hs⟩
theorem lift (y : Res α) : Agrees P (TSt.quiet (St.lift y)) (St.lift y) := fun _ h => ⟨rfl, h⟩

/-- An observation before. -/
theorem see {o : Obs} {f : Unit → TSt σ α} {y : St σ α} (h : Agrees P (f ()) y) : Agrees P (TSt.see o >>= f) y := fun s hs => h s hs

/-- A conditional before. -/
theorem test {b : Bool} {f : Bool → TSt σ α} {y : St σ α} (h : Agrees P (f b) y) : Agrees P (TSt.test b >>= f) y := fun s hs => h s hs

/-- A computation with a result before. -/
theorem tr {x : Tr β} {b : β} {f : β → TSt σ α} {y : St σ α} (hx : x.res = .ok b) (h : Agrees P (f b) y) : Agrees P (TSt.ofTr x >>= f) y := by
  intro s hs
  have e : (TSt.ofTr x : TSt σ β).run s = (x.trace, .ok b, s) := by rw [← hx]; rfl
  rw [bind_of_ok e]
  exact h s hs

theorem bind {x : TSt σ α} {y : St σ α} {f : α → TSt σ β} {g : α → St σ β} (h : Agrees P x y) (hf : ∀ a, Agrees P (f a) (g a)) : Agrees P (x >>= f) (y >>= g) := by
  intro s hs
  obtain ⟨e, hp⟩ := h s hs
  rw [bind_run, St.bind_run]
  rcases hx : x.run s with ⟨t, r⟩
  rw [hx] at e
  have e' : r = y.run s := e
  rw [← e'] at hp ⊢
  rcases r with ⟨r, s'⟩
  cases r with
  | ok a => exact hf a s' hp
  | err k => exact ⟨rfl, hp⟩
  | panic => exact ⟨rfl, hp⟩
  | diverge => exact ⟨rfl, hp⟩

theorem zoom {get : σ → τ} {put : τ → σ → σ} {Q : τ → Prop} {x : TSt τ α} {y : St τ α} (h : Agrees Q x y) (hq : ∀ s, P s → Q (get s)) (hp : ∀ s t, P s → Q t → P (put t s)) :
    Agrees P (TSt.zoom get put x) (St.zoom get put y) := by
  intro s hs
  obtain ⟨e, h2⟩ := h (get s) (hq s hs)
  refine ⟨?_, hp s _ hs h2⟩
  show ((x.run (get s)).2.1, put (x.run (get s)).2.2 s) = ((y.run (get s)).1, put (y.run (get s)).2 s)
  rw [e]

end Agrees

/-! ### Two executions that cannot be told apart -/

/-- The same kind of outcome, with related values. -/
def SameOutcome (R : α → β → Prop) : Res α → Res β → Prop
  | .ok a, .ok b => R a b
  | .err k, .err k' => k = k'
  | .panic, .panic => True
  | .diverge, .diverge => True
  | _, _ => False

/-- On objects related by `P`: the same observations, the same kind of outcome with values related by `R`, and the objects are related again. -/
def Alike (P : σ → τ → Prop) (R : α → β → Prop) (x : TSt σ α) (y : TSt τ β) : Prop := ∀ s t, P s t →
  (x.run s).1 = (y.run t).1 ∧ SameOutcome R (x.run s).2.1 (y.run t).2.1 ∧ P (x.run s).2.2 (y.run t).2.2

namespace Alike

variable {P : σ → τ → Prop}

theorem pure {R : α → β → Prop} {a : α} {b : β} (h : R a b) : Alike P R (Pure.pure a) (Pure.pure b) := fun _ _ hp => ⟨rfl, h, hp⟩
theorem see {o o' : Obs} (h : o = o') : Alike P (fun _ _ => True) (TSt.see o) (TSt.see o') := fun _ _ hp => ⟨by subst h; rfl, trivial, hp⟩
theorem test {b b' : Bool} (h : b = b') : Alike P (· = ·) (TSt.test b) (TSt.test b') := fun _ _ hp => ⟨by subst h; rfl, h, hp⟩
theorem ofTr {R : α → β → Prop} {x : Tr α} {y : Tr β} (h : x.trace = y.trace) (hr : SameOutcome R x.res y.res) : Alike P R (TSt.ofTr x) (TSt.ofTr y) :=
  fun _ _ hp => ⟨h, hr, hp⟩
theorem lift {R : α → β → Prop} {x : Res α} {y : Res β} (hr : SameOutcome R x y) : Alike P R (TSt.quiet (St.lift x)) (TSt.quiet (St.lift y)) :=
  fun _ _ hp => ⟨rfl, hr, hp⟩

theorem bind {R : α → β → Prop} {S : γ → δ → Prop} {x : TSt σ α} {y : TSt τ β} {f : α → TSt σ γ} {g : β → TSt τ δ} (h : Alike P R x y)
    (hf : ∀ a b, R a b → Alike P S (f a) (g b)) : Alike P S (x >>= f) (y >>= g) := by
  intro s t hp
  obtain ⟨h1, h2, h3⟩ := h s t hp
  rw [bind_run, bind_run]
  rcases hx : x.run s with ⟨u, r, s'⟩
  rcases hy : y.run t with ⟨u', r', t'⟩
  rw [hx, hy] at h1 h2 h3
  have h1 : u = u' := h1
  subst h1
  cases r <;> cases r' <;> first | exact absurd h2 id | skip
  · rename_i a b
    obtain ⟨g1, g2, g3⟩ := hf a b h2 s' t' h3
    exact ⟨congrArg (u ++ ·) g1, g2, g3⟩
  · exact ⟨rfl, h2, h3⟩
  · exact ⟨rfl, trivial, h3⟩
  · exact ⟨rfl, trivial, h3⟩

theorem mono {R S : α → β → Prop} {x : TSt σ α} {y : TSt τ β} (h : Alike P R x y) (hr : ∀ a b, R a b → S a b) : Alike P S x y := by
  intro s t hp
  obtain ⟨h1, h2, h3⟩ := h s t hp
  refine ⟨h1, ?_, h3⟩
  revert h2
  cases (x.run s).2.1 <;> cases (y.run t).2.1 <;> first | exact hr _ _ | exact id

theorem zoom {get : σ → σ'} {put : σ' → σ → σ} {get' : τ → τ'} {put' : τ' → τ → τ} {Q : σ' → τ' → Prop} {R : α → β → Prop} {x : TSt σ' α} {y : TSt τ' β} (h : Alike Q R x y)
    (hq : ∀ s t, P s t → Q (get s) (get' t)) (hp : ∀ s t u v, P s t → Q u v → P (put u s) (put' v t)) : Alike P R (TSt.zoom get put x) (TSt.zoom get' put' y) := by
  intro s t hs
  obtain ⟨h1, h2, h3⟩ := h _ _ (hq s t hs)
  exact ⟨h1, h2, hp s t _ _ hs h3⟩

/-- The objects, and a relation between what each call finds. -/
theorem get : Alike P P TSt.get TSt.get := fun _ _ h => ⟨rfl, h, h⟩

theorem quiet {R : α → β → Prop} {x : St σ α} {y : St τ β} (h : ∀ s t, P s t → SameOutcome R (x.run s).1 (y.run t).1 ∧ P (x.run s).2 (y.run t).2) :
    Alike P R (TSt.quiet x) (TSt.quiet y) := fun s t hp => ⟨rfl, h s t hp⟩

/-- A conditional with the same outcome. -/
theorem ite {R : α → β → Prop} {b b' : Bool} {x y : TSt σ α} {x' y' : TSt τ β} (h : b = b') (hx : b = true → Alike P R x x') (hy : b = false → Alike P R y y') :
    Alike P R (TSt.test b >>= fun c => if c = true then x else y) (TSt.test b' >>= fun c => if c = true then x' else y') := by
  subst h
  refine bind (R := fun c c' => c = b ∧ c' = b) (fun _ _ hp => ⟨rfl, ⟨rfl, rfl⟩, hp⟩) fun c c' e => ?_
  rw [e.1, e.2]
  cases b
  · exact hy rfl
  · exact hx rfl

end Alike

/-- `Alike` for one pair of objects. -/
def AlikeAt (P : σ → τ → Prop) (R : α → β → Prop) (x : TSt σ α) (y : TSt τ β) (s : σ) (t : τ) : Prop :=
  (x.run s).1 = (y.run t).1 ∧ SameOutcome R (x.run s).2.1 (y.run t).2.1 ∧ P (x.run s).2.2 (y.run t).2.2

/-- Two calls that succeed with the same observations. -/
def BothOk (x : TSt σ α) (y : TSt τ β) (s : σ) (t : τ) (a : α) (b : β) (s' : σ) (t' : τ) : Prop := ∃ u, x.run s = (u, .ok a, s') ∧ y.run t = (u, .ok b, t')

theorem BothOk.bind {P : σ → τ → Prop} {R : γ → δ → Prop} {x : TSt σ α} {y : TSt τ β} {s s' : σ} {t t' : τ} {a : α} {b : β} {f : α → TSt σ γ} {g : β → TSt τ δ}
    (h : BothOk x y s t a b s' t') (hf : AlikeAt P R (f a) (g b) s' t') : AlikeAt P R (x >>= f) (y >>= g) s t := by
  obtain ⟨u, h1, h2⟩ := h
  obtain ⟨g1, g2, g3⟩ := hf
  unfold AlikeAt
  rw [bind_of_ok h1, bind_of_ok h2]
  exact ⟨congrArg (u ++ ·) g1, g2, g3⟩

theorem BothOk.zoom {get : σ → σ'} {put : σ' → σ → σ} {get' : τ → τ'} {put' : τ' → τ → τ} {x : TSt σ' α} {y : TSt τ' β} {s : σ} {t : τ} {a : α} {b : β} {s' : σ'} {t' : τ'}
    (h : BothOk x y (get s) (get' t) a b s' t') : BothOk (TSt.zoom get put x) (TSt.zoom get' put' y) s t a b (put s' s) (put' t' t) := by
  obtain ⟨u, h1, h2⟩ := h
  refine ⟨u, ?_, ?_⟩
  · simp only [TSt.zoom, h1]
  · simp only [TSt.zoom, h2]

theorem BothOk.see (o : Obs) (s : σ) (t : τ) : BothOk (TSt.see o) (TSt.see o) s t () () s t := ⟨_, rfl, rfl⟩
theorem BothOk.test (b : Bool) (s : σ) (t : τ) : BothOk (TSt.test b) (TSt.test b) s t b b s t := ⟨_, rfl, rfl⟩
theorem BothOk.ofTr {x : Tr α} {y : Tr β} {a : α} {b : β} (hx : x.res = .ok a) (hy : y.res = .ok b) (h : x.trace = y.trace) (s : σ) (t : τ) :
    BothOk (TSt.ofTr x) (TSt.ofTr y) s t a b s t := ⟨x.trace, by rw [← hx]; rfl, by rw [h, ← hy]; rfl⟩
theorem BothOk.quiet {x : St σ α} {y : St τ β} {s s' : σ} {t t' : τ} {a : α} {b : β} (hx : x.run s = (.ok a, s')) (hy : y.run t = (.ok b, t')) :
    BothOk (TSt.quiet x) (TSt.quiet y) s t a b s' t' := ⟨[], by rw [← hx]; rfl, by rw [← hy]; rfl⟩
theorem BothOk.get (s : σ) (t : τ) : BothOk TSt.get TSt.get s t s t s t := ⟨_, rfl, rfl⟩

/-- The first call fails the same way in both. -/
theorem AlikeAt.fails {P : σ → τ → Prop} {R : γ → δ → Prop} {x : TSt σ α} {y : TSt τ β} {s s' : σ} {t t' : τ} {k : TlsErrorKind} {f : α → TSt σ γ} {g : β → TSt τ δ} {u : List Obs}
    (hx : x.run s = (u, .err k, s')) (hy : y.run t = (u, .err k, t')) (hp : P s' t') : AlikeAt P R (x >>= f) (y >>= g) s t := by
  unfold AlikeAt
  rw [bind_run, bind_run, hx, hy]
  exact ⟨rfl, rfl, hp⟩

end TSt

end Husk
