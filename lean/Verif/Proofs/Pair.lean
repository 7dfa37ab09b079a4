import Verif.Base.StRes
/-! Two calls side by side. -/

namespace Husk

/-- Two outcomes agree: values related by `Q` (with the states), or the same failure with states related by `E`; if `free`, anything may stand against a panic
of the first. -/
inductive Agree (Q : α → β → σ → τ → Prop) (E : σ → τ → Prop) (free : Prop) : Res α × σ → Res β × τ → Prop
  | ok {a b s t} : Q a b s t → Agree Q E free (.ok a, s) (.ok b, t)
  | err {k s t} : E s t → Agree Q E free (.err k, s) (.err k, t)
  | panic {s t} : E s t → Agree Q E free (.panic, s) (.panic, t)
  | diverge {s t} : E s t → Agree Q E free (.diverge, s) (.diverge, t)
  | free {s r} : free → Agree Q E free (.panic, s) r

/-- From states related by `P`, the two calls agree. -/
def Pair (P : σ → τ → Prop) (x : St σ α) (y : St τ β) (Q : α → β → σ → τ → Prop) (E : σ → τ → Prop) (free : Prop) : Prop :=
  ∀ s t, P s t → Agree Q E free (x.run s) (y.run t)

namespace Agree

theorem mono {Q Q' : α → β → σ → τ → Prop} {E E' : σ → τ → Prop} {free : Prop} {r : Res α × σ} {r' : Res β × τ} (h : Agree Q E free r r')
    (hq : ∀ a b s t, Q a b s t → Q' a b s t) (he : ∀ s t, E s t → E' s t) : Agree Q' E' free r r' := by
  cases h with
  | ok h => exact .ok (hq _ _ _ _ h)
  | err h => exact .err (he _ _ h)
  | panic h => exact .panic (he _ _ h)
  | diverge h => exact .diverge (he _ _ h)
  | free h => exact .free h

/-- The same value, related states. -/
theorem same {Q : α → α → σ → τ → Prop} {E R : σ → τ → Prop} {free : Prop} (r : Res α) {s : σ} {t : τ} (h : R s t) (hq : ∀ a, R s t → Q a a s t) (he : R s t → E s t) :
    Agree Q E free (r, s) (r, t) := by
  cases r with
  | ok a => exact .ok (hq a h)
  | err k => exact .err (he h)
  | panic => exact .panic (he h)
  | diverge => exact .diverge (he h)

end Agree

namespace Pair

variable {P : σ → τ → Prop} {E : σ → τ → Prop} {free : Prop}

theorem bind {x : St σ α} {y : St τ β} {f : α → St σ γ} {g : β → St τ δ} {Q : α → β → σ → τ → Prop} {R : γ → δ → σ → τ → Prop}
    (h : Pair P x y Q E free) (hf : ∀ a b, Pair (Q a b) (f a) (g b) R E free) : Pair P (x >>= f) (y >>= g) R E free := by
  intro s t hs
  have h := h s t hs
  rw [St.bind_run, St.bind_run]
  generalize x.run s = r at h ⊢
  generalize y.run t = r' at h ⊢
  cases h with
  | ok h => exact hf _ _ _ _ h
  | err h => exact .err h
  | panic h => exact .panic h
  | diverge h => exact .diverge h
  | free h => exact .free h

theorem mono {x : St σ α} {y : St τ β} {P' : σ → τ → Prop} {Q Q' : α → β → σ → τ → Prop} (h : Pair P x y Q E free) (hp : ∀ s t, P' s t → P s t)
    (hq : ∀ a b s t, Q a b s t → Q' a b s t) : Pair P' x y Q' E free := fun s t hs => (h s t (hp s t hs)).mono hq fun _ _ h => h

theorem pure {a : α} {b : β} {Q : α → β → σ → τ → Prop} (h : ∀ s t, P s t → Q a b s t) : Pair P (Pure.pure a : St σ α) (Pure.pure b : St τ β) Q E free :=
  fun s t hs => .ok (h s t hs)

theorem err {k : TlsErrorKind} {Q : α → β → σ → τ → Prop} (h : ∀ s t, P s t → E s t) : Pair P (St.err k : St σ α) (St.err k : St τ β) Q E free :=
  fun s t hs => .err (h s t hs)

theorem panic {Q : α → β → σ → τ → Prop} (h : ∀ s t, P s t → E s t) : Pair P (St.panic : St σ α) (St.panic : St τ β) Q E free :=
  fun s t hs => .panic (h s t hs)

theorem lift {r : Res α} {Q : α → α → σ → τ → Prop} (hq : ∀ a s t, r = .ok a → P s t → Q a a s t) (h : ∀ s t, P s t → E s t) : Pair P (St.lift r : St σ α) (St.lift r : St τ α) Q E free := by
  intro s t hs
  rw [St.lift_run, St.lift_run]
  cases r with
  | ok a => exact .ok (hq a s t rfl hs)
  | err k => exact .err (h s t hs)
  | panic => exact .panic (h s t hs)
  | diverge => exact .diverge (h s t hs)

theorem get_bind {f : σ → St σ α} {g : τ → St τ β} {Q : α → β → σ → τ → Prop} (h : ∀ s t, P s t → Pair (fun s' t' => s' = s ∧ t' = t ∧ P s t) (f s) (g t) Q E free) :
    Pair P (St.get >>= f) (St.get >>= g) Q E free := fun s t hs => h s t hs s t ⟨rfl, rfl, hs⟩

theorem ite {c : Prop} [Decidable c] {x x' : St σ α} {y y' : St τ β} {Q : α → β → σ → τ → Prop} (hx : Pair P x y Q E free) (hy : Pair P x' y' Q E free) :
    Pair P (if c then x else x') (if c then y else y') Q E free := by
  split
  · exact hx
  · exact hy

end Pair

end Husk
