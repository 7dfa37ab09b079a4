import Verif.Base.Res
/-! State-passing calls: `&mut self` methods. The state is kept when the call returns `Err` (the Rust object survives). -/

namespace Husk

/-- A call on an object of type `σ`. -/
structure St (σ : Type u) (α : Type v) where
  run : σ → Res α × σ

namespace St

protected def pure (a : α) : St σ α := ⟨fun s => (.ok a, s)⟩

/-- The `?` operator on `&mut self` calls. -/
protected def bind (x : St σ α) (f : α → St σ β) : St σ β := ⟨fun s =>
  match x.run s with
  | (.ok a, s') => (f a).run s'
  | (.err k, s') => (.err k, s')
  | (.panic, s') => (.panic, s')
  | (.diverge, s') => (.diverge, s')⟩

instance : Monad (St σ) where
  pure := St.pure
  bind := St.bind

/-- A call that does not touch the object. -/
def lift (r : Res α) : St σ α := ⟨fun s => (r, s)⟩
def err (k : TlsErrorKind) : St σ α := lift (.err k)
def panic : St σ α := lift .panic
def get : St σ σ := ⟨fun s => (.ok s, s)⟩
def set (s : σ) : St σ Unit := ⟨fun _ => (.ok (), s)⟩
def modify (f : σ → σ) : St σ Unit := ⟨fun s => (.ok (), f s)⟩

/-- A call on a field of the object. -/
def zoom (get : σ → τ) (put : τ → σ → σ) (x : St τ α) : St σ α := ⟨fun s =>
  match x.run (get s) with
  | (r, t) => (r, put t s)⟩

theorem pure_run (a : α) (s : σ) : (pure a : St σ α).run s = (.ok a, s) := rfl
theorem bind_run (x : St σ α) (f : α → St σ β) (s : σ) : (x >>= f).run s =
    match x.run s with
    | (.ok a, s') => (f a).run s'
    | (.err k, s') => (.err k, s')
    | (.panic, s') => (.panic, s')
    | (.diverge, s') => (.diverge, s') := rfl
theorem bind_of_ok {x : St σ α} {f : α → St σ β} {s s' : σ} {a : α} (h : x.run s = (.ok a, s')) : (x >>= f).run s = (f a).run s' := by
  rw [bind_run, h]
theorem bind_of_err {x : St σ α} {f : α → St σ β} {s s' : σ} {k : TlsErrorKind} (h : x.run s = (.err k, s')) :
    (x >>= f).run s = (.err k, s') := by
  rw [bind_run, h]
theorem bind_of_panic {x : St σ α} {f : α → St σ β} {s s' : σ} (h : x.run s = (.panic, s')) : (x >>= f).run s = (.panic, s') := by
  rw [bind_run, h]
theorem bind_of_diverge {x : St σ α} {f : α → St σ β} {s s' : σ} (h : x.run s = (.diverge, s')) : (x >>= f).run s = (.diverge, s') := by
  rw [bind_run, h]
theorem lift_run (r : Res α) (s : σ) : (lift r : St σ α).run s = (r, s) := rfl
theorem err_run (k) (s : σ) : (err k : St σ α).run s = (.err k, s) := rfl
theorem panic_run (s : σ) : (panic : St σ α).run s = (.panic, s) := rfl
theorem get_run (s : σ) : (get : St σ σ).run s = (.ok s, s) := rfl
theorem set_run (s t : σ) : (set s).run t = (.ok (), s) := rfl
theorem modify_run (f : σ → σ) (s : σ) : (modify f).run s = (.ok (), f s) := rfl
theorem zoom_run (get : σ → τ) (put : τ → σ → σ) (x : St τ α) (s : σ) :
    (zoom get put x).run s = ((x.run (get s)).1, put (x.run (get s)).2 s) := rfl
theorem zoom_of {get : σ → τ} {put : τ → σ → σ} {x : St τ α} {s : σ} {r : Res α} {t : τ} (h : x.run (get s) = (r, t)) :
    (zoom get put x).run s = (r, put t s) := by
  rw [zoom_run, h]

theorem bind_eq_ok {x : St σ α} {f : α → St σ β} {s s'' : σ} {b : β} (h : (x >>= f).run s = (.ok b, s'')) :
    ∃ a s', x.run s = (.ok a, s') ∧ (f a).run s' = (.ok b, s'') := by
  rw [bind_run] at h
  rcases hx : x.run s with ⟨r, s'⟩
  rw [hx] at h
  cases r with
  | ok a => exact ⟨a, s', rfl, h⟩
  | err k => simp at h
  | panic => simp at h
  | diverge => simp at h

end St

end Husk
