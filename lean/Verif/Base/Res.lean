/-!
Outcomes of Rust functions, build modes and machine-integer helpers.
-/

namespace Husk

abbrev Bytes := List UInt8

/-- `TlsErrorKind`, src/tls_result.rs:6-19 (the description string of `TlsError` is dropped: no code inspects it). -/
inductive TlsErrorKind
  | UnexpectedMessage | BadRecordMac | RecordOverflow | IllegalParameter
  | DecodeError | DecryptError | InternalError | IoFailure | AlertReceived
  deriving DecidableEq, Repr

/-- Build profile: `debug` has overflow checks and `debug_assert!`, `release` has neither. -/
inductive Mode
  | debug | release
  deriving DecidableEq, Repr

/-- Outcome of a Rust call. `ok`/`err` are `TlsResult` (src/tls_result.rs:71), `panic` is an unwinding
panic (`panic!`, `assert!`, `unimplemented!`, overflow in debug builds, slice index out of bounds).
`diverge` says that a Rust loop does not end within the finite script of its environment. -/
inductive Res (α : Type u)
  | ok (a : α)
  | err (k : TlsErrorKind)
  | panic
  | diverge
  deriving DecidableEq, Repr

namespace Res

/-- The `?` operator: everything but `ok` is propagated. -/
@[inline] protected def bind (x : Res α) (f : α → Res β) : Res β :=
  match x with
  | .ok a => f a
  | .err k => .err k
  | .panic => .panic
  | .diverge => .diverge

instance : Monad Res where
  pure := .ok
  bind := Res.bind

@[simp] theorem pure_def (a : α) : (pure a : Res α) = .ok a := rfl
@[simp] theorem bind_ok (a : α) (f : α → Res β) : (Res.ok a >>= f) = f a := rfl
@[simp] theorem bind_err (k) (f : α → Res β) : ((Res.err k : Res α) >>= f) = .err k := rfl
@[simp] theorem bind_panic (f : α → Res β) : ((Res.panic : Res α) >>= f) = .panic := rfl
@[simp] theorem bind_diverge (f : α → Res β) : ((Res.diverge : Res α) >>= f) = .diverge := rfl
@[simp] theorem map_ok (f : α → β) (a : α) : (f <$> (Res.ok a)) = .ok (f a) := rfl

instance : LawfulMonad Res := LawfulMonad.mk'
  (id_map := by intro α x; cases x <;> rfl)
  (pure_bind := by intros; rfl)
  (bind_assoc := by intro α β γ x f g; cases x <;> rfl)

theorem bind_eq_ok {x : Res α} {f : α → Res β} {b : β} :
    (x >>= f) = .ok b ↔ ∃ a, x = .ok a ∧ f a = .ok b := by
  cases x <;> simp

/-- The call did not panic and did not diverge: it returned `Ok(..)` or `Err(..)`. -/
def Returns : Res α → Prop
  | .ok _ => True
  | .err _ => True
  | .panic => False
  | .diverge => False

instance (r : Res α) : Decidable r.Returns := by cases r <;> unfold Returns <;> infer_instance

end Res

/-- `debug_assert!(b)`. -/
def debugAssert (m : Mode) (b : Bool) : Res Unit :=
  match m, b with
  | .debug, false => .panic
  | _, _ => .ok ()

/-- Rust `a + b` on `u32`: panics on overflow in debug builds, wraps in release builds. -/
def addU32 (m : Mode) (a b : UInt32) : Res UInt32 :=
  if a.toNat + b.toNat < 2 ^ 32 then .ok (a + b)
  else match m with
    | .debug => .panic
    | .release => .ok (a + b)

/-- Rust `a * b` on `u32`. -/
def mulU32 (m : Mode) (a b : UInt32) : Res UInt32 :=
  if a.toNat * b.toNat < 2 ^ 32 then .ok (a * b)
  else match m with
    | .debug => .panic
    | .release => .ok (a * b)

/-- Rust `a + b` on `u64`. -/
def addU64 (m : Mode) (a b : UInt64) : Res UInt64 :=
  if a.toNat + b.toNat < 2 ^ 64 then .ok (a + b)
  else match m with
    | .debug => .panic
    | .release => .ok (a + b)

/-- Rust `a * b` on `u64`. -/
def mulU64 (m : Mode) (a b : UInt64) : Res UInt64 :=
  if a.toNat * b.toNat < 2 ^ 64 then .ok (a * b)
  else match m with
    | .debug => .panic
    | .release => .ok (a * b)

theorem addU32_spec (m : Mode) (a b : UInt32) (h : a.toNat + b.toNat < 2 ^ 32) :
    ∃ c, addU32 m a b = .ok c ∧ c.toNat = a.toNat + b.toNat :=
  ⟨a + b, by simp [addU32, h], by rw [UInt32.toNat_add]; exact Nat.mod_eq_of_lt h⟩

theorem mulU32_spec (m : Mode) (a b : UInt32) (h : a.toNat * b.toNat < 2 ^ 32) :
    ∃ c, mulU32 m a b = .ok c ∧ c.toNat = a.toNat * b.toNat :=
  ⟨a * b, by simp [mulU32, h], by rw [UInt32.toNat_mul]; exact Nat.mod_eq_of_lt h⟩

theorem addU64_spec (m : Mode) (a b : UInt64) (h : a.toNat + b.toNat < 2 ^ 64) :
    ∃ c, addU64 m a b = .ok c ∧ c.toNat = a.toNat + b.toNat :=
  ⟨a + b, by simp [addU64, h], by rw [UInt64.toNat_add]; exact Nat.mod_eq_of_lt h⟩

theorem mulU64_spec (m : Mode) (a b : UInt64) (h : a.toNat * b.toNat < 2 ^ 64) :
    ∃ c, mulU64 m a b = .ok c ∧ c.toNat = a.toNat * b.toNat :=
  ⟨a * b, by simp [mulU64, h], by rw [UInt64.toNat_mul]; exact Nat.mod_eq_of_lt h⟩

end Husk
