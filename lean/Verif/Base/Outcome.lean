/-!
# Outcomes of Rust functions that may panic
-/

namespace PDJ

/-- Result of running a Rust function: it returns, or it panics. -/
inductive Outcome (α : Type) where
  | ok (val : α)
  | panic
deriving DecidableEq, Repr

namespace Outcome

/-- Sequencing. -/
def bind {α β : Type} (x : Outcome α) (f : α → Outcome β) : Outcome β :=
  match x with
  | ok v => f v
  | panic => panic

instance : Monad Outcome where
  pure := ok
  bind := bind

@[simp] theorem bind_ok {α β : Type} (v : α) (f : α → Outcome β) :
    ((ok v : Outcome α) >>= f) = f v := rfl
@[simp] theorem bind_panic {α β : Type} (f : α → Outcome β) :
    ((panic : Outcome α) >>= f) = panic := rfl
@[simp] theorem pure_eq {α : Type} (v : α) : (pure v : Outcome α) = ok v := rfl

theorem bind_eq_ok {α β : Type} {x : Outcome α} {f : α → Outcome β} {b : β} :
    (x >>= f) = ok b ↔ ∃ a, x = ok a ∧ f a = ok b := by
  cases x <;> simp

/-- `Option::unwrap` / `Option::expect`. -/
def unwrap {α : Type} : Option α → Outcome α
  | some v => ok v
  | none => panic

@[simp] theorem unwrap_some {α : Type} (v : α) : unwrap (some v) = ok v := rfl
@[simp] theorem unwrap_none {α : Type} : unwrap (none : Option α) = panic := rfl

end Outcome

end PDJ
