/-!
# Outcomes of C++ calls

`ok` is a normal return, `err` an exception raised by the code (`FailWhen`, `Throw`, `Assert`, or an
exception of the standard library), `ub` undefined behaviour (reading or writing outside an object,
dereferencing an end iterator, ...).
-/
namespace Verif

/-- Outcome of a call. -/
inductive Res (α : Type u) where
  | ok (a : α)
  | err
  | ub
deriving DecidableEq, Repr

namespace Res

/-- Sequencing: an exception or undefined behaviour stops the computation. -/
protected def bind {α : Type u} {β : Type v} (x : Res α) (f : α → Res β) : Res β :=
  match x with
  | ok a => f a
  | err => err
  | ub => ub

instance : Monad Res where
  pure := ok
  bind := Res.bind

@[simp] theorem pure_eq {α : Type u} (a : α) : (pure a : Res α) = ok a := rfl
@[simp] theorem ok_bind {α β : Type u} (a : α) (f : α → Res β) : (ok a >>= f) = f a := rfl
@[simp] theorem err_bind {α β : Type u} (f : α → Res β) : ((err : Res α) >>= f) = err := rfl
@[simp] theorem ub_bind {α β : Type u} (f : α → Res β) : ((ub : Res α) >>= f) = ub := rfl

theorem bind_eq_ok {α β : Type u} {x : Res α} {f : α → Res β} {b : β} :
    (x >>= f) = ok b ↔ ∃ a, x = ok a ∧ f a = ok b := by
  cases x <;> simp

end Res
end Verif
