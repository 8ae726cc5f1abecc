/-
Outcomes of modelled C++ functions.

`abort` : the process is stopped by a failing `CHECK`, `LOG(FATAL)` or an uncaught exception.
`ub`    : the C++ standard gives the execution no meaning (null dereference, out-of-range
          `operator[]`, `front()` of an empty container, signed overflow, non-termination
          without side effects ...).
-/
namespace Verif

inductive Outcome (α : Type _) where
  | ok (a : α)
  | abort
  | ub
  deriving Repr, DecidableEq

namespace Outcome

def bind {α β} (x : Outcome α) (f : α → Outcome β) : Outcome β :=
  match x with
  | ok a => f a
  | abort => abort
  | ub => ub

instance : Monad Outcome where
  pure := ok
  bind := bind

@[simp] theorem pure_eq {α} (a : α) : (pure a : Outcome α) = ok a := rfl
@[simp] theorem bind_ok {α β} (a : α) (f : α → Outcome β) : ((ok a) >>= f) = f a := rfl
@[simp] theorem bind_abort {α β} (f : α → Outcome β) : ((abort : Outcome α) >>= f) = abort := rfl
@[simp] theorem bind_ub {α β} (f : α → Outcome β) : ((ub : Outcome α) >>= f) = ub := rfl

/-- glog's `CHECK(p)`. -/
def check (p : Prop) [Decidable p] : Outcome Unit := if p then ok () else abort

theorem check_pos {p : Prop} [Decidable p] (h : p) : check p = ok () := if_pos h
theorem check_neg {p : Prop} [Decidable p] (h : ¬ p) : check p = abort := if_neg h

@[simp] theorem check_bind_eq_ok {β} (p : Prop) [Decidable p] (f : Unit → Outcome β) (b : β) :
    ((check p >>= f) = ok b) ↔ p ∧ f () = ok b := by
  unfold check; split <;> simp [*]

@[simp] theorem bind_eq_ok {α β} (x : Outcome α) (f : α → Outcome β) (b : β) :
    ((x >>= f) = ok b) ↔ ∃ a, x = ok a ∧ f a = ok b := by
  cases x <;> simp

end Outcome
end Verif
