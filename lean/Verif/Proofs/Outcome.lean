import Verif.Model.Outcome
/-! When a sequence of steps aborts or is undefined. -/
namespace Verif.Outcome

theorem bind_eq_ub {α β} (x : Outcome α) (f : α → Outcome β) :
    (x >>= f) = ub ↔ x = ub ∨ ∃ a, x = ok a ∧ f a = ub := by
  cases x <;> simp

theorem bind_eq_abort {α β} (x : Outcome α) (f : α → Outcome β) :
    (x >>= f) = abort ↔ x = abort ∨ ∃ a, x = ok a ∧ f a = abort := by
  cases x <;> simp

theorem check_ne_ub (p : Prop) [Decidable p] : check p ≠ ub := by
  unfold check; split <;> simp

theorem check_eq_abort (p : Prop) [Decidable p] : check p = abort ↔ ¬ p := by
  unfold check; split <;> simp [*]

theorem check_eq_ok (p : Prop) [Decidable p] (u : Unit) : check p = ok u ↔ p := by
  unfold check; split <;> simp [*]

theorem check_bind_eq_ub {β} (p : Prop) [Decidable p] (f : Unit → Outcome β) :
    (check p >>= f) = ub ↔ p ∧ f () = ub := by
  unfold check; split <;> simp [*]

theorem check_bind_eq_abort {β} (p : Prop) [Decidable p] (f : Unit → Outcome β) :
    (check p >>= f) = abort ↔ ¬ p ∨ f () = abort := by
  unfold check; split <;> simp [*]

theorem bind_ne_ub {α β} {x : Outcome α} {f : α → Outcome β} (h1 : x ≠ ub) (h2 : ∀ a, f a ≠ ub) : (x >>= f) ≠ ub := by
  rw [Ne, bind_eq_ub]
  rintro (h | ⟨a, _, h⟩)
  · exact h1 h
  · exact h2 a h

end Verif.Outcome
