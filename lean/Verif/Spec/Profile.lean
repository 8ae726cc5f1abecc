import Verif.Model.Profile
/-! Specification for C79: what the table of running times should say. -/
namespace Verif.Spec
section
variable {β τ : Type} [DecidableEq β] [DecidableEq τ]

def timeIn (b : β) : ProfEv β τ → Option Int
  | .leave b' _ d => if b' = b then some d else none
  | .enter _ _ => none

def timeInBy (b : β) (th : τ) : ProfEv β τ → Option Int
  | .leave b' th' d => if b' = b ∧ th' = th then some d else none
  | .enter _ _ => none

/-- The times of the finished executions of a block, by all threads or by one. -/
def timesOf (es : List (ProfEv β τ)) (b : β) : List Int := es.filterMap (timeIn b)
def timesOfBy (es : List (ProfEv β τ)) (b : β) (th : τ) : List Int := es.filterMap (timeInBy b th)

/-- What is shown for a time of `x` microseconds: whole units, or that it is less than one. -/
def Shows (factor : Rat) (x : Int) (o : Option Int) : Prop :=
  (1 ≤ x * factor → ∃ i : Int, o = some i ∧ (i : Rat) ≤ x * factor ∧ x * factor < i + 1) ∧
  ((x : Rat) * factor < 1 → o = none)

/-- A line for executions with the times `l`. -/
structure RowFor (factor : Rat) (l : List Int) (r : ProfRow) : Prop where
  times : r.times = l.length
  sum : Shows factor l.sum r.sum
  min : ∃ m ∈ l, (∀ x ∈ l, m ≤ x) ∧ Shows factor m r.min
  max : ∃ m ∈ l, (∀ x ∈ l, x ≤ m) ∧ Shows factor m r.max
  avg : ∃ a : Int, a * l.length ≤ l.sum ∧ l.sum < (a + 1) * l.length ∧ Shows factor a r.avg

end
end Verif.Spec
