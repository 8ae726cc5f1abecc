import Verif.Model.MatchScore
namespace Verif.Spec
variable {T R : Type} [Field R] [LinearOrder R]

/-- What `exp(-x)` is used for: positive, one for a perfect match, smaller for a larger distance. -/
structure Decreasing (expNeg : R → R) : Prop where
  zero : expNeg 0 = 1
  anti : ∀ x y, x < y → expNeg y < expNeg x

/-- A cloud every matcher can take. -/
def GoodCloud (c : RegCloud) : Prop := c.empty = false ∧ c.nan = false ∧ c.normals = true

/-- The final transform of a matcher and the mean distance of the matched points under it, when the
first stage of a two-stage matcher does not give up. -/
def Aligned (useNdt : Bool) (E : MatchEngine T R) (k : RegKind) (s t : RegCloud) (guess : T) : T × R :=
  match k with
  | .ndtGicp => if useNdt then E.gicpStage s t (E.ndtStage s t guess).1 else E.gicpStage s t guess
  | _ => E.single s t guess

/-- The first stage of a two-stage matcher gives up: its mean squared distance is above one. -/
def GivesUp (useNdt : Bool) (E : MatchEngine T R) (k : RegKind) (s t : RegCloud) (guess : T) : Prop :=
  k = .ndtGicp ∧ useNdt = true ∧ 1 < (E.ndtStage s t guess).2

end Verif.Spec
