import Mathlib.Analysis.InnerProductSpace.PiL2
import Mathlib.LinearAlgebra.Matrix.Notation
import Verif.Model.Outcome
/-!
The small geometric helpers of `common/math.h` and `common/math.cc`: `Clamp`, `Power`,
`NormalizeAngleDifference`, `DistanceToLine`, `PlaneFitting`.

Simplifications: real numbers where a norm is taken. For the angle the subtraction and addition of
the scalar type are parameters, so that rounding is inside the model. The singular value
decomposition is a parameter.
-/
namespace Verif

/-- `Clamp` (math.h:66-75). -/
def clampTo {R : Type} [LT R] [DecidableLT R] (value min max : R) : R :=
  if value > max then max else if value < min then min else value

/-- The recursion of `Power` (math.h:78-81) for an exponent that is not negative. -/
def powerRec {R : Type} [One R] [Mul R] (base : R) : Nat → R
  | 0 => 1
  | n + 1 => base * powerRec base n

/-- `Power` (math.h:78-81). A negative exponent is decreased until the integer overflows. -/
def powerOf {R : Type} [One R] [Mul R] (base : R) (exponent : Int) : Outcome R :=
  if exponent < 0 then .ub else .ok (powerRec base exponent.toNat)

/-- The first loop of `NormalizeAngleDifference` (math.h:98-100): `none` if it still runs after
`fuel` rounds. `pi` is `M_PI`, `sub x` is `x - T(2. * M_PI)` in the arithmetic of the type. -/
def angleDown {R : Type} [LT R] [DecidableLT R] (pi : R) (sub : R → R) : Nat → R → Option R
  | 0, _ => none
  | fuel + 1, x => if pi < x then angleDown pi sub fuel (sub x) else some x

/-- The second loop (math.h:101-103); `add x` is `x + T(2. * M_PI)`. -/
def angleUp {R : Type} [LT R] [DecidableLT R] [Neg R] (pi : R) (add : R → R) : Nat → R → Option R
  | 0, _ => none
  | fuel + 1, x => if x < -pi then angleUp pi add fuel (add x) else some x

/-- `NormalizeAngleDifference` (math.h:96-105). -/
def normalizeAngle {R : Type} [LT R] [DecidableLT R] [Neg R] (pi : R) (sub add : R → R) (fuel : Nat)
    (x : R) : Option R :=
  (angleDown pi sub fuel x).bind (angleUp pi add fuel)

/-- Eigen's `normalized()`: a vector of length zero is returned as it is. -/
noncomputable def unitOf {n : Nat} (d : EuclideanSpace ℝ (Fin n)) : EuclideanSpace ℝ (Fin n) :=
  if 0 < ‖d‖ then ‖d‖⁻¹ • d else d

/-- `DistanceToLine` (math.h:213-221). -/
noncomputable def distanceToLine {n : Nat} (point origin direction : EuclideanSpace ℝ (Fin n)) : ℝ :=
  let op := point - origin
  let oc := (inner ℝ op direction : ℝ) • unitOf direction
  ‖oc - op‖

/-- `centroid` of `PlaneFitting` (math.cc:217-219). -/
noncomputable def fitCentroid (points : List (Fin 3 → ℝ)) : Fin 3 → ℝ :=
  fun i => (points.map (· i)).sum / points.length

/-- `PlaneFitting` (math.cc:201-233): the centroid and the normal; `none` for the pair of the greatest
numbers that is returned for fewer than two points. `svdU` gives the left singular matrix of the
matrix whose columns are the points less the centroid. -/
noncomputable def planeFitting (svdU : List (Fin 3 → ℝ) → Matrix (Fin 3) (Fin 3) ℝ)
    (points : List (Fin 3 → ℝ)) : Option ((Fin 3 → ℝ) × (Fin 3 → ℝ)) :=
  if points.length < 2 then none
  else
    let c := fitCentroid points
    let u := svdU (points.map fun p => p - c)
    some (c, fun i => u i 2)

end Verif
