import Verif.Model.PoseChain
import Verif.Spec.PlaceFloat
import Mathlib.Data.Matrix.Mul
namespace Verif.Spec
open Matrix

/-- The linear part of a pose. -/
def linOf (T : Mat4 ℚ) : Matrix (Fin 3) (Fin 3) ℚ := fun i j => T i.castSucc j.castSucc

/-- The position of a pose. -/
def posOf (T : Mat4 ℚ) : Fin 3 → ℚ := fun i => T i.castSucc 3

/-- The last row of a pose is `0 0 0 1`. -/
def IsPose (T : Mat4 ℚ) : Prop := T 3 0 = 0 ∧ T 3 1 = 0 ∧ T 3 2 = 0 ∧ T 3 3 = 1

/-- The square of the length of a vector. -/
def sqLength (v : Fin 3 → ℚ) : ℚ := v 0 ^ 2 + v 1 ^ 2 + v 2 ^ 2

/-- The squares of lengths are changed by a share of `e` at most. -/
def KeepsLengths (e : ℚ) (M : Matrix (Fin 3) (Fin 3) ℚ) : Prop :=
  ∀ v, |sqLength (M.mulVec v) - sqLength v| ≤ e * sqLength v

/-- The pose of round `i`, exactly: the results of the key frames before it one after the other, then
its own. -/
def exactPose (rounds : List (Mat4 ℚ × Bool)) (i : Nat) (own : Mat4 ℚ) : Mat4 ℚ :=
  (((rounds.take i).filter (·.2)).map (·.1)).prod * own

/-- The number of results the pose of round `i` is made of. -/
def factors (rounds : List (Mat4 ℚ × Bool)) (i : Nat) : Nat := ((rounds.take i).filter (·.2)).length + 1

end Verif.Spec
