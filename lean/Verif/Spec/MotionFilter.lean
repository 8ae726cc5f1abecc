import Verif.Model.MotionFilter
import Verif.Spec.Euler
import Mathlib.Analysis.SpecialFunctions.Trigonometric.Inverse
import Mathlib.LinearAlgebra.Matrix.Trace
namespace Verif.Spec
noncomputable section

/-- What is used of the conversion to `float`: it keeps the order, and is off by a share of 2^-24 at
most.  (True of rounding to the nearest: `flRound_mono`, `flRound_err`.) -/
structure Narrowing (single : ℝ → ℝ) : Prop where
  mono : ∀ x y, x ≤ y → single x ≤ single y
  err : ∀ x, |single x - x| ≤ 1 / 2 ^ 24 * |x|

/-- The angle of a rotation, between 0 and π. -/
def turn (R : Mat3) : ℝ := Real.arccos ((R.trace - 1) / 2)

/-- The distance between two positions. -/
def apart (A B : RTransform) : ℝ := Real.sqrt (∑ i, (B.trans i - A.trans i) ^ 2)

/-- The angle between two orientations, in degrees. -/
def turned (A B : RTransform) : ℝ := turn (A.rot.transpose * B.rot) * (180 / Real.pi)

/-- The pose of the newest key frame of a history; the first cloud is one, at the origin. -/
def latestKey (h : List (RTransform × Bool)) : RTransform :=
  (((h.filter (·.2)).map (·.1)).getLast?).getD ⟨1, 0⟩

end
end Verif.Spec
