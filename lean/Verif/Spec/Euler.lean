import Verif.Model.Euler
import Mathlib.LinearAlgebra.Matrix.Determinant.Basic
namespace Verif.Spec
noncomputable section

/-- A rotation of space: orthogonal, of determinant one. -/
def IsRot3 (R : Mat3) : Prop := R.transpose * R = 1 ∧ R.det = 1

/-- Rotation by an angle about the x, y and z axis. -/
def rotX (a : ℝ) : Mat3 := !![1, 0, 0; 0, Real.cos a, -Real.sin a; 0, Real.sin a, Real.cos a]
def rotY (a : ℝ) : Mat3 := !![Real.cos a, 0, Real.sin a; 0, 1, 0; -Real.sin a, 0, Real.cos a]
def rotZ (a : ℝ) : Mat3 := !![Real.cos a, -Real.sin a, 0; Real.sin a, Real.cos a, 0; 0, 0, 1]

/-- How far the first axis of a rotation is from pointing straight up or down: the length of its
horizontal part. -/
def level (R : Mat3) : ℝ := Real.sqrt (R 0 0 ^ 2 + R 1 0 ^ 2)

end
end Verif.Spec
