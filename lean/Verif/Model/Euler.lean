import Mathlib.Analysis.SpecialFunctions.Complex.Arg
import Mathlib.LinearAlgebra.Matrix.Notation
import Verif.Model.Outcome
/-
common/math.h:107-174, common/math.cc:176-195: rotations, Euler angles and the average of transforms.
Real numbers instead of floating point numbers.
-/
namespace Verif
noncomputable section

abbrev Mat3 := Matrix (Fin 3) (Fin 3) ℝ

/-- Roll, pitch and yaw. -/
structure Euler where
  x : ℝ
  y : ℝ
  z : ℝ

/-- `std::atan2(y, x)`; both give zero for `(0, 0)`. -/
def atan2 (y x : ℝ) : ℝ := Complex.arg ⟨x, y⟩

/-- common/math.h:107-127 `RotationMatrixToEulerAngles`. -/
def toEuler (R : Mat3) : Euler :=
  let sy := Real.sqrt (R 0 0 * R 0 0 + R 1 0 * R 1 0)
  if sy < 1 / 1000000 then
    ⟨atan2 (-R 1 2) (R 1 1), atan2 (-R 2 0) sy, 0⟩
  else
    ⟨atan2 (R 2 1) (R 2 2), atan2 (-R 2 0) sy, atan2 (R 1 0) (R 0 0)⟩

/-- `Eigen::Quaternion`. -/
structure Quat where
  w : ℝ
  x : ℝ
  y : ℝ
  z : ℝ

/-- The product of two quaternions (Eigen). -/
def Quat.mul (a b : Quat) : Quat :=
  ⟨a.w * b.w - a.x * b.x - a.y * b.y - a.z * b.z,
   a.w * b.x + a.x * b.w + a.y * b.z - a.z * b.y,
   a.w * b.y + a.y * b.w + a.z * b.x - a.x * b.z,
   a.w * b.z + a.z * b.w + a.x * b.y - a.y * b.x⟩

/-- `toRotationMatrix` (Eigen). -/
def Quat.toMat (q : Quat) : Mat3 :=
  !![1 - (2 * q.y * q.y + 2 * q.z * q.z), 2 * q.y * q.x - 2 * q.z * q.w, 2 * q.z * q.x + 2 * q.y * q.w;
     2 * q.y * q.x + 2 * q.z * q.w, 1 - (2 * q.x * q.x + 2 * q.z * q.z), 2 * q.z * q.y - 2 * q.x * q.w;
     2 * q.z * q.x - 2 * q.y * q.w, 2 * q.z * q.y + 2 * q.x * q.w, 1 - (2 * q.x * q.x + 2 * q.y * q.y)]

/-- common/math.h:129-138 `EulerAnglesToQuaternion`: an `AngleAxis` about z, y and x as quaternions. -/
def eulerQuat (e : Euler) : Quat :=
  Quat.mul (Quat.mul ⟨Real.cos (e.z / 2), 0, 0, Real.sin (e.z / 2)⟩ ⟨Real.cos (e.y / 2), 0, Real.sin (e.y / 2), 0⟩)
    ⟨Real.cos (e.x / 2), Real.sin (e.x / 2), 0, 0⟩

/-- common/math.h:140-144 `EulerAnglesToRotationMatrix`; 163-167 in `Vector6ToTransform` is the same. -/
def fromEuler (e : Euler) : Mat3 := (eulerQuat e).toMat

/-- A transform: rotation and translation. -/
structure RTransform where
  rot : Mat3
  trans : Fin 3 → ℝ

/-- The six numbers of a pose. -/
structure Pose6 where
  trans : Fin 3 → ℝ
  angles : Euler

/-- common/math.h:152-160 `TransformToVector6`. -/
def toPose6 (t : RTransform) : Pose6 := ⟨t.trans, toEuler t.rot⟩

/-- common/math.h:162-174 `Vector6ToTransform`. -/
def fromPose6 (v : Pose6) : RTransform := ⟨fromEuler v.angles, v.trans⟩

/-- common/math.cc:176-195 `AverageTransforms`. -/
def averageTransforms (ts : List RTransform) : Outcome RTransform := do
  Outcome.check (ts ≠ [])
  let n : ℝ := ts.length
  let sx := (ts.map (fun t => (toEuler t.rot).x)).sum
  let sy := (ts.map (fun t => (toEuler t.rot).y)).sum
  let sz := (ts.map (fun t => (toEuler t.rot).z)).sum
  return ⟨fromEuler ⟨sx / n, sy / n, sz / n⟩, fun i => (ts.map (fun t => t.trans i)).sum / n⟩

end
end Verif
