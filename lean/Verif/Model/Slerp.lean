import Verif.Model.PoseNormal
import Verif.Model.FrontEnd
import Mathlib.LinearAlgebra.Matrix.NonsingularInverse
import Mathlib.Analysis.SpecialFunctions.Trigonometric.Inverse
/-! Interpolation between two rotations, written out (FrontEnd and Odom take it as a parameter), and
the odometry pose as a matrix. Real numbers stand for the doubles. -/
namespace Verif
noncomputable section

/-- Eigen's `QuaternionBase::dot`. -/
def Quat.dot (a b : Quat) : ℝ := a.w * b.w + a.x * b.x + a.y * b.y + a.z * b.z

/-- The factor of the first quaternion in Eigen's `slerp`; `d` is the absolute value of the dot
product and `eps` is `NumTraits<Scalar>::epsilon()`. -/
def slerpScale0 (eps d t : ℝ) : ℝ :=
  if d ≥ 1 - eps then 1 - t else Real.sin ((1 - t) * Real.arccos d) / Real.sin (Real.arccos d)

/-- The factor of the second quaternion, before its sign. -/
def slerpScale1 (eps d t : ℝ) : ℝ :=
  if d ≥ 1 - eps then t else Real.sin (t * Real.arccos d) / Real.sin (Real.arccos d)

/-- Eigen's `QuaternionBase::slerp` (called at common/math.h:206): the two quaternions are mixed with
the factors above; the second one changes its sign if the dot product is negative. The result is not
normalised. -/
def eigenSlerp (eps : ℝ) (a b : Quat) (t : ℝ) : Quat :=
  let d := a.dot b
  let k0 := slerpScale0 eps |d| t
  let k := slerpScale1 eps |d| t
  let k1 := if d < 0 then -k else k
  ⟨k0 * a.w + k1 * b.w, k0 * a.x + k1 * b.x, k0 * a.y + k1 * b.y, k0 * a.z + k1 * b.z⟩

/-- common/math.h:204-206: the two quaternions are made of the rotation parts and the result is made
a matrix again. `interpolateTransform (slerpMat eps)` is the whole function. -/
def slerpMat (eps : ℝ) (A B : Mat3) (t : ℝ) : Mat3 := (eigenSlerp eps (quatOfMat A) (quatOfMat B) t).toMat

/-- builder/data/cloud_types.cc:306-322 (`EigenPointCloud::ApplyMotionCompensation`). The variable
declared in the loop has the name of the parameter and is read in its own initialisation: every turn
of the loop reads an uninitialised matrix. `cols` are the points, `factors` the fractions. -/
def applyMotionCompensation (cols : List (Fin 3 → ℝ)) (factors : List ℝ) (_transform : Rigid ℝ) :
    Outcome (List (Fin 3 → ℝ)) := do
  Outcome.check (cols.length = factors.length)
  match cols with
  | [] => return []
  | _ :: _ => .ub

/-- builder/data/cloud_types.cc:329-346 (`FromPointCloud`): the fraction of a point is its place in
the cloud, whatever fraction the point itself carries. -/
def eigenFactors (n : Nat) : List ℝ := (List.range n).map fun i : Nat => (i : ℝ) / n

/-- The pose of an odometry message (builder/data/data_types.h). -/
structure OdomPose where
  position : Fin 3 → ℝ
  orientation : Quat

/-- A 4x4 matrix with the given rotation part, translation and last row `0 0 0 1`. -/
def pose4 (r : Mat3) (t : Fin 3 → ℝ) : Pose4 :=
  !![r 0 0, r 0 1, r 0 2, t 0; r 1 0, r 1 1, r 1 2, t 1; r 2 0, r 2 1, r 2 2, t 2; 0, 0, 0, 1]

/-- builder/data/data_types.cc:34-39 (`OdomMsg::PoseInMatrix`). The quaternion is not normalised. -/
def OdomPose.inMatrix (m : OdomPose) : Pose4 := pose4 m.orientation.toMat m.position

/-- builder/data/data_types.cc:41-45 (`OdomMsg::SetPose`). -/
def OdomPose.ofMatrix (t : Pose4) : OdomPose := ⟨transBlock t, quatOfMat (rotBlock t)⟩

/-- builder/data/data_collector.cc:174-193 (`AddSensorData` for odometry): poses are stored relative to
the first one. (A matrix without an inverse gives infinities in Eigen, 0 here.) -/
def storeOdomPose (st : Option Pose4 × List Pose4) (m : OdomPose) : Option Pose4 × List Pose4 :=
  let p := m.inMatrix
  let offset := st.1.getD p
  (some offset, st.2 ++ [offset⁻¹ * p])

/-- The stored poses after a list of messages. -/
def storedOdom (ms : List OdomPose) : List Pose4 := (ms.foldl storeOdomPose (none, [])).2

end
end Verif
