import Verif.Model.ImuTracker
/-! The poses of a frame and how they are kept rotations.

Models `common/math.h` 239-246 (`NormalizeRotation`), `builder/frame_base.cc` 29-63 (the pose getters
and setters, shared by frames and submaps) and `builder/frame_base.h` 56-57 (the poses of a new
frame). Numbers are real numbers. `Eigen::Quaternion(Matrix3)` is modelled after Eigen 3's
`quaternionbase_assign_impl`; `normalized()` and `toRotationMatrix()` are `Quat.normalize` and
`Quat.toMat`. -/
namespace Verif
noncomputable section

abbrev Pose4 := Matrix (Fin 4) (Fin 4) ℝ

/-- `block(0, 0, 3, 3)`. -/
def rotBlock (t : Pose4) : Mat3 := fun i j => t i.castSucc j.castSucc

/-- `block(0, 3, 3, 1)`. -/
def transBlock (t : Pose4) : Fin 3 → ℝ := fun i => t i.castSucc 3

/-- Assignment to `block(0, 0, 3, 3)`; the other entries stay. -/
def setRotBlock (t : Pose4) (r : Mat3) : Pose4 := fun i j =>
  if h : i.val < 3 ∧ j.val < 3 then r ⟨i.val, h.1⟩ ⟨j.val, h.2⟩ else t i j

/-- The quaternion of a matrix as computed by Eigen, for matrices that need not be rotations. -/
def quatOfMat (m : Mat3) : Quat :=
  let t := m 0 0 + m 1 1 + m 2 2
  if t > 0 then
    let s := Real.sqrt (t + 1)
    let f := 1 / 2 / s
    ⟨1 / 2 * s, (m 2 1 - m 1 2) * f, (m 0 2 - m 2 0) * f, (m 1 0 - m 0 1) * f⟩
  else
    let i : Fin 3 := if m 1 1 > m 0 0 then 1 else 0
    let i : Fin 3 := if m 2 2 > m i i then 2 else i
    let j := i + 1
    let k := j + 1
    let s := Real.sqrt (m i i - m j j - m k k + 1)
    let f := 1 / 2 / s
    let c : Fin 3 → ℝ := fun a => if a = i then 1 / 2 * s else (m a i + m i a) * f
    ⟨(m k j - m j k) * f, c 0, c 1, c 2⟩

/-- `NormalizeRotation`, lines 239-246. -/
def normalizeRotation (t : Pose4) : Pose4 :=
  setRotBlock t (quatOfMat (rotBlock t)).normalize.toMat

/-- The poses of `FrameBase`. -/
structure FramePoses where
  global : Pose4
  loc : Pose4

/-- `frame_base.h` 56-57. -/
def FramePoses.new : FramePoses := ⟨1, 1⟩

/-- A call of `SetGlobalPose` (47-50) or `SetLocalPose` (58-61). -/
inductive PoseCall where
  | setGlobal (t : Pose4)
  | setLocal (t : Pose4)

def FramePoses.call (f : FramePoses) : PoseCall → FramePoses
  | .setGlobal t => { f with global := normalizeRotation t }
  | .setLocal t => { f with loc := normalizeRotation t }

end
end Verif
