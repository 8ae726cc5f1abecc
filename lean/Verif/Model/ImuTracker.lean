import Verif.Model.IcpStep
/-! The IMU tracker: orientation and gravity.

Models `builder/imu_tracker.cc` 31-76. Arithmetic is over the real numbers, times are in seconds.
`Eigen::Quaternion::FromTwoVectors` is modelled as in Eigen 3; for opposite vectors it takes an axis
from a singular value decomposition, which is a parameter. -/
namespace Verif
noncomputable section

/-- The members of `ImuTracker`. -/
structure ImuState where
  time : ℝ
  /-- `last_linear_acceleration_time_`; zero if there was none -/
  lastAcc : ℝ
  o : Quat
  g : Fin 3 → ℝ
  omega : Fin 3 → ℝ

/-- Lines 31-38. -/
def imuStart (t : ℝ) : ImuState := ⟨t, 0, ⟨1, 0, 0, 0⟩, ![0, 0, 1], 0⟩

def Quat.conj (q : Quat) : Quat := ⟨q.w, -q.x, -q.y, -q.z⟩
def Quat.norm (q : Quat) : ℝ := Real.sqrt (q.w ^ 2 + q.x ^ 2 + q.y ^ 2 + q.z ^ 2)
/-- `normalized()`. -/
def Quat.normalize (q : Quat) : Quat :=
  if q.norm > 0 then ⟨q.w / q.norm, q.x / q.norm, q.y / q.norm, q.z / q.norm⟩ else q
/-- `q * v`. -/
def Quat.act (q : Quat) (v : Fin 3 → ℝ) : Fin 3 → ℝ := q.toMat.mulVec v
/-- `v.normalized()`. -/
def normalize3 (v : Fin 3 → ℝ) : Fin 3 → ℝ := if norm3 v > 0 then fun i => v i / norm3 v else v

/-- `Eigen::Quaterniond::FromTwoVectors(a, b)`; `axis` is the third right singular vector of the matrix
of two rows. -/
def fromTwoVectors (axis : (Fin 3 → ℝ) → (Fin 3 → ℝ) → Fin 3 → ℝ) (a b : Fin 3 → ℝ) : Quat :=
  let v0 := normalize3 a
  let v1 := normalize3 b
  let c := v1 0 * v0 0 + v1 1 * v0 1 + v1 2 * v0 2
  if c < -1 + 1e-12 then
    let c := max c (-1)
    let w2 := (1 + c) * 0.5
    let s := Real.sqrt (1 - w2)
    ⟨Real.sqrt w2, axis v0 v1 0 * s, axis v0 v1 1 * s, axis v0 v1 2 * s⟩
  else
    let x := icpCross v0 v1
    let s := Real.sqrt ((1 + c) * 2)
    let i := 1 / s
    ⟨s * 0.5, x 0 * i, x 1 * i, x 2 * i⟩

/-- What happens to a tracker. -/
inductive ImuEvent where
  | advance (t : ℝ)
  | acceleration (a : Fin 3 → ℝ)
  | rotation (w : Fin 3 → ℝ)

/-- The share of a new acceleration (lines 54-58). -/
def imuAlpha (tau : ℝ) (s : ImuState) : ℝ :=
  if s.lastAcc > 0 then 1 - Real.exp (-(s.time - s.lastAcc) / tau) else 1

/-- The new gravity vector (lines 59-60). -/
def imuGravity (tau : ℝ) (s : ImuState) (a : Fin 3 → ℝ) : Fin 3 → ℝ :=
  fun i => (1 - imuAlpha tau s) * s.g i + imuAlpha tau s * a i

open Classical in
/-- `Advance` (40-48), `AddImuLinearAccelerationObservation` (50-69),
`AddImuAngularVelocityObservation` (71-74). -/
def imuStep (axis : (Fin 3 → ℝ) → (Fin 3 → ℝ) → Fin 3 → ℝ) (tau : ℝ) (s : ImuState) : ImuEvent → Outcome ImuState
  | .advance t => do
    Outcome.check (s.time ≤ t)
    let dt := t - s.time
    let r := eulerQuat ⟨s.omega 0 * dt, s.omega 1 * dt, s.omega 2 * dt⟩
    return { s with o := (s.o.mul r).normalize, g := r.conj.act s.g, time := t }
  | .acceleration a => do
    let g := imuGravity tau s a
    let r := fromTwoVectors axis g (s.o.conj.act ![0, 0, 1])
    let o := (s.o.mul r).normalize
    Outcome.check (o.act g 2 > 0)
    Outcome.check (normalize3 (o.act g) 2 > 0.99)
    return { s with lastAcc := s.time, g := g, o := o }
  | .rotation w => return { s with omega := w }

/-- A history. -/
def imuRun (axis : (Fin 3 → ℝ) → (Fin 3 → ℝ) → Fin 3 → ℝ) (tau : ℝ) : ImuState → List ImuEvent → Outcome ImuState
  | s, [] => .ok s
  | s, e :: es => do
    let s ← imuStep axis tau s e
    imuRun axis tau s es

end
end Verif
