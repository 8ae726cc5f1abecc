import Verif.Model.Euler
import Verif.Model.MathHelpers
import Mathlib.LinearAlgebra.Matrix.NonsingularInverse
/-
Matching a GPS track to the path in the map (back_end/deprecated/map_gps_matcher.{h,cc}), its cost
functions (builder/cost_functions/gps_map_match.h, odom_map_match.h) and the calibration of the odometer
(builder/deprecated/offline_calibration.cc).  Real numbers stand for doubles.  The least squares solution
of Eigen and the minimiser of Ceres are parameters.
-/
namespace Verif
noncomputable section

/-- A position or direction in two (`n = 0`) or three (`n = 1`) dimensions (`Eigen::VectorNd<DIM>`). -/
abbrev PathVec (n : Nat) := Fin (n + 2) → ℝ

abbrev PathMat (n : Nat) := Matrix (Fin (n + 2)) (Fin (n + 2)) ℝ

/-- One set of inserted data (map_gps_matcher.cc:39-47; the three vectors always have the same length). -/
structure TrackPoint (n : Nat) where
  enu : PathVec n
  map : PathVec n
  dir : PathVec n

/-- The blocks of the matrix that is returned; the rest of it is that of the identity
(map_gps_matcher.cc:237-239). -/
structure PathMove (n : Nat) where
  rot : PathMat n
  trans : PathVec n

/-- `Eigen::Matrix4d::Identity()`. -/
def PathMove.one (n : Nat) : PathMove n := ⟨1, 0⟩

/-- The pairs `i`, `i + half` (map_gps_matcher.cc:59-69). -/
def halfPairs {n : Nat} (l : List (TrackPoint n)) : List (TrackPoint n × TrackPoint n) :=
  (l.take (l.length / 2)).zip (l.drop (l.length / 2))

/-- `diff` (map_gps_matcher.cc:77-82). -/
def yawDiff {n : Nat} (m e : PathVec n) : ℝ :=
  if atan2 (m 1) (m 0) - atan2 (e 1) (e 0) < 0 then atan2 (m 1) (m 0) - atan2 (e 1) (e 0) + Real.pi * 2
  else atan2 (m 1) (m 0) - atan2 (e 1) (e 0)

/-- The loop that adds the yaw angles (map_gps_matcher.cc:62-85): their number and sum. -/
def yawLoop {n : Nat} : List (TrackPoint n × TrackPoint n) → Nat → ℝ → Outcome (Nat × ℝ)
  | [], num, sum => .ok (num, sum)
  | p :: ps, num, sum =>
    let m := p.2.map - p.1.map
    let e := p.2.enu - p.1.enu
    if Real.sqrt (m 0 ^ 2 + m 1 ^ 2) < 5 then yawLoop ps num sum
    else do
      Outcome.check (0 ≤ yawDiff m e ∧ yawDiff m e ≤ Real.pi * 2)
      yawLoop ps (num + 1) (sum + yawDiff m e)

/-- `rotation` of the first estimate (map_gps_matcher.cc:95-100). -/
def turnZ (n : Nat) (a : ℝ) : PathMat n := fun i j =>
  if i = 0 ∧ j = 0 then Real.cos a
  else if i = 0 ∧ j = 1 then -Real.sin a
  else if i = 1 ∧ j = 0 then Real.sin a
  else if i = 1 ∧ j = 1 then Real.cos a
  else if i = j then 1 else 0

/-- `translation` of the first estimate (map_gps_matcher.cc:103-112). -/
def averageShift {n : Nat} (rot : PathMat n) (ps : List (TrackPoint n × TrackPoint n)) : PathVec n :=
  (1 / (ps.length : ℝ)) • (ps.map fun p =>
    (1 / 2 : ℝ) • (p.2.map + p.1.map) - (1 / 2 : ℝ) • rot.mulVec (p.2.enu + p.1.enu)).sum

/-- The first estimate of rotation and translation, `none` if there is none
(map_gps_matcher.cc:52-112). -/
def firstEstimate {n : Nat} (l : List (TrackPoint n)) : Outcome (Option (PathMat n × PathVec n)) :=
  if l = [] then .ok none
  else do
    let r ← yawLoop (halfPairs l) 0 0
    if 0 < r.1 then
      return some (turnZ n (r.2 / r.1), averageShift (turnZ n (r.2 / r.1)) (halfPairs l))
    else return none

/-- The result for an estimate (map_gps_matcher.cc:237-239). -/
def moveBack {n : Nat} (rot : PathMat n) (trans : PathVec n) : PathMove n := ⟨rot⁻¹, -(rot⁻¹.mulVec trans)⟩

/-- `n_m` (map_gps_matcher.cc:163-166). -/
def pathNormal (d : PathVec 0) : PathVec 0 :=
  let m : PathVec 0 := ![-d 1, d 0]
  if 0 < Real.sqrt (m 0 ^ 2 + m 1 ^ 2) then (1 / Real.sqrt (m 0 ^ 2 + m 1 ^ 2)) • m else m

/-- A row of the system of equations and its right hand side (map_gps_matcher.cc:161-172). -/
def pathRow (rot : PathMat 0) (trans : PathVec 0) (p : TrackPoint 0) : (Fin 3 → ℝ) × ℝ :=
  let q := rot.mulVec p.enu + trans
  let m := pathNormal p.dir
  (![q 0 * m 1 - q 1 * m 0, m 0, m 1], m 0 * (p.map 0 - q 0) + m 1 * (p.map 1 - q 1))

/-- `delta_r` (map_gps_matcher.cc:179-181). -/
def plainTurn (a : ℝ) : PathMat 0 := !![Real.cos a, -Real.sin a; Real.sin a, Real.cos a]

/-- The iterations in two dimensions (map_gps_matcher.cc:157-195), at most `fuel` of them. -/
def pathIterate (solve : List ((Fin 3 → ℝ) × ℝ) → Fin 3 → ℝ) (l : List (TrackPoint 0)) :
    Nat → PathMat 0 → PathVec 0 → PathMat 0 × PathVec 0
  | 0, rot, t => (rot, t)
  | fuel + 1, rot, t =>
    let s := solve (l.map (pathRow rot t))
    let dr := plainTurn (s 0)
    let dt : PathVec 0 := ![s 1, s 2]
    if Real.sqrt (dt 0 ^ 2 + dt 1 ^ 2) < 1 / 10000000000 ∧
        Real.sqrt ((dr 0 0 - 1) ^ 2 + dr 0 1 ^ 2 + dr 1 0 ^ 2 + (dr 1 1 - 1) ^ 2) < 1 / 10000000000 then
      (dr * rot, dr.mulVec t + dt)
    else pathIterate solve l fuel (dr * rot) (dr.mulVec t + dt)

/-- `MapGpsMatcher<2>::RunMatch` without the output files (map_gps_matcher.cc:50-251). -/
def matchPlane (solve : List ((Fin 3 → ℝ) × ℝ) → Fin 3 → ℝ) (l : List (TrackPoint 0)) : Outcome (PathMove 0) := do
  match ← firstEstimate l with
  | none => return PathMove.one 0
  | some e =>
    let r := pathIterate solve l 100 e.1 e.2
    return moveBack r.1 r.2

/-- The residual of `GpsEnuToMapPathNormal` (gps_map_match.h:76-91). -/
def normalResidual (trans : PathVec 0) (a : ℝ) (p : TrackPoint 0) : ℝ :=
  let d : EuclideanSpace ℝ (Fin 2) := WithLp.toLp 2 ((plainTurn a).mulVec p.enu + trans - p.map)
  let normal : EuclideanSpace ℝ (Fin 2) := WithLp.toLp 2 p.dir
  ‖d - (inner ℝ d normal : ℝ) • unitOf normal‖

/-- The residual of `GpsEnuToMap3D` (gps_map_match.h:116-135). -/
def spaceResidual (trans : Fin 3 → ℝ) (e : Euler) (p : TrackPoint 1) : ℝ :=
  let dir := unitOf (WithLp.toLp 2 p.dir : EuclideanSpace ℝ (Fin 3))
  let a : EuclideanSpace ℝ (Fin 3) := WithLp.toLp 2 ((fromEuler e).mulVec p.enu + trans - p.map)
  ‖a - (inner ℝ a dir : ℝ) • dir‖

/-- `MapGpsMatcher<3>::RunMatch` without the output files (map_gps_matcher.cc:50-251). -/
def matchSpace (minimise : List (TrackPoint 1) → (Fin 3 → ℝ) × Euler → (Fin 3 → ℝ) × Euler)
    (l : List (TrackPoint 1)) : Outcome (PathMove 1) := do
  match ← firstEstimate l with
  | none => return PathMove.one 1
  | some e =>
    let r := minimise l (e.2, toEuler e.1)
    return moveBack (fromEuler r.2) r.1

/-- A rigid transform as a 4x4 matrix. -/
def mat4 (R : Mat3) (t : Fin 3 → ℝ) : Matrix (Fin 4) (Fin 4) ℝ :=
  !![R 0 0, R 0 1, R 0 2, t 0; R 1 0, R 1 1, R 1 2, t 1; R 2 0, R 2 1, R 2 2, t 2; 0, 0, 0, 1]

/-- The residual of `OdomToMapPath` (odom_map_match.h:43-68). -/
def odomResidual (trans : Fin 3 → ℝ) (e : Euler) (map dir : Fin 3 → ℝ) (odom : Matrix (Fin 4) (Fin 4) ℝ) : ℝ :=
  let T := mat4 (fromEuler e) trans
  let O := T⁻¹ * odom * T
  let d := unitOf (WithLp.toLp 2 dir : EuclideanSpace ℝ (Fin 3))
  let a : EuclideanSpace ℝ (Fin 3) := WithLp.toLp 2 (![O 0 3, O 1 3, O 2 3] - map)
  ‖a - (inner ℝ a d : ℝ) • d‖

/-- `direction` of a submap (offline_calibration.cc:58-63). -/
def submapDirection (R : Mat3) : Fin 3 → ℝ :=
  let e := toEuler R
  ![Real.cos e.z * Real.cos e.y, Real.sin e.z * Real.cos e.y, Real.sin e.y]

/-- What the calibration uses of a submap: its pose and the odometer pose, if it has one. -/
structure CalibSubmap where
  rot : Mat3
  trans : Fin 3 → ℝ
  odom : Option (Matrix (Fin 4) (Fin 4) ℝ)

/-- One term of the calibration problem: position, direction and odometer pose. -/
structure CalibTerm where
  map : Fin 3 → ℝ
  dir : Fin 3 → ℝ
  odom : Matrix (Fin 4) (Fin 4) ℝ

/-- The terms (offline_calibration.cc:46-68). -/
def calibTerms : List CalibSubmap → List CalibTerm
  | [] => []
  | s :: ss =>
    match s.odom with
    | none => calibTerms ss
    | some o => ⟨s.trans, submapDirection s.rot, o⟩ :: calibTerms ss

/-- `OfflineCalibrationOdomToLidar` (offline_calibration.cc:33-106): the rotation and translation of the
result, `none` when it returns false. -/
def calibrate (minimise : List CalibTerm → (Fin 3 → ℝ) × Euler → (Fin 3 → ℝ) × Euler) (submaps : List CalibSubmap)
    (init : RTransform) : Option RTransform :=
  if submaps.length ≤ 1 then none
  else if calibTerms submaps = [] then none
  else
    let r := minimise (calibTerms submaps) ((toPose6 init).trans, (toPose6 init).angles)
    some ⟨fromEuler r.2, r.1⟩

/-- `OutputError` drops the heights in space (map_gps_matcher.cc:267-272). -/
def dropHeight {n : Nat} (v : PathVec n) : PathVec n := fun i => if n = 1 ∧ (i : Nat) = 2 then 0 else v i

/-- One line of the file written by `OutputError` (map_gps_matcher.cc:250-275), before it is printed with six
decimals: the distance of a GPS position, moved with the result `r`, from the path. -/
def trackError {n : Nat} (r : PathMove n) (p : TrackPoint n) : ℝ :=
  distanceToLine (WithLp.toLp 2 (dropHeight (r.rot⁻¹.mulVec (p.enu - r.trans))) : EuclideanSpace ℝ (Fin (n + 2)))
    (WithLp.toLp 2 (dropHeight p.map)) (WithLp.toLp 2 (dropHeight p.dir))

end
end Verif
