import Mathlib.Analysis.SpecialFunctions.Trigonometric.Inverse
import Mathlib.Data.List.Sort
import Verif.Model.Outcome
import Verif.Model.LoopCheck
/-!
When the optimiser first solves for the GPS frame: `IsamOptimizer::AnalyseAllFramePoseForMaxRotation`
and the decision in `IsamOptimizer::AddFrame` (`back_end/isam_optimizer.cc`).

Simplifications: the numbers are real numbers, so the sine and cosine of an angle are exact; that
the stored rotation matrices are rounded is represented by allowing any matrix. The queue of
factors and the update of the incremental optimiser are in `Verif.Model.Isam`.
-/
namespace Verif

/-- `x_norm` (isam_optimizer.cc:182). -/
def xNorm : Fin 3 → ℝ := fun i => if i = 0 then 1 else 0

/-- `std::fabs(std::acos(v0.dot(v_f)))` (isam_optimizer.cc:187); `none` is NaN, which `acos` returns
for an argument outside [-1, 1]. -/
noncomputable def turnOf (v0 vf : Fin 3 → ℝ) : Option ℝ :=
  let d := dotProduct v0 vf
  if -1 ≤ d ∧ d ≤ 1 then some |Real.arccos d| else none

/-- The loop over the frames (isam_optimizer.cc:185-188), all of it a number or not. -/
noncomputable def turnsOf (v0 : Fin 3 → ℝ) : List (Matrix (Fin 3) (Fin 3) ℝ) → Option (List ℝ)
  | [] => some []
  | r :: rs =>
    match turnOf v0 (r.mulVec xNorm), turnsOf v0 rs with
    | some a, some l => some (a :: l)
    | _, _ => none

/-- `AnalyseAllFramePoseForMaxRotation` (isam_optimizer.cc:173-193) on the rotations of the frames.
`std::sort` of a list with a NaN has undefined behaviour, because `<` is then not a strict weak
order. -/
noncomputable def maxTurn (rots : List (Matrix (Fin 3) (Fin 3) ℝ)) : Outcome ℝ :=
  match rots with
  | [] => .ok 0
  | [_] => .ok 0
  | r0 :: _ :: _ =>
    match turnsOf (r0.mulVec xNorm) rots with
    | none => .ub
    | some l =>
      match (l.insertionSort (· ≤ ·)).getLast? with
      | some m => .ok m
      | none => .ub

/-- Whether the GPS frame is solved now (isam_optimizer.cc:270-273). `cached_enu_.size()` is
unsigned, so a negative `gps_factor_init_num` compares as a huge number. -/
noncomputable def gpsSolveNow (initNum : Int) (angle : ℝ) (cached : Nat)
    (rots : List (Matrix (Fin 3) (Fin 3) ℝ)) : Outcome Bool :=
  if initNum < 0 ∨ (cached : Int) < initNum then .ok false
  else do
    let m ← maxTurn rots
    return !decide (m < angle)

/-- A frame as `AddFrame` meets it: its GPS reading, if it has one, and the poses of all frames
including itself at that moment (`loop_detector_->GetFrames()`). -/
structure GpsInitStep where
  reading : Option (Fin 3 → ℝ)
  poses : List (Rigid ℝ)

/-- The GPS branch of `AddFrame` until the frame is solved (isam_optimizer.cc:268-285), from frame
`index` on with `cached` in the map: the frame at which it is solved and the readings used then. -/
noncomputable def gpsInitRun (initNum : Int) (angle : ℝ) :
    Nat → List (Nat × (Fin 3 → ℝ)) → List GpsInitStep →
      Outcome (Option (Nat × List (Nat × (Fin 3 → ℝ))))
  | _, _, [] => .ok none
  | index, cached, s :: ss =>
    match s.reading with
    | none => gpsInitRun initNum angle (index + 1) cached ss
    | some e => do
      let now ← gpsSolveNow initNum angle cached.length (s.poses.map (·.rot))
      if now then return some (index, cached)
      else gpsInitRun initNum angle (index + 1) (cached ++ [(index, e)]) ss

/-- Where the antenna of a vehicle at `pose` is expected: `transformFrom(compose(map_origin_in_gps,
pose), tracking_gps_translation)` (isam_optimizer.cc:249-255, 316-320), in GPS coordinates for the
frame `coord`. -/
noncomputable def antennaAt (coord pose : Rigid ℝ) (lever : Fin 3 → ℝ) : Fin 3 → ℝ :=
  fun i => ((coord.mul pose).rot.mulVec lever) i + (coord.mul pose).trans i

end Verif
