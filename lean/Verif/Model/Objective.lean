import Mathlib.Analysis.InnerProductSpace.PiL2
import Verif.Model.Isam
/-
back_end/isam_optimizer.cc: how strongly the constraints given to the optimiser count.

The numerical optimiser (gtsam) is not modelled; this is the sum it is asked to make small, for
vehicles that do not turn: all rotations are the identity, so a pose is a shift (an element of `V`,
space), composing poses adds the shifts and the error of a constraint is the difference of two
shifts.  With GPS and odometry off the optimiser is given constraints on poses only.
-/
namespace Verif
noncomputable section
variable {V E : Type} [NormedAddCommGroup V] [InnerProductSpace ℝ V]

/-- isam_optimizer.cc:79: `prior_noise_model_`. -/
def priorSigma : ℝ := 1 / 1000000
/-- isam_optimizer.cc:81-82: `frame_match_noise_model_`, the part for shifts (the last three). -/
def matchSigma : ℝ := 15 / 100
/-- isam_optimizer.cc:83-84: `loop_closure_noise_model_`, the part for shifts. -/
def loopSigma : ℝ := 15 / 100

/-- The error of a constraint: 151-153 (the first pose), 166-168 `between(i - 1, i)` and 130-133
`between(target, source)`.  Constraints on other variables do not count here. -/
def factorCost (x : Nat → V) : IsamFactor V E → ℝ
  | .prior i p => (‖x i - p‖ / priorSigma) ^ 2
  | .step i t => (‖x i - x (i - 1) - t‖ / matchSigma) ^ 2
  | .loop a b t => (‖x b - x a - t‖ / loopSigma) ^ 2
  | .gps _ _ => 0
  | .gpsCoordPrior => 0
  | .gpsCalibPrior => 0
  | .odomCalibPrior => 0
  | .odom _ _ => 0

/-- What the optimiser makes small (gtsam: half the sum of the squared errors). -/
def mapCost (fs : List (IsamFactor V E)) (x : Nat → V) : ℝ := (fs.map (factorCost x)).sum / 2

/-- isam_optimizer.cc:295-328 `SolveGpsCorrdAlone`: the sum made small there.  `c` is the shift from
the map to the ENU frame, `p` the poses of the cached frames, `est` their estimates, `arm` the place
of the antenna on the vehicle.  Lines 304-307: the shift so far, which is the identity (a default
`Pose3`), counts with 20 m; 308 and 320-321: the poses count with 1 cm; 80 and 324-327: GPS with
15 cm. -/
def gpsStartCost (arm : V) (est : Nat → V) (cached : List (Nat × V)) (c : V) (p : Nat → V) : ℝ :=
  ((‖c‖ / 20) ^ 2 + (cached.map fun g => (‖p g.1 - est g.1‖ / (1 / 100)) ^ 2 +
    (‖c + p g.1 + arm - g.2‖ / (15 / 100)) ^ 2).sum) / 2

end
end Verif
