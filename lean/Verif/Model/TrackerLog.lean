import Verif.Model.ImuQueue
import Verif.Model.ImuTracker
/-! The inertial tracker behind the calls that `ImuQueue` records. -/
namespace Verif
noncomputable section

/-- simple_time.h:113-115 (`ToSec`), exact. -/
def stampSec (t : Nat) : ℝ := (t : ℝ) / 1000000000

/-- pose_extrapolator.cc:256-285: what a recorded call does to the tracker.  A message carries acceleration and turn rate; the turn rate
of a pretended message (265-267) is one value `w` here. -/
def trackEvents (w : Fin 3 → ℝ) : TrackOp ((Fin 3 → ℝ) × (Fin 3 → ℝ)) → List ImuEvent
  | .advance t => [.advance (stampSec t)]
  | .message m => [.acceleration m.data.1, .rotation m.data.2]
  | .pretend => [.acceleration ![0, 0, 1], .rotation w]

/-- pose_extrapolator.cc:53-59: a tracker starts at the stamp of its first message; `f` takes its orientation as a rotation. -/
def trackerTurn {G : Type} (axis : (Fin 3 → ℝ) → (Fin 3 → ℝ) → Fin 3 → ℝ) (tau : ℝ) (w : Fin 3 → ℝ) (f : Outcome ImuState → G) :
    List (TrackOp ((Fin 3 → ℝ) × (Fin 3 → ℝ))) → G
  | .message m :: l => f (imuRun axis tau (imuStart (stampSec m.stamp)) ((.message m :: l).flatMap (trackEvents w)))
  | _ => f .ub
end
end Verif
