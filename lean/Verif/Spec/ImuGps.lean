import Verif.Model.ImuGps
/- What a history of IMU messages and GPS positions should become. -/
namespace Verif.Spec

/-- The IMU messages' stamps, in order. -/
def imuStampsOf (es : List TrackEvent) : List Nat :=
  es.filterMap fun e => match e with
    | .imu _ _ s => some s
    | .gps _ => none

/-- The GPS positions, in order. -/
def fixesOf (es : List TrackEvent) : List (Vec3 Rat) :=
  es.filterMap fun e => match e with
    | .imu _ _ _ => none
    | .gps p => some p

/-- The history cut at the GPS positions: what was measured before each of them (since the one before), and what
was measured after the last. -/
def cutAtFixes (es : List TrackEvent) : List (List (Vec3 Rat × Vec3 Rat)) × List (Vec3 Rat × Vec3 Rat) :=
  es.foldl (fun c e => match e with
    | .imu a g _ => (c.1, c.2 ++ [(a, g)])
    | .gps _ => (c.1 ++ [c.2], [])) ([], [])

/-- Seconds from each stamp to the next, the first one counted as `period`. -/
def stampSteps (period : Rat) : List Nat → List Rat
  | [] => []
  | s :: l => period :: (List.zipWith (fun a b : Nat => ((b : Rat) - a) / 1000000000) (s :: l) l)

/-- A chain of nodes: node `k` tied to node `k-1` by what was measured in between, and to its GPS position. -/
def trackChain {S B : Type} (gravity : Rat) : Nat → List (List ImuPiece × B × Vec3 Rat) → List (TrackFactor S B)
  | _, [] => []
  | k, (pieces, bias, pos) :: l =>
    .imu k (k + 1) k pieces bias gravity :: .sameBias k (k + 1) :: .gps (k + 1) pos :: trackChain gravity (k + 1) l

/-- The keys of `n` nodes. -/
def trackKeys (n : Nat) : List TrackKey :=
  (List.range n).flatMap fun k => [.pose k, .vel k, .bias k]

end Verif.Spec
