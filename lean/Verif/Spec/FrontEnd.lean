import Verif.Model.FrontEnd
/-
What a user expects of the front end, in terms of the list of placed clouds (newest first).
-/
namespace Verif.Spec
open Verif

variable {G C : Type} [Group G]

/-- The cloud given to the program. -/
def rawOf : FeEntry G C → C
  | .late raw => raw
  | .placed raw _ _ _ _ => raw

/-- The newest key frame: its stored cloud and pose. -/
def newestKey : List (FeEntry G C) → Option (C × G)
  | [] => none
  | .placed _ _ pose cloud true :: _ => some (cloud, pose)
  | _ :: l => newestKey l

/-- The pose of the newest placed cloud. -/
def newestPose : List (FeEntry G C) → Option G
  | [] => none
  | .placed _ _ pose _ _ :: _ => some pose
  | .late _ :: l => newestPose l

/-- The key frames, oldest first, of a list of entries given oldest first. -/
def keyFrames : List (FeEntry G C) → List (C × G)
  | [] => []
  | .placed _ _ pose cloud true :: l => (cloud, pose) :: keyFrames l
  | _ :: l => keyFrames l

/-- `cloud` is `raw` with the motion `m` removed, if that is switched on. -/
def Moved (cfg : FeCfg G C) (m : G) (raw cloud : C) : Prop :=
  if cfg.compensate then cfg.comp m raw = .ok cloud else cloud = raw

/-- What the matcher's answer becomes: the mean with the guess if that is switched on. -/
def Kept (cfg : FeCfg G C) (answer guess result : G) : Prop :=
  match cfg.compensate, cfg.average with
  | true, some avg => result = avg answer guess
  | _, _ => result = answer

/-- One cloud is placed correctly after the clouds `hist` (newest first), when the extrapolator
predicted the pose `pred`:
* the first cloud is a key frame at the origin;
* any other cloud is matched against the stored cloud of the newest key frame, starting from the
  prediction relative to it; its pose is the key frame's pose times the (averaged) result; the
  motion removed from it is the motion since the cloud before it; it becomes a key frame exactly
  if it moved far enough from the newest key frame. -/
def PlacedWell (cfg : FeCfg G C) (hist : List (FeEntry G C)) (pred : G) : FeEntry G C → Prop
  | .late _ => False
  | .placed raw reference pose cloud inserted =>
    (hist = [] ∧ reference = none ∧ pose = 1 ∧ cloud = raw ∧ inserted = true) ∨
    ∃ keyCloud keyPose before source result,
      newestKey hist = some (keyCloud, keyPose) ∧ newestPose hist = some before ∧
      reference = some keyCloud ∧
      Moved cfg (before⁻¹ * pred) raw source ∧
      Kept cfg (cfg.align keyCloud source (keyPose⁻¹ * pred)) (keyPose⁻¹ * pred) result ∧
      pose = keyPose * result ∧
      Moved cfg (before⁻¹ * pose) raw cloud ∧
      inserted = cfg.key (keyPose⁻¹ * pose)

/-- All clouds of a list (oldest first) are placed correctly one after the other. -/
def AllPlacedWell (cfg : FeCfg G C) (preds : List G) :
    List (FeEntry G C) → List (FeEntry G C) → Prop
  | _, [] => True
  | hist, e :: l => (∃ pred ∈ preds, PlacedWell cfg hist pred e) ∧ AllPlacedWell cfg preds (e :: hist) l

/-- The clouds that arrive, with their stamps. -/
def arrivals : List (FeEvent G C) → List (C × Nat)
  | [] => []
  | .arrive c t :: es => (c, t) :: arrivals es
  | .round _ :: es => arrivals es

/-- The predictions of the extrapolator. -/
def predictions : List (FeEvent G C) → List G
  | [] => []
  | .arrive _ _ :: es => predictions es
  | .round p :: es => p :: predictions es

end Verif.Spec
