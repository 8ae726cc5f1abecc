import Verif.Model.Euler
/-
builder/map_builder.cc:369-390: when a matched cloud becomes a key frame.
Real numbers instead of `double`; the conversion to `float` is a parameter.
-/
namespace Verif
noncomputable section

/-- builder/map_builder.h:79-83 `motion_filter`. -/
structure MotionOptions where
  translationRange : ℝ := 35 / 100
  angleRange : ℝ := 3 / 2
  timeRange : ℝ := 0

/-- `Eigen::Vector3d::norm`. -/
def norm3d (t : Fin 3 → ℝ) : ℝ := Real.sqrt (t 0 ^ 2 + t 1 ^ 2 + t 2 ^ 2)

/-- The literal `1e-3` of line 381, a `double`: the nearest one is this much above a thousandth. -/
def angleOff : ℝ := 1152921504606847 / 1152921504606846976

/-- builder/map_builder.cc:369-383: the condition of inserting a new key frame.  `single` converts to
`float`; `elapsed`, the time since the newest key frame, is not looked at. -/
def keyCondition (single : ℝ → ℝ) (o : MotionOptions) (_elapsed : ℝ) (T : RTransform) : Prop :=
  let accuTranslation := single (norm3d T.trans)
  let e := toEuler T.rot
  let accuAngles := single ((|e.x| + |e.y| + |e.z|) * (180 / Real.pi))
  o.translationRange ≤ accuTranslation ∨ (angleOff < o.angleRange ∧ o.angleRange ≤ accuAngles)

/-- The product of two transforms. -/
def RTransform.mul (a b : RTransform) : RTransform :=
  ⟨a.rot * b.rot, a.rot.mulVec b.trans + a.trans⟩

open Classical in
/-- builder/map_builder.cc:349, 369-390: poses of the matched clouds, and whether they become key
frames; a round is the result of the matcher and the time since the newest key frame. -/
def keyRounds (single : ℝ → ℝ) (o : MotionOptions) : RTransform → List (RTransform × ℝ) → List (RTransform × Bool)
  | _, [] => []
  | target, (align, elapsed) :: rest =>
    let source := target.mul align
    if keyCondition single o elapsed align then
      (source, true) :: keyRounds single o source rest
    else
      (source, false) :: keyRounds single o target rest

end
end Verif
