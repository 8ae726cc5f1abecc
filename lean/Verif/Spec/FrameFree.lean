import Verif.Model.Standing
/-! Specification for C136: a map kept in another frame. -/
namespace Verif.Spec
noncomputable section

/-- The target cloud in another frame: points are turned and moved, normals turned. -/
def inFrame (R : Mat3) (v : Fin 3 → ℝ) (tgt : List ((Fin 3 → ℝ) × (Fin 3 → ℝ))) : List ((Fin 3 → ℝ) × (Fin 3 → ℝ)) :=
  tgt.map fun t => (fun i => R.mulVec t.1 i + v i, R.mulVec t.2)

/-- The three things `Align` calls look at distances and angles only: the search, the share of a motion and the test of
convergence do not change when everything is turned by `R`. -/
structure SeesNoFrame (s : IcpSetup) (R : Mat3) : Prop where
  search : ∀ ts p, s.search (ts.map R.mulVec) (R.mulVec p) = s.search ts p
  share : ∀ f T, s.share f (motionOf (R, 0) * T * (motionOf (R, 0))⁻¹) = motionOf (R, 0) * s.share f T * (motionOf (R, 0))⁻¹
  conv : ∀ h : List Motion3, s.conv (h.map fun T => motionOf (R, 0) * T * (motionOf (R, 0))⁻¹) = s.conv h

end
end Verif.Spec
