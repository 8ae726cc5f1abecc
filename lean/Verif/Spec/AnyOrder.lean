import Verif.Model.Standing
/-! Specification for C137: the points of a cloud in another order. -/
namespace Verif.Spec
noncomputable section

/-- The search finds the same target point for `p`, with the same distance, in two listings of one target cloud: the nearest
point is one point, not one of several. -/
def SameNeighbour (s : IcpSetup) (tgt tgt' : List ((Fin 3 → ℝ) × (Fin 3 → ℝ))) (p : Fin 3 → ℝ) : Prop :=
  (s.search (tgt.map Prod.fst) p).dist = (s.search (tgt'.map Prod.fst) p).dist ∧
    tgt[(s.search (tgt.map Prod.fst) p).id]? = tgt'[(s.search (tgt'.map Prod.fst) p).id]?

/-- Where the points of the scan are looked for when the estimate is `T` (in the frame around the mean of the target). -/
def lookedFor (s : IcpSetup) (mean guess T : Motion3) (p : (Fin 3 → ℝ) × ℝ) : Fin 3 → ℝ :=
  (if s.comp then s.share p.2 T else T) (mean⁻¹ (guess p.1))

end
end Verif.Spec
