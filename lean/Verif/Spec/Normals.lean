import Verif.Model.Normals
namespace Verif.Spec

/-- What normal estimation should do, given how the points were grouped: one output point per
accepted group, in increasing order of the group's first point, carrying the mean and normal of
the group's *original* points. -/
structure NormalResult {P N : Type} (E : Estimator P N) (pts : List P)
    (groups : List (List Nat)) (outPts : List P) (outNormals : List N) : Prop where
  /-- every point index is in exactly one group, once -/
  partition : groups.flatten.Perm (List.range pts.length)
  /-- group sizes -/
  sizes : ∀ g ∈ groups, 1 ≤ g.length ∧ g.length ≤ 7
  /-- the chosen groups in output order -/
  output : ∃ chosen : List (Nat × List P),
    (chosen.map Prod.fst).Pairwise (· < ·) ∧
    (∀ k ps, (k, ps) ∈ chosen ↔ ∃ g ∈ groups, g.head? = some k ∧
        g.map (fun i => pts[i]?) = ps.map some ∧ E.rankOk ps = true) ∧
    outPts = chosen.map (fun c => E.mean c.2) ∧ outNormals = chosen.map (fun c => E.normal c.2)

end Verif.Spec
