import Verif.Model.IcpStep
import Mathlib.LinearAlgebra.Matrix.Determinant.Basic
/-! The point-to-point step of the fast ICP.

Models `registrators/icp_fast.cc` 326-375 (`ComputePointToPoint`, which `Align` does not call: it takes the point-to-plane step).
The decomposition `JacobiSVD` is a parameter; arithmetic is over the real numbers. -/
namespace Verif
noncomputable section

/-- Lines 337-347: the weighted mean of points; `inv` is `1. / w.sum()`. -/
def weightedMean (l : List IcpPair) (pt : IcpPair → Fin 3 → ℝ) (inv : ℝ) : Fin 3 → ℝ :=
  fun i => (l.map fun e => pt e i * e.w).sum * inv

/-- Lines 350-351: the mean is taken off the points of both clouds, in place. -/
def centred (l : List IcpPair) (mp mq : Fin 3 → ℝ) : List IcpPair :=
  l.map fun e => { e with p := fun i => e.p i - mp i, q := fun i => e.q i - mq i }

/-- Lines 354-355: `target * w.asDiagonal() * source.transpose()`. -/
def crossMatrix (l : List IcpPair) : Mat3 := fun i j => (l.map fun e => e.q i * e.w * e.p j).sum

/-- Lines 365-366: the last row with its sign changed. -/
def flipLast (V : Mat3) : Mat3 := fun i j => if i = 2 then V i j * (-1) else V i j

/-- Lines 358-368; `svd` gives `matrixU()` and `matrixV()`. -/
def svdRotation (svd : Mat3 → Mat3 × Mat3) (m : Mat3) : Mat3 :=
  let U := (svd m).1
  let V := (svd m).2
  if Matrix.det (U * V.transpose) < 0 then U * flipLast V.transpose
  else U * V.transpose

open Classical in
/-- icp_fast.cc:326-375 `ComputePointToPoint` : rotation and translation, with the clouds as they are left behind.  `none`
stands for values that are not numbers. -/
def pointToPoint (svd : Mat3 → Mat3 × Mat3) (l : List IcpPair) : Option ((Mat3 × (Fin 3 → ℝ)) × List IcpPair) :=
  if (l.map fun e => e.w).sum = 0 then none
  else
    let inv := 1 / (l.map fun e => e.w).sum
    let mp := weightedMean l IcpPair.p inv
    let mq := weightedMean l IcpPair.q inv
    let l' := centred l mp mq
    let R := svdRotation svd (crossMatrix l')
    some ((R, fun i => mq i - R.mulVec mp i), l')

end
end Verif
