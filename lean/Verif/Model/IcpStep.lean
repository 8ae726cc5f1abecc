import Verif.Model.Euler
import Mathlib.Algebra.BigOperators.Fin
import Mathlib.Algebra.Order.BigOperators.Group.List
/-! One point-to-plane step of the fast ICP.

Models `registrators/icp_fast.cc` 181-201 (`CrossProduct`) and 252-323 (`ComputePointToPlane`). The
solver (`SolvePossiblyUnderdeterminedLinearSystem`, 203-250, see `LeastNorm`: a QR decomposition, with a reduced
system and an SVD for singular matrices) is a parameter. Arithmetic is over the real numbers. -/
namespace Verif
noncomputable section

/-- A matched pair: point, its target with normal, weight, and the point's fraction of the sweep. -/
structure IcpPair where
  p : Fin 3 → ℝ
  q : Fin 3 → ℝ
  n : Fin 3 → ℝ
  w : ℝ
  f : ℝ

/-- `CrossProduct` (lines 191-199), one column. -/
def icpCross (a b : Fin 3 → ℝ) : Fin 3 → ℝ :=
  ![a 1 * b 2 - a 2 * b 1, a 2 * b 0 - a 0 * b 2, a 0 * b 1 - a 1 * b 0]

/-- A column of `F` and of `wF` (lines 264-285). -/
def icpF (comp : Bool) (e : IcpPair) : Fin 6 → ℝ :=
  let c := icpCross e.p e.n
  let col : Fin 6 → ℝ := ![c 0, c 1, c 2, e.n 0, e.n 1, e.n 2]
  if comp then fun i => col i * e.f else col
def icpWF (comp : Bool) (e : IcpPair) : Fin 6 → ℝ :=
  let c := icpCross e.p e.n
  let col : Fin 6 → ℝ := ![e.w * c 0, e.w * c 1, e.w * c 2, e.w * e.n 0, e.w * e.n 1, e.w * e.n 2]
  if comp then fun i => col i * e.f else col

/-- `A = wF * F.transpose()` (line 288). -/
def icpA (comp : Bool) (l : List IcpPair) : Fin 6 → Fin 6 → ℝ :=
  fun i j => (l.map fun e => icpWF comp e i * icpF comp e j).sum

/-- One entry of `dotProd` (lines 289-295). -/
def icpDot (e : IcpPair) : ℝ :=
  0 + (e.p 0 - e.q 0) * e.n 0 + (e.p 1 - e.q 1) * e.n 1 + (e.p 2 - e.q 2) * e.n 2

/-- `b = -(wF * dotProd.transpose())` (line 298). -/
def icpB (comp : Bool) (l : List IcpPair) : Fin 6 → ℝ :=
  fun i => -(l.map fun e => icpWF comp e i * icpDot e).sum

/-- `Eigen::AngleAxis::toRotationMatrix` for an axis of length one. -/
def angleAxis (a : ℝ) (u : Fin 3 → ℝ) : Mat3 :=
  let s := Real.sin a
  let c := Real.cos a
  let k : Fin 3 → ℝ := fun i => (1 - c) * u i
  !![k 0 * u 0 + c, k 0 * u 1 - s * u 2, k 0 * u 2 + s * u 1;
     k 0 * u 1 + s * u 2, k 1 * u 1 + c, k 1 * u 2 - s * u 0;
     k 0 * u 2 - s * u 1, k 1 * u 2 + s * u 0, k 2 * u 2 + c]

/-- `x.head(3).norm()`. -/
def norm3 (r : Fin 3 → ℝ) : ℝ := Real.sqrt (r 0 ^ 2 + r 1 ^ 2 + r 2 ^ 2)

/-- Lines 303-320: rotation by the length of the first three numbers about their direction, translation
by the last three. No direction gives values that are not numbers or the identity, and then the
identity. -/
def icpMotion (x : Fin 6 → ℝ) : Mat3 × (Fin 3 → ℝ) :=
  let r : Fin 3 → ℝ := ![x 0, x 1, x 2]
  let R := if norm3 r = 0 then 1 else angleAxis (norm3 r) (fun i => r i / norm3 r)
  (R, ![x 3, x 4, x 5])

/-- `ComputePointToPlane` (lines 252-323). -/
def pointToPlane (solve : (Fin 6 → Fin 6 → ℝ) → (Fin 6 → ℝ) → Fin 6 → ℝ) (comp : Bool) (l : List IcpPair) :
    Mat3 × (Fin 3 → ℝ) :=
  icpMotion (solve (icpA comp l) (icpB comp l))

/-- A point moved by a rotation and a translation. -/
def icpMove (T : Mat3 × (Fin 3 → ℝ)) (p : Fin 3 → ℝ) : Fin 3 → ℝ := fun i => T.1.mulVec p i + T.2 i

end
end Verif
