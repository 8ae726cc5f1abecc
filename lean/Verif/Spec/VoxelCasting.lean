import Verif.Model.Geom
import Mathlib.Data.List.Chain
/-! What a discrete ray between two voxels is. -/
namespace Verif.Spec

/-- Largest axis distance. -/
def chebyshev (a b : Voxel) : Nat :=
  max (max (b.x - a.x).natAbs (b.y - a.y).natAbs) (b.z - a.z).natAbs

/-- One coordinate: `p` lies between `a` and `b`. -/
def Between (a p b : Int) : Prop := (a ≤ p ∧ p ≤ b) ∨ (b ≤ p ∧ p ≤ a)

/-- One coordinate of the `k`-th of `n` steps from `a` to `b` is within half a voxel of the
ideal value `a + k (b - a) / n`. -/
def NearLine (n : Nat) (k : Nat) (a p b : Int) : Prop :=
  2 * |(n : Int) * (p - a) - k * (b - a)| ≤ n

/-- Two consecutive voxels of a ray from `a` to `b`, on one axis: the coordinate stays or moves
one step towards `b`; on an axis of maximal distance it always moves. -/
def AxisStep (n : Nat) (a b p q : Int) : Prop :=
  (q = p ∨ q = p + (b - a).sign) ∧ ((b - a).natAbs = n → q = p + (b - a).sign)

structure IsRay (a b : Voxel) (path : List Voxel) : Prop where
  starts : path.head? = some a
  ends : path.getLast? = some b
  length : path.length = chebyshev a b + 1
  steps : path.IsChain (fun p q => AxisStep (chebyshev a b) a.x b.x p.x q.x ∧
    AxisStep (chebyshev a b) a.y b.y p.y q.y ∧ AxisStep (chebyshev a b) a.z b.z p.z q.z)
  inBox : ∀ p ∈ path, Between a.x p.x b.x ∧ Between a.y p.y b.y ∧ Between a.z p.z b.z
  near : ∀ k p, path[k]? = some p → NearLine (chebyshev a b) k a.x p.x b.x ∧
    NearLine (chebyshev a b) k a.y p.y b.y ∧ NearLine (chebyshev a b) k a.z p.z b.z

end Verif.Spec
