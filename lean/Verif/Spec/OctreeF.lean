import Verif.Model.OctreeF
import Verif.Spec.Octree
/-
What "the cube lies on the binary grid" means.
-/
namespace Verif.Spec

/-- The number is a whole multiple of `2^k`. -/
def OnGrid (k : ℤ) (x : Rat) : Prop := ∃ m : ℤ, x = m * 2 ^ k

/-- A cube that can be halved `depth` times without a rounding: its centre and the half of its
smallest cube are whole multiples of one power of two, and the cube ends before the `2^52`-fold of
that power. -/
def Halvable (depth : ℕ) (c : Pt) (size : Rat) : Prop :=
  0 ≤ size ∧ ∃ k : ℤ, OnGrid k c.x ∧ OnGrid k c.y ∧ OnGrid k c.z ∧
    OnGrid k (size / 2 ^ (depth + 1)) ∧
    |c.x| + size / 2 ≤ 2 ^ 52 * 2 ^ k ∧ |c.y| + size / 2 ≤ 2 ^ 52 * 2 ^ k ∧
    |c.z| + size / 2 ≤ 2 ^ 52 * 2 ^ k

end Verif.Spec
