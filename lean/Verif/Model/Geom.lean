import Mathlib.Algebra.Order.Floor.Ring
import Mathlib.Data.Rat.Floor
/-
Vectors, points and integer voxels shared by several models.
Eigen's `Vector3f/d/i` become `Vec3` over exact numbers.
-/
namespace Verif

structure Vec3 (α : Type _) where
  x : α
  y : α
  z : α
  deriving Repr, DecidableEq

abbrev Voxel := Vec3 Int

namespace Vec3
variable {α : Type _}

@[ext] theorem ext' {a b : Vec3 α} (hx : a.x = b.x) (hy : a.y = b.y) (hz : a.z = b.z) : a = b := by
  cases a; cases b; simp_all

end Vec3
end Verif
