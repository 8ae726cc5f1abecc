import Verif.Model.Geom
import Verif.Model.Filters
import Mathlib.Algebra.Order.Field.Rat
import Mathlib.Algebra.Order.Group.Abs
/-! Where a point may end up when its voxel is computed with single precision. -/
namespace Verif.Spec

/-- One axis: `t` lies in the cell `[i * step, (i + 1) * step)`, except that it may miss the lower face
by one part in 2^24 of its own size. -/
def NearCell (i : Int) (step t : ℚ) : Prop :=
  (i : ℚ) * step - |t| / 2 ^ 24 ≤ t ∧ t < (i + 1) * step

/-- All three axes. -/
def NearVoxel (v : Voxel) (step : ℚ) (p : Vec3 Rat) : Prop :=
  NearCell v.x step p.x ∧ NearCell v.y step p.y ∧ NearCell v.z step p.z

/-- Every coordinate is at most 2^23 cells away from zero. -/
def WithinCells (step : ℚ) (p : Vec3 Rat) : Prop :=
  |p.x| ≤ 2 ^ 23 * step ∧ |p.y| ≤ 2 ^ 23 * step ∧ |p.z| ≤ 2 ^ 23 * step

/-- `t` is not within one part in 2^24 below the face of the next cell. -/
def ClearOfFace (step t : ℚ) : Prop :=
  ∀ i : Int, t < i * step → t + |t| / 2 ^ 24 < i * step

end Verif.Spec
