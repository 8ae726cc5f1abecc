import Verif.Model.CloudGeom
import Verif.Model.Floats
/-
builder/data/cloud_types.cc:167-179 `TransformPoint` and 232-247, with the arithmetic of `float`s.

The pose is a matrix of `double`s, the coordinates of a point are `float`s.  The pose is first
converted to `float`s (171-172); then each row is multiplied out from left to right, as Eigen does for
a matrix and a vector of four `float`s.  `fma`: the compiler fused each multiplication with the
addition that follows it (one rounding instead of two).
-/
namespace Verif

/-- `c + a * b` in `float`s. -/
def maddF (fma : Bool) (c a b : ℚ) : ℚ :=
  if fma then toF32 (c + a * b) else toF32 (c + toF32 (a * b))

/-- One row of `transform.cast<float>() * homo_point`. -/
def rowF (fma : Bool) (r0 r1 r2 r3 x y z : ℚ) : ℚ :=
  maddF fma
    (maddF fma
      (maddF fma (toF32 (toF32 r0 * x)) (toF32 r1) y)
      (toF32 r2) z)
    (toF32 r3) 1

/-- 167-179. -/
def transformPointF (fma : Bool) (T : Mat4 ℚ) (p : InnerPoint ℚ) : InnerPoint ℚ :=
  { x := rowF fma (T 0 0) (T 0 1) (T 0 2) (T 0 3) p.x p.y p.z
    y := rowF fma (T 1 0) (T 1 1) (T 1 2) (T 1 3) p.x p.y p.z
    z := rowF fma (T 2 0) (T 2 1) (T 2 2) (T 2 3) p.x p.y p.z
    intensity := p.intensity
    factor := p.factor }

/-- 238-247 (and 232-236 in place). -/
def transformCloudF (fma : Bool) (T : Mat4 ℚ) (c : InnerCloud ℚ) : InnerCloud ℚ :=
  { c with points := c.points.map (transformPointF fma T) }

end Verif
