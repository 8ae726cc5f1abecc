import Verif.Model.CloudGeom
import Verif.Model.Floats
/-!
The poses of the front end as products of `double` matrices.

Simplification: the exponent of a `double` is unbounded.  The matcher is a parameter: every round
comes with the matrix it returned and with the verdict of the motion filter (C58 has the loop around
this).
-/
namespace Verif

/-- One step of an inner product in `double`: `c + a * b`, rounded once or, without a fused
instruction, twice. -/
def maddD (fma : Bool) (c a b : ℚ) : ℚ :=
  if fma then toF64 (c + a * b) else toF64 (c + toF64 (a * b))

/-- builder/map_builder.cc:349 `pose_target * align_result`, Eigen's product of two 4 x 4 matrices of
`double`: an entry is a row times a column, from the first factor to the last. -/
def mulPoseF (fma : Bool) (A B : Mat4 ℚ) : Mat4 ℚ := fun i j =>
  maddD fma
    (maddD fma
      (maddD fma (toF64 (A i 0 * B 0 j)) (A i 1) (B 1 j))
      (A i 2) (B 2 j))
    (A i 3) (B 3 j)

/-- registrators/ndt.cc:61, registrators/ndt_gicp.cc:103: a matcher that works with `float` hands on a
matrix of such numbers, as `double`. -/
def castF32 (T : Mat4 ℚ) : Mat4 ℚ := fun i j => toF32 (T i j)

/-- builder/map_builder.cc:269, 349, 381-390 (`ScanMatchProcessing`): the pose of every matched cloud.
`pose_target` is the pose of the newest key frame; it is replaced by the pose of a cloud that becomes
one, as it is, without bringing its rotation back to a rotation. -/
def frontPoses (fma : Bool) : Mat4 ℚ → List (Mat4 ℚ × Bool) → List (Mat4 ℚ)
  | _, [] => []
  | target, (align, key) :: rest =>
    let source := mulPoseF fma target align
    source :: frontPoses fma (if key then source else target) rest

end Verif
