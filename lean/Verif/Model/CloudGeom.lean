import Verif.Model.CloudIO
import Verif.Model.Geom
import Verif.Model.Outcome
import Mathlib.Data.Matrix.Mul
import Mathlib.Data.Fin.VecNotation
import Mathlib.LinearAlgebra.Matrix.Notation
/-
builder/data/cloud_types.cc : moving clouds by 4x4 matrices.

`Eigen::Matrix4d` is a 4x4 matrix over an arbitrary commutative ring (exact arithmetic instead of
double / float).
-/
namespace Verif

abbrev Mat4 (R : Type _) := Matrix (Fin 4) (Fin 4) R

variable {R : Type _} [CommRing R]

/-- `homo << x, y, z, 1` then `transform * homo` (cloud_types.cc:169-172, 293-295). -/
def homTimes (T : Mat4 R) (p : Vec3 R) : Fin 4 → R := T.mulVec ![p.x, p.y, p.z, 1]

/-- cloud_types.cc:167-178 `TransformPoint`. -/
def transformPoint (T : Mat4 R) (p : InnerPoint R) : InnerPoint R :=
  let q := homTimes T ⟨p.x, p.y, p.z⟩
  { x := q 0, y := q 1, z := q 2, intensity := p.intensity, factor := p.factor }

/-- cloud_types.cc:232-236. -/
def transformInplace (T : Mat4 R) (c : InnerCloud R) : InnerCloud R :=
  { c with points := c.points.map (transformPoint T) }

/-- cloud_types.cc:238-247 : `out` is the output cloud's previous content, `none` = null pointer.
The output is assumed to be another object than the input (for the aliased call see
`transformToItself`). -/
def transformToOutput (T : Mat4 R) (c : InnerCloud R) (out : Option (InnerCloud R)) :
    Outcome (InnerCloud R) :=
  match out with
  | none => .abort
  | some o =>
    let o := { o with stamp := c.stamp }
    let o := { o with points := [] }
    .ok (c.points.foldl (fun o p => { o with points := o.points ++ [transformPoint T p] }) o)

/-- cloud_types.cc:238-247 called with `output == this`: `points.clear()` empties the input before
the loop. -/
def transformToItself (T : Mat4 R) (c : InnerCloud R) : InnerCloud R :=
  let c := { c with points := [] }
  c.points.foldl (fun o p => { o with points := o.points ++ [transformPoint T p] }) c

/-- cloud_types.cc:249-254 `operator+=` for two different objects. -/
def appendCloud (a b : InnerCloud R) : InnerCloud R :=
  b.points.foldl (fun a p => { a with points := a.points ++ [p] }) a

/-- The Eigen copy of a cloud: columns of `points`, columns of `normals` (empty when not
computed). cloud_types.h:104-150. -/
structure EigenCloud (R : Type _) where
  points : List (Vec3 R)
  normals : List (Vec3 R)
  deriving DecidableEq, Repr

/-- First three rows of `transform * homo_data`, where the fourth row of `homo_data` is 1. -/
def top3 (q : Fin 4 → R) : Vec3 R := ⟨q 0, q 1, q 2⟩

/-- cloud_types.cc:288-302 `EigenPointCloud::ApplyTransform`: the fourth row of `homo_data` is
still 1 when the normals are multiplied. -/
def EigenCloud.applyTransform (T : Mat4 R) (c : EigenCloud R) : Outcome (EigenCloud R) := do
  Outcome.check (0 < c.points.length)
  let pts := c.points.map (fun p => top3 (homTimes T p))
  if 0 < c.normals.length then
    Outcome.check (c.normals.length = c.points.length)
    return ⟨pts, c.normals.map (fun n => top3 (homTimes T n))⟩
  else
    return ⟨pts, c.normals⟩

end Verif
