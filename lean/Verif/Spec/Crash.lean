import Verif.Model.Crash
namespace Verif.Spec

/-- The points of a package as they are in the map: every piece moved back to its centre. -/
def wholeMap (pkg : Package) : List (Vec3 Rat) :=
  pkg.pieces.flatMap fun p => p.cloud.map fun q => { x := pkgJoinF q.x p.cx, y := pkgJoinF q.y p.cy, z := q.z }

/-- The name is not among the files saved. -/
def NotSaved (n : List Char) (ws : List FileWrite) : Prop := ∀ w ∈ ws, w.1 ≠ n

end Verif.Spec
