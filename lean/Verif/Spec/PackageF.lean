import Verif.Model.PackageF
import Verif.Spec.MapPackage
import Verif.Spec.Seconds
/-! Vocabulary for C100. -/
namespace Verif.Spec
open Verif

/-- Inside the bounding box of the submap positions widened by `b`, and at least `d` away from its edges. -/
def WellInArea (b d : Rat) (submaps : List PkgSubmap) (p : Vec3 Rat) : Prop := InArea (b - d) submaps p

/-- How large the numbers are: positions with the border, and the width of a piece, are at most `A`, and the width
is not absurdly small against it. -/
structure PkgScale (A : Rat) (o : PkgOptions) (submaps : List PkgSubmap) : Prop where
  pos : ∀ s ∈ submaps, |s.pos.x| + o.border ≤ A ∧ |s.pos.y| + o.border ≤ A
  border : 0 ≤ o.border
  double : IsDouble o.width
  width : 0 < o.width
  wide : o.width ≤ A
  fine : A ≤ 2 ^ 40 * o.width
  max : A ≤ 10 ^ 50

end Verif.Spec
