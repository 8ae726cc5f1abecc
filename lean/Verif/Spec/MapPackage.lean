import Verif.Model.MapPackage
/-! Vocabulary for C35. -/
namespace Verif.Spec
open Verif

/-- Inside the bounding box of the submap positions, widened by `b` on every side. -/
def InArea (b : Rat) (submaps : List PkgSubmap) (p : Vec3 Rat) : Prop :=
  (∃ s ∈ submaps, s.pos.x - b ≤ p.x) ∧ (∃ s ∈ submaps, p.x ≤ s.pos.x + b) ∧
  (∃ s ∈ submaps, s.pos.y - b ≤ p.y) ∧ (∃ s ∈ submaps, p.y ≤ s.pos.y + b)

/-- Inside the rectangle of a piece. -/
def InPiece (pc : PkgPiece) (p : Vec3 Rat) : Prop :=
  pc.minX ≤ p.x ∧ p.x ≤ pc.maxX ∧ pc.minY ≤ p.y ∧ p.y ≤ pc.maxY

/-- Positions are within the constants the code starts its search from. -/
def Bounded (submaps : List PkgSubmap) : Prop :=
  ∀ s ∈ submaps, |s.pos.x| ≤ 10 ^ 50 ∧ |s.pos.y| ≤ 10 ^ 50

end Verif.Spec
