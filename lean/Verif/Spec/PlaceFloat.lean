import Verif.Spec.CloudGeom
import Verif.Spec.Seconds
/-! Specification of placing points: how far a computed position may be from the exact one. -/
namespace Verif.Spec

/-- Each coordinate of `a` is within `e` of the same coordinate of `b`. -/
def Within (e : ℚ) (a b : Vec3 ℚ) : Prop := |a.x - b.x| ≤ e ∧ |a.y - b.y| ≤ e ∧ |a.z - b.z| ≤ e

/-- Each coordinate is at most `d` from zero. -/
def InBox (d : ℚ) (a : Vec3 ℚ) : Prop := |a.x| ≤ d ∧ |a.y| ≤ d ∧ |a.z| ≤ d

/-- The rows of the linear part are at most one per cent longer than one.  (Those of a rotation are
exactly one long; a matrix of `double`s is never exactly a rotation.) -/
def NearRotation (T : Mat4 ℚ) : Prop :=
  ∀ i : Fin 4, i ≠ 3 → T i 0 ^ 2 + T i 1 ^ 2 + T i 2 ^ 2 ≤ (101 / 100) ^ 2

end Verif.Spec
