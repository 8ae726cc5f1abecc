import Verif.Model.Invalid
/-! Points with numbers as coordinates. -/
namespace Verif.Spec
open Verif

/-- The point has the coordinates `x y z`. -/
def PointAt (p : FlPoint) (x y z : ℚ) : Prop := p = ⟨.num x, .num y, .num z⟩

/-- All coordinates are numbers. -/
def IsNumber (p : FlPoint) : Prop := ∃ x y z : ℚ, PointAt p x y z

/-- The chain holds a range filter with the upper limit `mx`. -/
def HasRange (mx : ℚ) (fs : List FlFilter) : Prop := ∃ mn, FlFilter.range mn mx ∈ fs

/-- Entries of a pose of a frame in its submap: nearly a rotation, and a shift of at most `t`. -/
def Moderate (t : ℚ) (T : Mat4 ℚ) : Prop := ∀ i : Fin 3, (∀ j : Fin 3, |T i.castSucc j.castSucc| ≤ 101 / 100) ∧ |T i.castSucc 3| ≤ t

end Verif.Spec
